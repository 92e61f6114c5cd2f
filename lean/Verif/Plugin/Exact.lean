import Verif.Plugin.Props
import Verif.Json.Lexer

/-! # When `compile_commands.json` is the compilation database, exactly (C53) -/

namespace Verif.Plugin
open Verif Verif.Schema Verif.Target Verif.Command Verif.Json

/-- A literal with a backslash lies in the string that was inserted. -/
def Inserted (q : Str) (raw : Str) : Prop := c!"\\" ∈ raw ∧ q.length ≤ raw.length

theorem lit_line {q key raw e : Str} (hk : Lex.run .out key = some .out) (hk' : c!"\\" ∉ key)
    (he : e = b!"\"" ∨ e = b!"\",") (hq : c!"\\" ∈ q)
    (h : LitIn q (key ++ (b!": \"" ++ raw ++ e))) : Inserted q raw := by
  rcases h.part hk with h | h
  · exact absurd (h.mem _ hq) hk'
  have hm := h.mem _ hq
  have hraw : c!"\\" ∈ raw := by
    simp only [List.mem_append] at hm
    rcases hm with (hm | hm) | hm
    · exact absurd hm (by decide)
    · exact hm
    · rcases he with rfl | rfl <;> exact absurd hm (by decide)
  refine ⟨hraw, ?_⟩
  obtain ⟨a, b, heq, -, -⟩ := h
  have e1 : b!": \"" ++ raw ++ e = c!":" :: c!" " :: c!"\"" :: (raw ++ e) := by simp
  rw [e1] at heq
  cases a with
  | nil =>
    simp only [List.nil_append, List.cons.injEq] at heq
    exact absurd heq.1 (by decide)
  | cons x a =>
    simp only [List.cons_append, List.cons.injEq] at heq
    obtain ⟨-, heq⟩ := heq
    cases a with
    | nil =>
      simp only [List.nil_append, List.cons.injEq] at heq
      exact absurd heq.1 (by decide)
    | cons y a =>
      simp only [List.cons_append, List.cons.injEq] at heq
      obtain ⟨-, heq⟩ := heq
      rcases he with rfl | rfl
      · have := congrArg List.length heq
        simp only [List.length_cons, List.length_append, List.length_nil] at this
        omega
      · cases b with
        | cons z b =>
          have := congrArg List.length heq
          simp only [List.length_cons, List.length_append, List.length_nil] at this
          omega
        | nil =>
          exfalso
          have e2 : c!"\"" :: (raw ++ b!"\",") = (c!"\"" :: (raw ++ b!"\"")) ++ [c!","] := by simp
          have e3 : a ++ c!"\"" :: (q ++ [c!"\""]) = (a ++ c!"\"" :: q) ++ [c!"\""] := by simp
          rw [e2, e3] at heq
          have := (List.append_inj' heq rfl).2
          exact absurd this (by decide)

theorem lit_fixed {q x : Str} (h : LitIn q x) (hx : c!"\\" ∉ x) (hq : c!"\\" ∈ q) : False :=
  hx (h.mem _ hq)

/-- The strings of an entry. -/
def Entry.strings (e : Entry) : List Str := [e.1, e.2.1, e.2.2]

theorem lit_entry {q : Str} (hq : c!"\\" ∈ q) {x : Entry} {tail : Str}
    (h : LitIn q (entryText x.1 x.2.1 x.2.2 ++ tail)) :
    (∃ raw ∈ x.strings, Inserted q raw) ∨ LitIn q (b!"}" ++ tail) := by
  obtain ⟨d, c, f⟩ := x
  have e : entryText d c f ++ tail =
      b!"{" ++ c!"\n" :: ((b!"  \"directory\"" ++ (b!": \"" ++ d ++ b!"\",")) ++ c!"\n" ::
        ((b!"  \"command\"" ++ (b!": \"" ++ c ++ b!"\",")) ++ c!"\n" ::
          ((b!"  \"file\"" ++ (b!": \"" ++ f ++ b!"\"")) ++ c!"\n" :: (b!"}" ++ tail)))) := by
    simp [entryText]
  rw [e] at h
  rcases h.line with h | h
  · exact (lit_fixed h (by decide) hq).elim
  rcases h.line with h | h
  · exact .inl ⟨d, by simp [Entry.strings], lit_line (by decide) (by decide) (.inr rfl) hq h⟩
  rcases h.line with h | h
  · exact .inl ⟨c, by simp [Entry.strings], lit_line (by decide) (by decide) (.inr rfl) hq h⟩
  rcases h.line with h | h
  · exact .inl ⟨f, by simp [Entry.strings], lit_line (by decide) (by decide) (.inl rfl) hq h⟩
  exact .inr h

theorem lit_entries {q : Str} (hq : c!"\\" ∈ q) (l : List Entry)
    (h : LitIn q (b!",\n".intercalate (l.map fun x => entryText x.1 x.2.1 x.2.2) ++ b!"\n]")) :
    ∃ x ∈ l, ∃ raw ∈ x.strings, Inserted q raw := by
  induction l with
  | nil => exact (lit_fixed h (by decide) hq).elim
  | cons x l ih =>
    cases l with
    | nil =>
      simp only [List.map_cons, List.map_nil, List.intercalate_singleton] at h
      rcases lit_entry hq h with ⟨raw, hr, hi⟩ | h
      · exact ⟨x, by simp, raw, hr, hi⟩
      · exact (lit_fixed h (by decide) hq).elim
    | cons y l =>
      rw [List.map_cons, List.map_cons, List.intercalate_cons_cons, List.append_assoc,
        List.append_assoc] at h
      rcases lit_entry hq h with ⟨raw, hr, hi⟩ | h
      · exact ⟨x, by simp, raw, hr, hi⟩
      · have e : ∀ t : Str, b!"}" ++ (b!",\n" ++ t) = b!"}," ++ c!"\n" :: t := by intro t; simp
        rw [e] at h
        rcases h.line with h | h
        · exact (lit_fixed h (by decide) hq).elim
        · obtain ⟨z, hz, r⟩ := ih h
          exact ⟨z, by simp [hz], r⟩

/-- If the file holds the entries, then a string that cannot stand between quotes as it is needs a
longer one of this kind. -/
theorem longer {l : List Entry}
    (h : Grammar.Document (.arr (l.map fun x => entry x.1 x.2.1 x.2.2))
      (fileText (l.map fun x => entryText x.1 x.2.1 x.2.2)))
    {x : Entry} (hx : x ∈ l) {s : Str} (hs : s ∈ x.strings) (hp : ¬ Plain s) :
    ∃ y ∈ l, ∃ r ∈ y.strings, ¬ Plain r ∧ s.length < r.length := by
  have has : Has s (.arr (l.map fun x => entry x.1 x.2.1 x.2.2)) := by
    refine .arr (List.mem_map.2 ⟨x, hx, rfl⟩) ?_
    simp only [Entry.strings, List.mem_cons, List.not_mem_nil, or_false] at hs
    rcases hs with rfl | rfl | rfl
    · exact .obj (k := b!"directory") (by simp) .str
    · exact .obj (k := b!"command") (by simp) .str
    · exact .obj (k := b!"file") (by simp) .str
  obtain ⟨q, hc, hl⟩ := document_lit h has
  rcases chars_size hc with ⟨-, hu, hb⟩ | ⟨hq, hlen⟩
  · exact absurd ⟨hu, hb⟩ hp
  have e : fileText (l.map fun x => entryText x.1 x.2.1 x.2.2) = b!"[" ++ c!"\n" ::
      (b!",\n".intercalate (l.map fun x => entryText x.1 x.2.1 x.2.2) ++ b!"\n]") := by
    simp [fileText]
  rw [e] at hl
  rcases hl.line with hl | hl
  · exact (lit_fixed hl (by decide) hq).elim
  obtain ⟨y, hy, r, hr, hi, hle⟩ := lit_entries hq l hl
  exact ⟨y, hy, r, hr, fun hp => (hp.2 _ hi).2.1 rfl, by omega⟩

/-- The file holds the entries exactly if all their strings can stand between quotes as they are. -/
theorem fileText_exact (l : List Entry) :
    Grammar.Document (.arr (l.map fun x => entry x.1 x.2.1 x.2.2))
      (fileText (l.map fun x => entryText x.1 x.2.1 x.2.2)) ↔
    ∀ x ∈ l, ∀ s ∈ x.strings, Plain s := by
  constructor
  · intro h x hx s hs
    by_cases hp : Plain s
    · exact hp
    exfalso
    have climb : ∀ n : Nat, ∃ y ∈ l, ∃ r ∈ y.strings, ¬ Plain r ∧ n ≤ r.length := by
      intro n
      induction n with
      | zero => exact ⟨x, hx, s, hs, hp, Nat.zero_le _⟩
      | succ n ih =>
        obtain ⟨y, hy, r, hr, hpr, hn⟩ := ih
        obtain ⟨z, hz, r', hr', hpr', hlt⟩ := longer h hy hr hpr
        exact ⟨z, hz, r', hr', hpr', by omega⟩
    have bound : ∀ (k : List Str), ∀ r ∈ k, r.length ≤ k.flatten.length := by
      intro k
      induction k with
      | nil => simp
      | cons a k ih =>
        intro r hr
        rw [List.flatten_cons, List.length_append]
        rcases List.mem_cons.1 hr with rfl | hr
        · omega
        · have := ih r hr
          omega
    obtain ⟨y, hy, r, hr, -, hn⟩ := climb ((l.flatMap Entry.strings).flatten.length + 1)
    have := bound (l.flatMap Entry.strings) r (List.mem_flatMap.2 ⟨y, hy, hr⟩)
    omega
  · intro h
    rw [← parse_iff, parse_fileText]
    intro x hx
    exact ⟨h x hx _ (by simp [Entry.strings]), h x hx _ (by simp [Entry.strings]),
      h x hx _ (by simp [Entry.strings])⟩

/-- C53, exactly: when `Generate` writes the file, the file is a JSON document that holds the
compilation database of the targets if and only if there is no source at all, or the build directory,
the sources and the commands are UTF-8 without quotes, backslashes and control characters and the
build directory has no space. -/
theorem C53_exact {dir : Str} {targets : List PTarget} {old : Option Str}
    (ha : Path.isAbs dir = true) (hb : ∃ t ∈ targets, t.isBuilt = true)
    (hc : ∀ t ∈ targets, ∀ s ∈ t.sources, ∃ c, getCompileCommand t s = some c) :
    ∃ text, generate dir targets true old = (.written, some text) ∧
      (Grammar.Document (database (Path.toPathString dir) targets) text ↔
        (∀ t ∈ targets, t.sources = []) ∨
        (Plain (Path.toPathString dir) ∧ c!" " ∉ Path.toPathString dir ∧
          ∀ t ∈ targets, ∀ s ∈ t.sources, Plain s ∧
            ∀ c, getCompileCommand t s = some c → Plain c)) := by
  by_cases hn : ∃ t ∈ targets, t.sources ≠ []
  · have hn' : ¬ ∀ t ∈ targets, t.sources = [] := by
      obtain ⟨t, ht, h⟩ := hn
      exact fun h' => h (h' t ht)
    by_cases hs : c!" " ∈ Path.toPathString dir
    · obtain ⟨text, hw, hd⟩ := C53_space_false (old := old) hb hc hn ha hs
      exact ⟨text, hw, iff_of_false (hd _) (fun h => h.elim hn' fun h => h.2.1 hs)⟩
    have hdisp : Path.displayString dir = Path.toPathString dir := by
      simp only [Path.displayString]
      rw [if_neg hs]
    have hall := allEntries_eq dir targets fun t ht s hs => by
      obtain ⟨c, h⟩ := hc t ht s hs
      simp [h]
    rw [hdisp] at hall
    refine ⟨_, by rw [generate, List.any_eq_true.2 hb, hall]; rfl, ?_⟩
    have hdb : database (Path.toPathString dir) targets =
        .arr ((entriesOf (Path.toPathString dir) targets).map fun x => entry x.1 x.2.1 x.2.2) := by
      simp [database, entriesOf, List.map_flatMap, Function.comp_def]
    rw [hdb, fileText_exact]
    constructor
    · intro h
      right
      have key : ∀ t ∈ targets, ∀ s ∈ t.sources, Plain (Path.toPathString dir) ∧
          Plain ((getCompileCommand t s).getD []) ∧ Plain s := by
        intro t ht s hs
        have := h (Path.toPathString dir, (getCompileCommand t s).getD [], s)
          (by simp only [entriesOf, List.mem_flatMap, List.mem_map]; exact ⟨t, ht, s, hs, rfl⟩)
        exact ⟨this _ (by simp [Entry.strings]), this _ (by simp [Entry.strings]),
          this _ (by simp [Entry.strings])⟩
      obtain ⟨t, ht, hne⟩ := hn
      obtain ⟨s, hs'⟩ := List.exists_mem_of_ne_nil _ hne
      refine ⟨(key t ht s hs').1, hs, fun t ht s hs => ⟨(key t ht s hs).2.2, fun c hc => ?_⟩⟩
      have := (key t ht s hs).2.1
      rw [hc] at this
      exact this
    · rintro (h | ⟨h1, -, h2⟩)
      · exact absurd h hn'
      · intro x hx s hs'
        simp only [entriesOf, List.mem_flatMap, List.mem_map] at hx
        obtain ⟨t, ht, s', hs, rfl⟩ := hx
        obtain ⟨c, hcc⟩ := hc t ht s' hs
        obtain ⟨h3, h4⟩ := h2 t ht s' hs
        simp only [Entry.strings, List.mem_cons, List.not_mem_nil, or_false] at hs'
        rcases hs' with rfl | rfl | rfl
        · exact h1
        · rw [hcc]; exact h4 c hcc
        · exact h3
  · have hn' : ∀ t ∈ targets, t.sources = [] := fun t ht =>
      Classical.byContradiction fun h => hn ⟨t, ht, h⟩
    have hall := allEntries_eq dir targets fun t ht s hs => by
      obtain ⟨c, h⟩ := hc t ht s hs
      simp [h]
    refine ⟨_, by rw [generate, List.any_eq_true.2 hb, hall]; rfl, iff_of_true ?_ (.inl hn')⟩
    have he : ∀ d, entriesOf d targets = [] := by
      intro d
      simp only [entriesOf, List.flatMap_eq_nil_iff]
      intro t ht
      simp [hn' t ht]
    have hdb : database (Path.toPathString dir) targets = .arr [] := by
      have := he (Path.toPathString dir)
      simp only [database]
      congr 1
      rw [List.flatMap_eq_nil_iff]
      intro t ht
      simp [hn' t ht]
    rw [he, hdb, ← parse_iff]
    rfl

/-- The hypotheses hold for a target with two sources; with a plain flag the file holds the database. -/
example : Path.isAbs b!"/b" = true ∧
    ∃ t, PTarget.of exFx (exUser [b!"-DX"]) true = some t ∧ (∃ t' ∈ [t], t'.isBuilt = true) ∧
      (∀ t' ∈ [t], ∀ s ∈ t'.sources, ∃ c, getCompileCommand t' s = some c) := by
  refine ⟨rfl, ?_⟩
  cases h : PTarget.of exFx (exUser [b!"-DX"]) true with
  | none =>
    have : (PTarget.of exFx (exUser [b!"-DX"]) true).isSome = true := by decide +kernel
    rw [h] at this
    simp at this
  | some t =>
    obtain ⟨-, h2, h3⟩ := C53_commands h
    refine ⟨t, rfl, ⟨t, by simp, h2⟩, ?_⟩
    intro t' ht' s hs
    rw [List.mem_singleton] at ht'
    subst ht'
    obtain ⟨c, -, hc⟩ := h3 s hs
    exact ⟨c, hc⟩

end Verif.Plugin
