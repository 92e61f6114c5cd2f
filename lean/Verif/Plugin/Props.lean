import Verif.Plugin.Model
import Verif.Json.GrammarParse
import Verif.Schema.Spec
import Verif.Command.Lemmas

/-! # `compile_commands.json` (C53, C69) -/

namespace Verif.Plugin
open Verif Verif.Schema Verif.Target Verif.Command Verif.Json

/-! ## Specification -/

/-- A string that can stand between quotes as it is. -/
def Plain (s : Str) : Prop :=
  Utf8 s ∧ ∀ b ∈ s, b ≠ c!"\"" ∧ b ≠ c!"\\" ∧ ¬ b < 32

instance (s : Str) : Decidable (Plain s) :=
  decidable_of_iff (validUtf8 s = true ∧ ∀ b ∈ s, b ≠ c!"\"" ∧ b ≠ c!"\\" ∧ ¬ b < 32)
    (by rw [validUtf8_iff]; exact Iff.rfl)

/-- One entry of the compilation database. -/
def entry (directory command file : Str) : JVal :=
  .obj [(b!"directory", .str directory), (b!"command", .str command), (b!"file", .str file)]

/-- The compilation database of the targets: an entry for each source, in order. -/
def database (directory : Str) (targets : List PTarget) : JVal :=
  .arr (targets.flatMap fun t => t.sources.map fun s =>
    entry directory ((getCompileCommand t s).getD []) s)

/-! ## Lemmas -/

theorem plain_escape {s : Str} (h : ∀ b ∈ s, b ≠ c!"\"" ∧ b ≠ c!"\\" ∧ ¬ b < 32) :
    s.flatMap escByte = s := by
  induction s with
  | nil => rfl
  | cons b s ih =>
    rw [List.flatMap_cons, ih fun x hx => h x (by simp [hx])]
    obtain ⟨h1, h2, h3⟩ := h b (by simp)
    have : escByte b = [b] := by
      rw [escByte]
      have h4 : b ≠ 8 ∧ b ≠ 9 ∧ b ≠ 10 ∧ b ≠ 12 ∧ b ≠ 13 := by
        refine ⟨?_, ?_, ?_, ?_, ?_⟩ <;> rintro rfl <;> exact h3 (by decide)
      rw [if_neg h4.1, if_neg h4.2.1, if_neg h4.2.2.1, if_neg h4.2.2.2.1, if_neg h4.2.2.2.2,
        if_neg h1, if_neg h2, if_neg h3]
    rw [this]
    rfl

theorem scanStr_plain {s : Str} (h : Plain s) (r : Str) :
    scanStr (s ++ c!"\"" :: r) = some (s, r) := by
  have := scanStr_escape s r ((validUtf8_iff s).2 h.1)
  rwa [plain_escape h.2] at this

theorem parseV_plain {s : Str} (h : Plain s) (f : Nat) (r : Str) :
    parseV (f + 1) (c!" " :: c!"\"" :: (s ++ c!"\"" :: r)) = some (.str s, r) := by
  rw [parseV, skipWs_sp, skipWs_cons (by decide)]
  simp [scanStr_plain h]

/-- The last member of an object. -/
theorem member_last {k v : Str} (hk : Plain k) (hv : Plain v) (f : Nat) (r : Str) :
    parseMembers (f + 2) (c!"\"" :: (k ++ c!"\"" :: c!":" :: c!" " :: c!"\"" ::
      (v ++ c!"\"" :: c!"\n" :: c!"}" :: r))) = some ([(k, .str v)], r) := by
  rw [parseMembers, skipWs_cons (by decide)]
  simp only [if_true, scanStr_plain hk]
  rw [skipWs_cons (by decide)]
  simp only [if_true, parseV_plain hv]
  rw [skipWs_nl, skipWs_cons (by decide)]
  simp

/-- Another member. -/
theorem member_more {k v : Str} (hk : Plain k) (hv : Plain v) (f : Nat) (r : Str)
    {l : List (Str × JVal)} {r' : Str} (h : parseMembers (f + 1) r = some (l, r')) :
    parseMembers (f + 2) (c!"\"" :: (k ++ c!"\"" :: c!":" :: c!" " :: c!"\"" ::
      (v ++ c!"\"" :: c!"," :: r))) = some ((k, .str v) :: l, r') := by
  rw [parseMembers, skipWs_cons (by decide)]
  simp only [if_true, scanStr_plain hk]
  rw [skipWs_cons (by decide)]
  simp only [if_true, parseV_plain hv]
  rw [skipWs_cons (by decide)]
  simp [h]

theorem parseV_entry {d c s : Str} (hd : Plain d) (hc : Plain c) (hs : Plain s) (f : Nat)
    (r : Str) : parseV (f + 5) (entryText d c s ++ r) = some (entry d c s, r) := by
  have h3 := member_last (k := b!"file") (by decide) hs f r
  have h2 := member_more (k := b!"command") (by decide) hc (f + 1)
    (c!"\n" :: c!" " :: c!" " :: _) (r' := r) (l := [(b!"file", .str s)])
    (by rw [← parseMembers_skip, skipWs_nl, skipWs_sp, skipWs_sp, parseMembers_skip]; exact h3)
  have h1 := member_more (k := b!"directory") (by decide) hd (f + 2)
    (c!"\n" :: c!" " :: c!" " :: _) (r' := r) (l := [(b!"command", .str c), (b!"file", .str s)])
    (by rw [← parseMembers_skip, skipWs_nl, skipWs_sp, skipWs_sp, parseMembers_skip]; exact h2)
  have e : entryText d c s ++ r = c!"{" :: c!"\n" :: c!" " :: c!" " :: c!"\"" ::
      (b!"directory" ++ c!"\"" :: c!":" :: c!" " :: c!"\"" :: (d ++ c!"\"" :: c!"," ::
      (c!"\n" :: c!" " :: c!" " :: c!"\"" :: (b!"command" ++ c!"\"" :: c!":" :: c!" " :: c!"\"" ::
      (c ++ c!"\"" :: c!"," :: c!"\n" :: c!" " :: c!" " :: c!"\"" :: (b!"file" ++ c!"\"" ::
      c!":" :: c!" " :: c!"\"" :: (s ++ c!"\"" :: c!"\n" :: c!"}" :: r))))))) := by
    simp [entryText]
  rw [e, parseV, skipWs_cons (by decide)]
  simp only [if_true]
  rw [skipWs_nl, skipWs_sp, skipWs_sp, skipWs_cons (by decide)]
  simp only [show (c!"\"" : UInt8) ≠ c!"}" by decide, if_false]
  rw [h1]
  simp only [Option.some.injEq, Prod.mk.injEq, and_true, entry, JVal.obj.injEq]
  apply mkObj_nodup
  simp

/-- Three strings of an entry. -/
abbrev Entry := Str × Str × Str

theorem parseElems_entries (e : Entry) (l : List Entry) (r : Str)
    (h : ∀ x ∈ e :: l, Plain x.1 ∧ Plain x.2.1 ∧ Plain x.2.2) (f : Nat)
    (hf : l.length + 6 ≤ f) :
    parseElems f (b!",\n".intercalate ((e :: l).map fun x => entryText x.1 x.2.1 x.2.2) ++
        c!"\n" :: c!"]" :: r) =
      some ((e :: l).map fun x => entry x.1 x.2.1 x.2.2, r) := by
  induction l generalizing e f with
  | nil =>
    obtain ⟨f, rfl⟩ : ∃ g, f = g + 6 := ⟨f - 6, by simp at hf; omega⟩
    obtain ⟨h1, h2, h3⟩ := h e (by simp)
    simp only [List.map_cons, List.map_nil, List.intercalate_singleton]
    rw [parseElems, parseV_entry h1 h2 h3]
    simp [skipWs_nl, skipWs_cons (show isWs c!"]" = false by decide)]
  | cons e' l ih =>
    obtain ⟨f, rfl⟩ : ∃ g, f = g + 6 := ⟨f - 6, by simp at hf; omega⟩
    obtain ⟨h1, h2, h3⟩ := h e (by simp)
    have := ih e' (fun x hx => h x (by simp at hx ⊢; exact .inr hx)) (f + 5) (by simp at hf; omega)
    rw [List.map_cons, List.map_cons] at this
    rw [List.map_cons, List.map_cons, List.intercalate_cons_cons,
      List.append_assoc, List.append_assoc, parseElems, parseV_entry h1 h2 h3]
    simp only [List.cons_append, List.nil_append]
    rw [skipWs_cons (by decide)]
    simp only [show (c!"," : UInt8) ≠ c!"]" by decide, if_false, if_true]
    rw [← parseElems_skip, skipWs_nl, parseElems_skip, this]
    rfl

theorem entries_length (l : List Entry) :
    4 * l.length ≤ (b!",\n".intercalate (l.map fun x => entryText x.1 x.2.1 x.2.2)).length := by
  induction l with
  | nil => simp
  | cons e l ih =>
    cases l with
    | nil => simp [entryText]
    | cons e' l =>
      rw [List.map_cons] at ih
      rw [List.map_cons, List.map_cons, List.intercalate_cons_cons]
      have he : 4 ≤ (entryText e.1 e.2.1 e.2.2).length := by simp [entryText]
      simp only [List.length_append, List.length_cons] at ih ⊢
      omega

theorem parse_fileText (l : List Entry)
    (h : ∀ x ∈ l, Plain x.1 ∧ Plain x.2.1 ∧ Plain x.2.2) :
    parse (fileText (l.map fun x => entryText x.1 x.2.1 x.2.2)) =
      some (.arr (l.map fun x => entry x.1 x.2.1 x.2.2)) := by
  cases l with
  | nil => rfl
  | cons e l =>
    have hlen := entries_length (e :: l)
    generalize ht : b!",\n".intercalate ((e :: l).map fun x => entryText x.1 x.2.1 x.2.2) = t
      at hlen
    have e1 : fileText ((e :: l).map fun x => entryText x.1 x.2.1 x.2.2) =
        c!"[" :: c!"\n" :: (t ++ c!"\n" :: c!"]" :: []) := by simp [fileText, ← ht]
    rw [e1, parse, skipBom_ok rfl (by decide)]
    simp only [List.length_cons, List.length_append, List.length_nil] at hlen ⊢
    obtain ⟨g, hg⟩ : ∃ g, 2 * (t.length + (0 + 1 + 1) + 1 + 1) + 2 = g + 1 := ⟨_, rfl⟩
    have hp : parseElems g (t ++ c!"\n" :: c!"]" :: []) =
        some ((e :: l).map fun x => entry x.1 x.2.1 x.2.2, []) := by
      rw [← ht]
      exact parseElems_entries e l [] h g (by omega)
    obtain ⟨rest, hrest⟩ : ∃ rest, t ++ c!"\n" :: c!"]" :: [] = c!"{" :: rest := by
      rw [← ht, List.map_cons]
      cases l with
      | nil => exact ⟨_, by simp [entryText]; rfl⟩
      | cons e' l =>
        rw [List.map_cons, List.intercalate_cons_cons]
        exact ⟨_, by simp [entryText]; rfl⟩
    rw [hg, parseV, skipWs_cons (by decide)]
    simp only [show (c!"[" : UInt8) ≠ c!"{" by decide, if_false, if_true]
    rw [skipWs_nl, hrest, skipWs_cons (by decide)]
    simp only [show (c!"{" : UInt8) ≠ c!"]" by decide, if_false]
    rw [← hrest, hp]
    simp [atEnd, skipWs]

/-- The three strings of each entry. -/
def entriesOf (dir : Str) (targets : List PTarget) : List Entry :=
  targets.flatMap fun t => t.sources.map fun s => (dir, (getCompileCommand t s).getD [], s)

theorem targetEntries_eq (dir : Str) (t : PTarget) (l : List Str)
    (h : ∀ s ∈ l, (getCompileCommand t s).isSome) :
    targetEntries dir t l = some (l.map fun s =>
      entryText (Path.displayString dir) ((getCompileCommand t s).getD []) s) := by
  induction l with
  | nil => rfl
  | cons s l ih =>
    obtain ⟨c, hc⟩ := Option.isSome_iff_exists.1 (h s (by simp))
    rw [targetEntries, ih fun s hs => h s (by simp [hs]), hc]
    simp [hc]

theorem allEntries_eq (dir : Str) (targets : List PTarget)
    (h : ∀ t ∈ targets, ∀ s ∈ t.sources, (getCompileCommand t s).isSome) :
    allEntries dir targets = some ((entriesOf (Path.displayString dir) targets).map
      fun x => entryText x.1 x.2.1 x.2.2) := by
  induction targets with
  | nil => rfl
  | cons t l ih =>
    rw [allEntries, targetEntries_eq dir t t.sources (h t (by simp)),
      ih fun t ht => h t (by simp [ht])]
    simp [entriesOf]

theorem targetEntries_none (dir : Str) (t : PTarget) (l : List Str) :
    targetEntries dir t l = none ↔ ∃ s ∈ l, getCompileCommand t s = none := by
  induction l with
  | nil => simp [targetEntries]
  | cons s l ih =>
    rw [targetEntries]
    cases hc : getCompileCommand t s <;> cases ht : targetEntries dir t l <;>
      simp_all

theorem allEntries_none (dir : Str) (targets : List PTarget) :
    allEntries dir targets = none ↔
      ∃ t ∈ targets, ∃ s ∈ t.sources, getCompileCommand t s = none := by
  induction targets with
  | nil => simp [allEntries]
  | cons t l ih =>
    have h1 := targetEntries_none dir t t.sources
    rw [allEntries]
    cases hc : targetEntries dir t t.sources <;> cases ht : allEntries dir l <;>
      simp_all

/-! ## C53 -/

/-- C53 (partial: no quote, backslash or control character in the directory, the commands and
the sources, and no space in the directory): the written file is a JSON document
(`Json/Grammar.lean`) that holds the compilation database of the targets. -/
theorem C53_database_partial {dir : Str} {targets : List PTarget} {old : Option Str}
    (hb : ∃ t ∈ targets, t.isBuilt = true)
    (hc : ∀ t ∈ targets, ∀ s ∈ t.sources, ∃ c, getCompileCommand t s = some c ∧ Plain c ∧ Plain s)
    (hd : Plain (Path.toPathString dir)) (hs : c!" " ∉ Path.toPathString dir) :
    ∃ text, generate dir targets true old = (.written, some text) ∧
      Grammar.Document (database (Path.toPathString dir) targets) text := by
  have hany : targets.any (·.isBuilt) = true := List.any_eq_true.2 hb
  have hdisp : Path.displayString dir = Path.toPathString dir := by
    simp only [Path.displayString]
    rw [if_neg hs]
  have hall := allEntries_eq dir targets fun t ht s hs => by
    obtain ⟨c, h, -⟩ := hc t ht s hs
    simp [h]
  refine ⟨_, by rw [generate, hany, hall]; rfl, ?_⟩
  rw [← parse_iff, parse_fileText, hdisp, database]
  · simp [entriesOf, List.map_flatMap, Function.comp_def]
  · intro x hx
    simp only [entriesOf, List.mem_flatMap, List.mem_map] at hx
    obtain ⟨t, ht, s, hs, rfl⟩ := hx
    obtain ⟨c, h, h1, h2⟩ := hc t ht s hs
    rw [hdisp]
    exact ⟨hd, by simpa [h] using h1, h2⟩

/-- C53, how `Generate` ends: nothing happens exactly if no target was rebuilt; otherwise the
program ends exactly if some source of some target has no compile command (`Build` was not
called, or the source was added after it) or the file cannot be opened; otherwise the file is
written.  Unless it is written it keeps its content. -/
theorem C53_outcome (dir : Str) (targets : List PTarget) (canOpen : Bool) (old : Option Str) :
    ((generate dir targets canOpen old).1 = .skipped ↔ ∀ t ∈ targets, t.isBuilt = false) ∧
    ((generate dir targets canOpen old).1 = .fatal ↔ (∃ t ∈ targets, t.isBuilt = true) ∧
      ((∃ t ∈ targets, ∃ s ∈ t.sources, getCompileCommand t s = none) ∨ canOpen = false)) ∧
    ((generate dir targets canOpen old).1 ≠ .written →
      (generate dir targets canOpen old).2 = old) := by
  rw [← allEntries_none dir, generate]
  by_cases hb : ∃ t ∈ targets, t.isBuilt = true
  · rw [if_neg (by simpa using hb)]
    have hn : ¬ ∀ t ∈ targets, t.isBuilt = false := by
      obtain ⟨t, ht, h⟩ := hb
      intro hall
      simp [hall t ht] at h
    cases ha : allEntries dir targets <;> cases canOpen <;> simp [hn, hb]
  · have hn : ∀ t ∈ targets, t.isBuilt = false := by
      intro t ht
      cases h : t.isBuilt with
      | false => rfl
      | true => exact absurd ⟨t, ht, h⟩ hb
    rw [if_pos (by simpa using hn)]
    simp [hb]
    exact hn

/-- A rebuilt target whose second source was added after `Build`: the program ends, the file
stays. -/
example : generate b!"/b" [⟨true, [b!"/a.cpp", b!"/b.cpp"],
      [(b!"/a.cpp", b!"g++ -c /a.cpp")]⟩] true (some b!"[]") =
    (.fatal, some b!"[]") := by
  decide +kernel

/-- The commands of a target after `Build`: every source has the compile command of the
target. -/
theorem C53_commands {fx : Fixed} {u : TargetSchema} {b : Bool} {t : PTarget}
    (h : PTarget.of fx u b = some t) :
    t.sources = u.sources.map (·.path) ∧ t.isBuilt = b ∧ ∀ s ∈ t.sources, ∃ c,
      compileCommand fx u (Path.toPathString s) = .value c ∧ getCompileCommand t s = some c := by
  have key : ∀ (l : List PathInfo) (m m' : List (Str × Str)), objectFiles fx u l m = some m' →
      (∀ k c, lookupArg m k = some c → compileCommand fx u k = .value c) →
      (∀ k c, lookupArg m k = some c → lookupArg m' k = some c) ∧
      (∀ k c, lookupArg m' k = some c → compileCommand fx u k = .value c) ∧
      ∀ s ∈ l, (lookupArg m' (Path.toPathString s.path)).isSome := by
    intro l
    induction l with
    | nil =>
      intro m m' h hm
      simp only [objectFiles, Option.some.injEq] at h
      subst h
      exact ⟨fun _ _ h => h, hm, by simp⟩
    | cons s l ih =>
      intro m m' h hm
      simp only [objectFiles] at h
      split at h
      · rename_i hk
        obtain ⟨h1, h2, h3⟩ := ih m m' h hm
        refine ⟨h1, h2, fun x hx => ?_⟩
        rcases List.mem_cons.1 hx with rfl | hx
        · obtain ⟨c, hc⟩ := Option.isSome_iff_exists.1 hk
          simp [h1 _ _ hc]
        · exact h3 x hx
      · rename_i hk
        split at h
        · rename_i c hc
          have app : ∀ k, lookupArg (m ++ [(Path.toPathString s.path, c)]) k =
              (lookupArg m k).or (if Path.toPathString s.path = k then some c else none) := by
            intro k
            rw [lookupArg_append]
            congr 1
          obtain ⟨h1, h2, h3⟩ := ih _ m' h (by
            intro k c' hl
            rw [app] at hl
            cases hm' : lookupArg m k with
            | some x => rw [hm'] at hl; exact hm k c' (by rw [hm', ← hl]; rfl)
            | none =>
              rw [hm'] at hl
              simp only [Option.none_or] at hl
              split at hl
              · rename_i he
                simp only [Option.some.injEq] at hl
                rw [← he, ← hl]; exact hc
              · simp at hl)
          refine ⟨fun k c' hl => h1 k c' (by rw [app, hl]; rfl), h2, fun x hx => ?_⟩
          rcases List.mem_cons.1 hx with rfl | hx
          · have hn : lookupArg m (Path.toPathString x.path) = none := by
              cases hq : lookupArg m (Path.toPathString x.path) with
              | none => rfl
              | some v => simp [hq] at hk
            rw [h1 _ c (by rw [app, hn]; simp)]
            rfl
          · exact h3 x hx
        · simp at h
  rw [PTarget.of, Option.map_eq_some_iff] at h
  obtain ⟨m, hm, rfl⟩ := h
  obtain ⟨-, h2, h3⟩ := key _ _ _ hm (by simp [lookupArg])
  refine ⟨rfl, rfl, fun s hs => ?_⟩
  simp only [List.mem_map] at hs
  obtain ⟨x, hx, rfl⟩ := hs
  obtain ⟨c, hc⟩ := Option.isSome_iff_exists.1 (h3 x hx)
  exact ⟨c, h2 _ _ hc, hc⟩

/-- A target with two sources. -/
def exFx : Fixed where
  name := b!"t"
  rootDir := b!"/r"
  buildDir := b!"/b/gcc/t"
  cfg := {}
  exe := ⟨b!"as", b!"gcc", b!"g++", b!"ar", b!"ld"⟩
  tcfg := gccExe

def exUser (flags : List Str) : TargetSchema :=
  { TargetSchema.empty with
    sources := [⟨b!"/r/a.c", []⟩, ⟨b!"/r/b.cpp", []⟩], preprocessorFlags := flags }

/-- The text of the file for this target. -/
def exText (dir : Str) (flags : List Str) : Option Str :=
  (PTarget.of exFx (exUser flags) true).bind fun t => (generate dir [t] true none).2

example : ((PTarget.of exFx (exUser [b!"-DX"]) true).map fun t =>
    decide ((∃ t' ∈ [t], t'.isBuilt = true) ∧ ∀ s ∈ t.sources,
      ((getCompileCommand t s).any fun c => decide (Plain c)) = true ∧ Plain s)) = some true ∧
    Plain (Path.toPathString b!"/b") ∧ c!" " ∉ Path.toPathString b!"/b" := by decide +kernel

example : exText b!"/b" [b!"-DX"] = some (
    b!"[\n{\n  \"directory\": \"/b\",\n  \"command\": \"gcc -DX     -o /b/gcc/t/a.c.o -c /r/a.c\",\n  \"file\": \"/r/a.c\"\n},\n" ++
    b!"{\n  \"directory\": \"/b\",\n  \"command\": \"g++ -DX     -o /b/gcc/t/b.cpp.o -c /r/b.cpp\",\n  \"file\": \"/r/b.cpp\"\n}\n]") := by
  decide +kernel

theorem not_document {text : Str} (h : parse text = none) (v : JVal) :
    ¬ Grammar.Document v text := by
  rw [← parse_iff, h]
  simp

/-- C53 is false when a flag contains a quote: the file is not JSON. -/
theorem C53_quote_false :
    ∃ text, exText b!"/b" [b!"-DNAME=\"x\""] = some text ∧ ∀ v, ¬ Grammar.Document v text := by
  have h : ((exText b!"/b" [b!"-DNAME=\"x\""]).any fun t => (parse t).isNone) = true := by
    decide +kernel
  obtain ⟨t, h1, h2⟩ := Option.any_eq_true_iff_get _ _ |>.1 h |> fun ⟨h1, h2⟩ =>
    (⟨_, (Option.some_get h1).symm, h2⟩ : ∃ t, exText b!"/b" [b!"-DNAME=\"x\""] = some t ∧
      (parse t).isNone = true)
  exact ⟨t, h1, not_document (Option.isNone_iff_eq_none.1 h2)⟩

/-- The command of the first entry. -/
def firstCommand : JVal → Option Str
  | .arr (.obj [_, (_, .str c), _] :: _) => some c
  | _ => none

/-- C53 is false when a flag contains an escaped quote: the file is JSON with another
command. -/
theorem C53_backslash_false :
    (∃ text v, exText b!"/b" [b!"-DNAME=\\\"x\\\""] = some text ∧ Grammar.Document v text ∧
      firstCommand v = some b!"gcc -DNAME=\"x\"     -o /b/gcc/t/a.c.o -c /r/a.c") ∧
      compileCommand exFx (exUser [b!"-DNAME=\\\"x\\\""]) b!"/r/a.c" =
        .value b!"gcc -DNAME=\\\"x\\\"     -o /b/gcc/t/a.c.o -c /r/a.c" := by
  have h : ((exText b!"/b" [b!"-DNAME=\\\"x\\\""]).bind fun text =>
      (parse text).bind firstCommand) =
      some b!"gcc -DNAME=\"x\"     -o /b/gcc/t/a.c.o -c /r/a.c" := by decide +kernel
  obtain ⟨text, h1, h⟩ := Option.bind_eq_some_iff.1 h
  obtain ⟨v, h2, h3⟩ := Option.bind_eq_some_iff.1 h
  exact ⟨⟨text, v, h1, (parse_iff _ _).1 h2, h3⟩, by decide +kernel⟩

/-- C53 is false for every build directory with a space: the file of any targets with at least
one source is not JSON. -/
theorem C53_space_false {dir : Str} {targets : List PTarget} {old : Option Str}
    (hb : ∃ t ∈ targets, t.isBuilt = true)
    (hc : ∀ t ∈ targets, ∀ s ∈ t.sources, ∃ c, getCompileCommand t s = some c)
    (hn : ∃ t ∈ targets, t.sources ≠ [])
    (ha : Path.isAbs dir = true) (hs : c!" " ∈ Path.toPathString dir) :
    ∃ text, generate dir targets true old = (.written, some text) ∧
      ∀ v, ¬ Grammar.Document v text := by
  have hany : targets.any (·.isBuilt) = true := List.any_eq_true.2 hb
  have hdisp : ∃ x, Path.displayString dir = c!"\"" :: c!"/" :: x := by
    obtain ⟨x, hx⟩ : ∃ x, Path.toPathString dir = c!"/" :: x := by
      obtain ⟨st, -, h⟩ := Path.lexNormal_eq dir (by rintro rfl; simp [Path.isAbs] at ha)
      rw [Path.toPathString, h, ha, Path.render]
      split
      · exact ⟨[], rfl⟩
      · exact ⟨_, rfl⟩
    refine ⟨x ++ [c!"\""], ?_⟩
    simp only [Path.displayString]
    rw [if_pos hs, hx]
    rfl
  obtain ⟨x, hx⟩ := hdisp
  have hall := allEntries_eq dir targets fun t ht s hs => by
    obtain ⟨c, h⟩ := hc t ht s hs
    simp [h]
  refine ⟨_, by rw [generate, hany, hall]; rfl, not_document ?_⟩
  have hne : entriesOf (Path.displayString dir) targets ≠ [] := by
    obtain ⟨t, ht, hs⟩ := hn
    intro he
    simp only [entriesOf, List.flatMap_eq_nil_iff] at he
    have := he t ht
    simp only [List.map_eq_nil_iff] at this
    exact hs this
  have hhead : ∀ e ∈ entriesOf (Path.displayString dir) targets, e.1 = Path.displayString dir := by
    intro e he
    simp only [entriesOf, List.mem_flatMap, List.mem_map] at he
    obtain ⟨t, -, s, -, rfl⟩ := he
    rfl
  cases hl : entriesOf (Path.displayString dir) targets with
  | nil => exact absurd hl hne
  | cons e l =>
    have he : e.1 = c!"\"" :: c!"/" :: x := by rw [hhead e (by simp [hl]), hx]
    obtain ⟨rest, hrest⟩ : ∃ rest, fileText ((e :: l).map fun x => entryText x.1 x.2.1 x.2.2) =
        c!"[" :: c!"\n" :: c!"{" :: c!"\n" :: c!" " :: c!" " :: c!"\"" :: (b!"directory" ++
          c!"\"" :: c!":" :: c!" " :: c!"\"" :: ([] ++ c!"\"" :: c!"/" :: rest)) := by
      cases l with
      | nil => exact ⟨_, by simp [fileText, entryText, he]; rfl⟩
      | cons e' l =>
        rw [List.map_cons, List.map_cons, fileText, List.intercalate_cons_cons]
        exact ⟨_, by simp [entryText, he]; rfl⟩
    rw [hrest]
    have hm : ∀ f, parseMembers f (c!"\"" :: (b!"directory" ++
          c!"\"" :: c!":" :: c!" " :: c!"\"" :: ([] ++ c!"\"" :: c!"/" :: rest))) = none := by
      intro f
      cases f with
      | zero => rw [parseMembers]
      | succ f =>
        rw [parseMembers, skipWs_cons (by decide)]
        simp only [if_true, scanStr_plain (show Plain b!"directory" by decide)]
        rw [skipWs_cons (by decide)]
        simp only [if_true]
        cases f with
        | zero => simp [parseV]
        | succ f =>
          rw [parseV_plain (by decide)]
          simp only
          rw [skipWs_cons (by decide)]
          simp
    have hv : ∀ f, parseV f (c!"{" :: c!"\n" :: c!" " :: c!" " :: c!"\"" :: (b!"directory" ++
          c!"\"" :: c!":" :: c!" " :: c!"\"" :: ([] ++ c!"\"" :: c!"/" :: rest))) = none := by
      intro f
      cases f with
      | zero => rw [parseV]
      | succ f =>
        rw [parseV, skipWs_cons (by decide)]
        simp only [if_true]
        rw [skipWs_nl, skipWs_sp, skipWs_sp, skipWs_cons (by decide)]
        simp only [show (c!"\"" : UInt8) ≠ c!"}" by decide, if_false]
        rw [hm]
    have hel : ∀ f, parseElems f (c!"{" :: c!"\n" :: c!" " :: c!" " :: c!"\"" ::
        (b!"directory" ++ c!"\"" :: c!":" :: c!" " :: c!"\"" ::
          ([] ++ c!"\"" :: c!"/" :: rest))) = none := by
      intro f
      cases f with
      | zero => rw [parseElems]
      | succ f => rw [parseElems, hv]
    rw [parse, skipBom_ok rfl (by decide)]
    simp only
    rw [parseV, skipWs_cons (by decide)]
    simp only [show (c!"[" : UInt8) ≠ c!"{" by decide, if_false, if_true]
    rw [skipWs_nl, skipWs_cons (by decide)]
    simp only [show (c!"{" : UInt8) ≠ c!"]" by decide, if_false]
    rw [hel]

example : ((PTarget.of exFx (exUser []) true).map fun t =>
    (t.isBuilt, t.sources ≠ [], t.sources.all fun s => (getCompileCommand t s).isSome)) =
      some (true, True, true) ∧
    Path.isAbs b!"/my builds" = true ∧ c!" " ∈ Path.toPathString b!"/my builds" := by
  refine ⟨?_, by decide, by decide⟩
  have : PTarget.of exFx (exUser []) true = some ⟨true, [b!"/r/a.c", b!"/r/b.cpp"],
      [(b!"/r/a.c", b!"gcc      -o /b/gcc/t/a.c.o -c /r/a.c"),
       (b!"/r/b.cpp", b!"g++      -o /b/gcc/t/b.cpp.o -c /r/b.cpp")]⟩ := by decide +kernel
  rw [this]
  simp
  decide +kernel

/-! ## C69 -/

/-- A sequence of calls of `Generate`, in one or more programs, with the targets as they are
at that time. -/
def generateAll (dir : Str) : List (List PTarget × Bool) → Option Str → Option Str
  | [], old => old
  | (ts, canOpen) :: l, old => generateAll dir l (generate dir ts canOpen old).2

/-- The same sources with the same commands. -/
def SameEntries (a b : List PTarget) : Prop :=
  a.map (fun t => t.sources.map fun s => (s, getCompileCommand t s)) =
  b.map (fun t => t.sources.map fun s => (s, getCompileCommand t s))

theorem targetEntries_congr (dir : Str) (t t' : PTarget) (l l' : List Str)
    (h : l.map (fun s => (s, getCompileCommand t s)) = l'.map fun s => (s, getCompileCommand t' s)) :
    targetEntries dir t l = targetEntries dir t' l' := by
  induction l generalizing l' with
  | nil => cases l' <;> simp at h; rfl
  | cons s l ih =>
    cases l' with
    | nil => simp at h
    | cons s' l' =>
      simp only [List.map_cons, List.cons.injEq, Prod.mk.injEq] at h
      obtain ⟨⟨rfl, h2⟩, h3⟩ := h
      rw [targetEntries, targetEntries, h2, ih l' h3]

theorem allEntries_congr (dir : Str) {a b : List PTarget} (h : SameEntries a b) :
    allEntries dir a = allEntries dir b := by
  induction a generalizing b with
  | nil =>
    cases b with
    | nil => rfl
    | cons => simp [SameEntries] at h
  | cons t a ih =>
    cases b with
    | nil => simp [SameEntries] at h
    | cons t' b =>
      simp only [SameEntries, List.map_cons, List.cons.injEq] at h
      rw [allEntries, allEntries, targetEntries_congr dir t t' _ _ h.1, ih h.2]

/-- C69 (partial: since the last call that wrote the file, sources and commands are the same):
after every call of `Generate` that does not end the program, the file is the one that a call
with rebuilt targets would write now. -/
theorem C69_current_partial {dir : Str} {before : List (List PTarget × Bool)}
    {later : List (List PTarget × Bool)} {written now : List PTarget} {old : Option Str}
    (hw : (generate dir written true (generateAll dir before old)).1 = .written)
    (hl : ∀ x ∈ later ++ [(now, true)], SameEntries x.1 written) :
    ∃ l, allEntries dir now = some l ∧
      generateAll dir (before ++ (written, true) :: later ++ [(now, true)]) old =
        some (fileText l) := by
  have happ : ∀ (a b : List (List PTarget × Bool)) o,
      generateAll dir (a ++ b) o = generateAll dir b (generateAll dir a o) := by
    intro a
    induction a with
    | nil => intro b o; rfl
    | cons x a ih => intro b o; exact ih b _
  obtain ⟨l, hl0⟩ : ∃ l, allEntries dir written = some l := by
    rw [generate] at hw
    split at hw
    · simp at hw
    · split at hw
      · simp at hw
      · rename_i l h; exact ⟨l, h⟩
  have hw2 : (generate dir written true (generateAll dir before old)).2 = some (fileText l) := by
    rw [generate] at hw ⊢
    split at hw
    · simp at hw
    · rename_i h
      rw [if_neg h, hl0]
      rfl
  have keep : ∀ x : List PTarget × Bool, SameEntries x.1 written →
      (generate dir x.1 x.2 (some (fileText l))).2 = some (fileText l) := by
    intro x hx
    rw [generate]
    split
    · rfl
    · rw [allEntries_congr dir hx, hl0]
      simp only
      split <;> rfl
  have keepAll : ∀ ys : List (List PTarget × Bool), (∀ x ∈ ys, SameEntries x.1 written) →
      generateAll dir ys (some (fileText l)) = some (fileText l) := by
    intro ys
    induction ys with
    | nil => intro _; rfl
    | cons y ys ih =>
      intro h
      obtain ⟨ts, c⟩ := y
      rw [generateAll, keep (ts, c) (h _ (by simp)), ih fun x hx => h x (by simp [hx])]
  refine ⟨l, (allEntries_congr dir (hl (now, true) (by simp))).trans hl0, ?_⟩
  rw [List.append_assoc, happ, List.cons_append, generateAll, hw2]
  exact keepAll _ hl

/-- The two targets of a program: a first run that builds both, then one in which nothing is
rebuilt. -/
example : ∃ t, PTarget.of exFx (exUser []) true = some t ∧
    (generate b!"/b" [t] true (generateAll b!"/b" [] none)).1 = .written ∧
    ∀ x ∈ [] ++ [([{ t with isBuilt := false }], true)], SameEntries x.1 [t] := by
  refine ⟨⟨true, [b!"/r/a.c", b!"/r/b.cpp"],
      [(b!"/r/a.c", b!"gcc      -o /b/gcc/t/a.c.o -c /r/a.c"),
       (b!"/r/b.cpp", b!"g++      -o /b/gcc/t/b.cpp.o -c /r/b.cpp")]⟩, by decide +kernel,
    by decide +kernel, ?_⟩
  intro x hx
  simp only [List.nil_append, List.mem_singleton] at hx
  subst hx
  rfl

/-- C69: and a call with a rebuilt target writes the file whatever it was. -/
theorem C69_rebuilt {dir : Str} {targets : List PTarget} {old : Option Str} {o : Outcome}
    {file : Option Str} (hb : ∃ t ∈ targets, t.isBuilt = true)
    (h : generate dir targets true old = (o, file)) (ho : o ≠ .fatal) :
    ∃ l, allEntries dir targets = some l ∧ file = some (fileText l) := by
  rw [generate, List.any_eq_true.2 hb] at h
  simp only [Bool.not_true, Bool.false_eq_true, if_false, if_true] at h
  split at h
  · simp only [Prod.mk.injEq] at h; exact absurd h.1.symm ho
  · rename_i l hl
    simp only [Prod.mk.injEq] at h
    exact ⟨l, hl, h.2.symm⟩

/-- C69 is false of the code: a target that is up to date is added to the plugin, and the file
still has only the entries of the other target; a deleted file is not written again. -/
theorem C69_false :
    ∃ a b : PTarget, PTarget.of exFx (exUser []) false = some b ∧
      PTarget.of exFx { exUser [] with sources := [⟨b!"/r/c.c", []⟩] } true = some a ∧
      generateAll b!"/b" [([a], true), ([{ a with isBuilt := false }, b], true)] none =
        generateAll b!"/b" [([a], true)] none ∧
      (generate b!"/b" [{ a with isBuilt := false }, { b with isBuilt := true }] true none).2 ≠
        generateAll b!"/b" [([a], true)] none ∧
      generateAll b!"/b" [([b], true)] none = none := by
  refine ⟨⟨true, [b!"/r/c.c"], [(b!"/r/c.c", b!"gcc      -o /b/gcc/t/c.c.o -c /r/c.c")]⟩,
    ⟨false, [b!"/r/a.c", b!"/r/b.cpp"], [(b!"/r/a.c", b!"gcc      -o /b/gcc/t/a.c.o -c /r/a.c"),
      (b!"/r/b.cpp", b!"g++      -o /b/gcc/t/b.cpp.o -c /r/b.cpp")]⟩, ?_, ?_, ?_, ?_, ?_⟩ <;>
  decide +kernel

end Verif.Plugin
