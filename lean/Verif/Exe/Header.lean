import Verif.Exe.Model
import Verif.Toolchain.FindProps

/-!
# C80: the header with the directories of the libraries

How a C++ compiler reads a constant of the header is specified independently of how the header
is written: identifiers and string literals as in [lex.name] and [lex.string], with the simple
escape sequences.  Keywords are not excluded.
-/

namespace Verif.Exe
open Verif Verif.Env Verif.Toolchain

/-! ## Reading C++ -/

/-- A letter or an underscore. -/
def isLetter (b : UInt8) : Bool :=
  (c!"a" ≤ b && b ≤ c!"z") || (c!"A" ≤ b && b ≤ c!"Z") || b = c!"_"

def isIdentChar (b : UInt8) : Bool := isLetter b || (c!"0" ≤ b && b ≤ c!"9")

/-- A name that can be declared. -/
def IsIdentifier : Str → Prop
  | [] => False
  | b :: r => isLetter b = true ∧ ∀ x ∈ r, isIdentChar x = true

instance : ∀ s, Decidable (IsIdentifier s)
  | [] => inferInstanceAs (Decidable False)
  | b :: r => inferInstanceAs (Decidable (isLetter b = true ∧ ∀ x ∈ r, isIdentChar x = true))

/-- The longest identifier in front, and the rest. -/
def readIdent : Str → Str × Str
  | [] => ([], [])
  | b :: r => if isIdentChar b then (b :: (readIdent r).1, (readIdent r).2) else ([], b :: r)

/-- A string literal after its opening quote: its value and what follows the closing quote. -/
def readLiteral : Str → Option (Str × Str)
  | [] => none
  | b :: r =>
    if b = c!"\"" then some ([], r)
    else if b = c!"\n" then none
    else if b = c!"\\" then
      match r with
      | e :: r =>
        if e = c!"\\" ∨ e = c!"\"" ∨ e = c!"'" ∨ e = c!"?" then
          (readLiteral r).map fun x => (e :: x.1, x.2)
        else if e = c!"n" then (readLiteral r).map fun x => (c!"\n" :: x.1, x.2)
        else if e = c!"t" then (readLiteral r).map fun x => (c!"\t" :: x.1, x.2)
        else none
      | [] => none
    else (readLiteral r).map fun x => (b :: x.1, x.2)

def stripPrefix : Str → Str → Option Str
  | [], s => some s
  | _ :: _, [] => none
  | x :: p, y :: s => if x = y then stripPrefix p s else none

/-- `static constexpr const char *const NAME = "VALUE";` and what follows it. -/
def readConstant (s : Str) : Option ((Str × Str) × Str) := do
  let s ← stripPrefix b!"static constexpr const char *const " s
  let (name, s) := readIdent s
  match name with
  | [] => none
  | b :: _ =>
    if isLetter b then
      let s ← stripPrefix b!" = \"" s
      let (value, s) ← readLiteral s
      let s ← stripPrefix b!";" s
      some ((name, value), s)
    else none

/-- The text of the members of a class declares these constants; white space between them does
not matter. -/
inductive Members : Str → List (Str × Str) → Prop where
  | done : Members b!"};\n" []
  | space {b s ds} (h : b = c!"\n" ∨ b = c!"\r") (t : Members s ds) : Members (b :: s) ds
  | const {s d r ds} (h : readConstant s = some (d, r)) (t : Members r ds) : Members s (d :: ds)

/-- The header declares a class with these constants. -/
def Declares (text : Str) (ds : List (Str × Str)) : Prop :=
  ∃ s, text = b!"// Generated by BuildCC\n#pragma once\n\nstruct BuildExeLibDir {\n" ++ s ∧ Members s ds

/-! ## Lemmas -/

theorem stripPrefix_append (p s : Str) : stripPrefix p (p ++ s) = some s := by
  induction p with
  | nil => cases s <;> rfl
  | cons x p ih => simp [stripPrefix, ih]

theorem stripPrefix_some {p s r : Str} (h : stripPrefix p s = some r) : s = p ++ r := by
  induction p generalizing s with
  | nil => cases s <;> simp_all [stripPrefix]
  | cons x p ih =>
    cases s with
    | nil => simp [stripPrefix] at h
    | cons y s =>
      simp only [stripPrefix] at h
      split at h
      · rename_i e; subst e; simp [ih h]
      · cases h

theorem readIdent_append (n : Str) (hn : ∀ x ∈ n, isIdentChar x = true) (b : UInt8) (s : Str)
    (hb : isIdentChar b = false) : readIdent (n ++ b :: s) = (n, b :: s) := by
  induction n with
  | nil => simp [readIdent, hb]
  | cons x n ih =>
    have := ih fun y hy => hn y (List.mem_cons_of_mem _ hy)
    simp [readIdent, hn x (by simp), this]

/-- A path that can stand in a literal as it is. -/
def Plain (s : Str) : Prop := c!"\"" ∉ s ∧ c!"\\" ∉ s ∧ c!"\n" ∉ s

instance (s : Str) : Decidable (Plain s) :=
  inferInstanceAs (Decidable (c!"\"" ∉ s ∧ c!"\\" ∉ s ∧ c!"\n" ∉ s))

theorem readLiteral_plain (v s : Str) (h : Plain v) :
    readLiteral (v ++ c!"\"" :: s) = some (v, s) := by
  induction v with
  | nil => rw [List.nil_append, readLiteral.eq_def]; simp
  | cons b v ih =>
    obtain ⟨h1, h2, h3⟩ := h
    simp only [List.mem_cons, not_or] at h1 h2 h3
    have := ih ⟨h1.2, h2.2, h3.2⟩
    rw [List.cons_append, readLiteral.eq_def]
    simp [Ne.symm h1.1, Ne.symm h2.1, Ne.symm h3.1, this]

theorem identifier_chars {n : Str} (h : IsIdentifier n) : ∀ x ∈ n, isIdentChar x = true := by
  cases n with
  | nil => intro x hx; cases hx
  | cons b r =>
    intro x hx
    rcases List.mem_cons.1 hx with rfl | hx
    · simp [isIdentChar, h.1]
    · exact h.2 x hx

theorem readConstant_libConstant (l : LibInfo) (s : Str) (hn : IsIdentifier l.name)
    (hp : Plain l.path) : readConstant (libConstant l ++ s) = some ((l.name, l.path), s) := by
  have e : libConstant l ++ s = b!"static constexpr const char *const " ++
      (l.name ++ (b!" = \"" ++ (l.path ++ c!"\"" :: (b!";" ++ s)))) := by
    simp only [libConstant, List.append_assoc]
    rfl
  rw [readConstant, e, stripPrefix_append]
  have h1 : readIdent (l.name ++ (b!" = \"" ++ (l.path ++ c!"\"" :: (b!";" ++ s)))) =
      (l.name, b!" = \"" ++ (l.path ++ c!"\"" :: (b!";" ++ s))) :=
    readIdent_append _ (identifier_chars hn) _ _ (by decide)
  simp only [Option.bind_eq_bind, Option.bind_some, h1]
  cases hnm : l.name with
  | nil => rw [hnm] at hn; exact hn.elim
  | cons b r =>
    rw [hnm] at hn
    simp only [hn.1, if_true, stripPrefix_append, Option.bind_some]
    rw [readLiteral_plain _ _ hp]
    simp only [Option.bind_some, stripPrefix_append]

theorem members_lines (libs : List LibInfo)
    (h : ∀ l ∈ libs, IsIdentifier l.name ∧ Plain l.path) :
    Members (joinLines (libs.map libConstant) ++ b!"\n};\n") (libs.map fun l => (l.name, l.path)) := by
  induction libs with
  | nil => exact .space (.inl rfl) .done
  | cons l libs ih =>
    have h1 := h l (by simp)
    have h2 := ih fun x hx => h x (List.mem_cons_of_mem _ hx)
    cases libs with
    | nil =>
      refine .const (readConstant_libConstant l _ h1.1 h1.2) ?_
      exact .space (.inl rfl) .done
    | cons l' libs =>
      simp only [List.map_cons, joinLines, List.append_assoc]
      refine .const (readConstant_libConstant l _ h1.1 h1.2) ?_
      exact .space (.inr rfl) (.space (.inl rfl) h2)

theorem readConstant_head {b : UInt8} {s : Str} {x} (h : readConstant (b :: s) = some x) :
    b = c!"s" := by
  rw [readConstant] at h
  cases hs : stripPrefix b!"static constexpr const char *const " (b :: s) with
  | none => rw [hs] at h; cases h
  | some r =>
    have := stripPrefix_some hs
    simp only [show b!"static constexpr const char *const " =
      c!"s" :: b!"tatic constexpr const char *const " from rfl, List.cons_append, List.cons.injEq] at this
    exact this.1

/-- What a text declares is unique. -/
theorem members_unique {s : Str} {ds ds' : List (Str × Str)} (h : Members s ds)
    (h' : Members s ds') : ds = ds' := by
  induction h generalizing ds' with
  | done =>
    cases h' with
    | done => rfl
    | space hb _ => exact absurd hb (by decide)
    | const hc _ => exact absurd (readConstant_head hc) (by decide)
  | space hb t ih =>
    cases h' with
    | done => exact absurd hb (by decide)
    | space _ t' => exact ih t'
    | const hc _ =>
      have := readConstant_head hc
      subst this
      exact absurd hb (by decide)
  | const hc t ih =>
    cases h' with
    | done => exact absurd (readConstant_head hc) (by decide)
    | space hb _ =>
      have := readConstant_head hc
      subst this
      exact absurd hb (by decide)
    | const hc' t' =>
      rw [hc] at hc'
      cases hc'
      rw [ih t']

/-! ## The property -/

/-- C80: the header declares, for every library, a constant with the name of the library and the
path of its directory, and nothing else.  Missing: libraries whose name is not an identifier and
paths that are not plain (`C80_name_false`, `C80_space_false`). -/
theorem C80_header_partial (libs : List LibInfo)
    (h : ∀ l ∈ libs, IsIdentifier l.name ∧ Plain l.path) (ds : List (Str × Str)) :
    Declares (libDirsText libs) ds ↔ ds = libs.map fun l => (l.name, l.path) := by
  have hm := members_lines libs h
  have e : libDirsText libs = b!"// Generated by BuildCC\n#pragma once\n\nstruct BuildExeLibDir {\n" ++
      (joinLines (libs.map libConstant) ++ b!"\n};\n") := by
    rw [libDirsText, List.append_assoc]
  constructor
  · rintro ⟨s, hs, ht⟩
    rw [e] at hs
    rw [← List.append_cancel_left hs] at ht
    exact members_unique ht hm
  · rintro rfl
    exact ⟨_, e, hm⟩

/-- `buildexe` starts exactly if `BUILDCC_HOME` is set and it and the three directories in it
exist; the libraries are looked for in `libs`. -/
theorem homeInit_some (getenv : Str → Option Str) (present : Str → Bool) (h : Home) :
    homeInit getenv present = some h ↔
      getenv b!"BUILDCC_HOME" = some h.home ∧ h.base = Path.append h.home b!"buildcc" ∧
      h.libs = Path.append h.home b!"libs" ∧ h.extensions = Path.append h.home b!"extensions" ∧
      ∀ d ∈ [h.home, h.base, h.libs, h.extensions], present d = true := by
  obtain ⟨a, b, c, d⟩ := h
  rw [homeInit]
  cases he : getenv b!"BUILDCC_HOME" with
  | none => simp
  | some x =>
    simp only
    split
    · rename_i hp
      simp only [Bool.and_eq_true] at hp
      simp only [Option.some.injEq, Home.mk.injEq, List.mem_cons, List.not_mem_nil, or_false,
        forall_eq_or_imp, forall_eq]
      constructor
      · rintro ⟨rfl, rfl, rfl, rfl⟩
        simp [hp]
      · rintro ⟨rfl, rfl, rfl, rfl, -⟩
        simp
    · rename_i hp
      simp only [reduceCtorEq, Option.some.injEq, false_iff]
      rintro ⟨rfl, rfl, rfl, rfl, h⟩
      apply hp
      simp [h]

/-- C80 for the directory of the libraries: every directory in it is declared under its own name
with its normalised path. -/
theorem C80_libs_partial (libsDir : Str) (entries : List (Str × Bool))
    (h : ∀ e ∈ entries, e.2 = true → IsIdentifier e.1 ∧
      Plain (Path.lexNormal (Path.append libsDir e.1)) ∧
      c!" " ∉ Path.lexNormal (Path.append libsDir e.1)) (ds : List (Str × Str)) :
    Declares (libDirsText (libsInfo libsDir entries)) ds ↔
      ds = (entries.filter (·.2)).map fun e => (e.1, Path.lexNormal (Path.append libsDir e.1)) := by
  have hname : ∀ e ∈ entries, e.2 = true → Path.filename (Path.append libsDir e.1) = e.1 := by
    intro e he ht
    have hi := (h e he ht).1
    have hc := identifier_chars hi
    refine filename_entry ⟨?_, ?_, ?_, ?_⟩
    · intro e0; rw [e0] at hi; exact hi
    · intro e0; rw [e0] at hc; exact absurd (hc (c!".") (by decide)) (by decide)
    · intro e0; rw [e0] at hc; exact absurd (hc (c!".") (by decide)) (by decide)
    · intro hs; exact absurd (hc _ hs) (by decide)
  have hd : ∀ e ∈ entries, e.2 = true → Path.displayString (Path.append libsDir e.1) =
      Path.lexNormal (Path.append libsDir e.1) := by
    intro e he ht
    simp [Path.displayString, Path.toPathString, (h e he ht).2.2]
  rw [C80_header_partial, libsInfo, List.map_map]
  · have : List.map ((fun l : LibInfo => (l.name, l.path)) ∘ fun e : Str × Bool =>
        ⟨Path.filename (Path.append libsDir e.1), Path.displayString (Path.append libsDir e.1)⟩)
        (entries.filter (·.2)) =
        (entries.filter (·.2)).map fun e => (e.1, Path.lexNormal (Path.append libsDir e.1)) := by
      refine List.map_congr_left fun e he => ?_
      obtain ⟨he, ht⟩ := List.mem_filter.1 he
      simp [hname e he ht, hd e he ht]
    rw [this]
  · intro l hl
    simp only [libsInfo, List.mem_map] at hl
    obtain ⟨e, he, rfl⟩ := hl
    obtain ⟨he, ht⟩ := List.mem_filter.1 he
    simp only [hname e he ht, hd e he ht]
    exact ⟨(h e he ht).1, (h e he ht).2.1⟩

theorem readConstant_quote (n q s : Str) (hq : c!";" ≠ q.headD 0) (hne : q ≠ []) :
    readConstant (b!"static constexpr const char *const " ++ n ++ b!" = \"" ++ (c!"\"" :: q) ++ s) = none ∨
      ¬ IsIdentifier n := by
  by_cases hn : IsIdentifier n
  · left
    have e : b!"static constexpr const char *const " ++ n ++ b!" = \"" ++ (c!"\"" :: q) ++ s =
        b!"static constexpr const char *const " ++ (n ++ (b!" = \"" ++ (c!"\"" :: (q ++ s)))) := by
      simp only [List.append_assoc, List.cons_append]
    rw [readConstant, e, stripPrefix_append]
    have h1 : readIdent (n ++ (b!" = \"" ++ (c!"\"" :: (q ++ s)))) =
        (n, b!" = \"" ++ (c!"\"" :: (q ++ s))) :=
      readIdent_append _ (identifier_chars hn) _ _ (by decide)
    simp only [Option.bind_eq_bind, Option.bind_some, h1]
    cases hnm : n with
    | nil => rfl
    | cons b r =>
      rw [hnm] at hn
      simp only [hn.1, if_true, stripPrefix_append, Option.bind_some]
      cases q with
      | nil => exact absurd rfl hne
      | cons x q =>
        have hx : c!";" ≠ x := hq
        rw [readLiteral.eq_def]
        simp [stripPrefix, show b!";" = [c!";"] from rfl, hx]
  · exact .inr hn

/-- C80, what fails: a library in a directory with a space.  Its path is written with quotes
around it, inside of the literal; the header is then not C++ that declares constants. -/
theorem C80_space_false (libsDir name : Str) (hn : IsIdentifier name)
    (hs : c!" " ∈ Path.lexNormal (Path.append libsDir name))
    (hq : (Path.lexNormal (Path.append libsDir name)).headD 0 ≠ c!";")
    (entries : List (Str × Bool)) (ds : List (Str × Str)) :
    ¬ Declares (libDirsText (libsInfo libsDir ((name, true) :: entries))) ds := by
  have hc := identifier_chars hn
  have hname : Path.filename (Path.append libsDir name) = name := by
    refine filename_entry ⟨?_, ?_, ?_, ?_⟩
    · intro e0; rw [e0] at hn; exact hn
    · intro e0; rw [e0] at hc; exact absurd (hc (c!".") (by decide)) (by decide)
    · intro e0; rw [e0] at hc; exact absurd (hc (c!".") (by decide)) (by decide)
    · intro hs; exact absurd (hc _ hs) (by decide)
  generalize hp : Path.lexNormal (Path.append libsDir name) = p at *
  have hl : ∃ s, joinLines ((libsInfo libsDir ((name, true) :: entries)).map libConstant) ++ b!"\n};\n" =
      b!"static constexpr const char *const " ++ name ++ b!" = \"" ++ (c!"\"" :: p) ++ s := by
    have e : libConstant ⟨Path.filename (Path.append libsDir name),
        Path.displayString (Path.append libsDir name)⟩ =
        b!"static constexpr const char *const " ++ name ++ b!" = \"" ++ (c!"\"" :: p) ++ b!"\"\";" := by
      simp only [libConstant, hname, Path.displayString, Path.toPathString, hp, hs, if_true,
        List.append_assoc, List.cons_append]
      rfl
    simp only [libsInfo, List.filter_cons, if_true, List.map_cons, e]
    cases List.map libConstant (List.map (fun e : Str × Bool =>
      (⟨Path.filename (Path.append libsDir e.1), Path.displayString (Path.append libsDir e.1)⟩ : LibInfo))
      (entries.filter (·.2))) with
    | nil => exact ⟨_, by simp only [joinLines, List.append_assoc]; rfl⟩
    | cons y ys => exact ⟨_, by simp only [joinLines, List.append_assoc]; rfl⟩
  obtain ⟨s, hs'⟩ := hl
  rintro ⟨t, ht, hm⟩
  rw [libDirsText, List.append_assoc] at ht
  rw [← List.append_cancel_left ht, hs'] at hm
  have hne : p ≠ [] := by rintro rfl; cases hs
  rcases readConstant_quote name p s (Ne.symm hq) hne with h | h
  · generalize hx : b!"static constexpr const char *const " ++ name ++ b!" = \"" ++ (c!"\"" :: p) ++ s = x at *
    have hxs : ∃ r, x = c!"s" :: c!"t" :: r := by
      rw [← hx]; exact ⟨_, by simp only [List.append_assoc]; rfl⟩
    obtain ⟨r, hr⟩ := hxs
    cases hm with
    | done => exact absurd hr (by intro h; simp only [List.cons.injEq] at h; exact absurd h.1 (by decide))
    | space hb _ =>
      simp only [List.cons.injEq] at hr
      rw [hr.1] at hb
      exact absurd hb (by decide)
    | const h' _ => rw [h] at h'; cases h'
  · exact h hn

theorem readIdent_chars (s : Str) : ∀ x ∈ (readIdent s).1, isIdentChar x = true := by
  induction s with
  | nil => intro x hx; cases hx
  | cons b r ih =>
    intro x hx
    rw [readIdent] at hx
    split at hx
    · rename_i hb
      rcases List.mem_cons.1 hx with rfl | hx
      · exact hb
      · exact ih x hx
    · cases hx

theorem readIdent_eq (s : Str) : (readIdent s).1 ++ (readIdent s).2 = s := by
  induction s with
  | nil => rfl
  | cons b r ih =>
    rw [readIdent]
    split
    · rw [List.cons_append, ih]
    · rfl

/-- Backslashes at the start of a literal are written as twice as many. -/
theorem readLiteral_backslashes {k : Nat} : ∀ {t v r : Str}, readLiteral t = some (v, r) →
    (∀ j, j < k → v[j]? = some c!"\\") → ∀ j, j < 2 * k → t[j]? = some c!"\\" := by
  induction k with
  | zero => intro t v r _ _ j hj; omega
  | succ k ih =>
    intro t v r h hv j hj
    have h0 := hv 0 (by omega)
    cases t with
    | nil => simp [readLiteral] at h
    | cons b t =>
      rw [readLiteral.eq_def] at h
      simp only at h
      split at h
      · simp only [Option.some.injEq, Prod.mk.injEq] at h
        rw [← h.1] at h0; simp at h0
      · split at h
        · cases h
        · split at h
          · rename_i hb
            subst hb
            cases t with
            | nil => simp at h
            | cons e t =>
              simp only at h
              have rest : ∀ c : UInt8, (readLiteral t).map (fun x => (c :: x.1, x.2)) = some (v, r) →
                  c = c!"\\" ∧ ∀ j, j < 2 * k → t[j]? = some c!"\\" := by
                intro c hc
                rw [Option.map_eq_some_iff] at hc
                obtain ⟨x, hx, hx'⟩ := hc
                simp only [Prod.mk.injEq] at hx'
                rw [← hx'.1] at h0 hv
                refine ⟨by simpa using h0, ih (r := x.2) (v := x.1) hx fun j hj => ?_⟩
                have := hv (j + 1) (by omega)
                simpa using this
              have fin : ∀ c : UInt8, (readLiteral t).map (fun x => (c :: x.1, x.2)) = some (v, r) →
                  c = e → (c!"\\" :: e :: t)[j]? = some c!"\\" := by
                intro c hc he
                obtain ⟨h1, h2⟩ := rest c hc
                match j with
                | 0 => rfl
                | 1 => simp [← he, h1]
                | j + 2 =>
                  rw [List.getElem?_cons_succ, List.getElem?_cons_succ]
                  exact h2 j (by omega)
              split at h
              · exact fin e h rfl
              · split at h
                · exact absurd (rest _ h).1 (by decide)
                · split at h
                  · exact absurd (rest _ h).1 (by decide)
                  · cases h
          · rename_i hb
            rw [Option.map_eq_some_iff] at h
            obtain ⟨x, hx, hx'⟩ := h
            simp only [Prod.mk.injEq] at hx'
            rw [← hx'.1] at h0
            simp only [List.getElem?_cons_zero, Option.some.injEq] at h0
            exact absurd h0 hb

/-- A path that is read as it is written is plain. -/
theorem readLiteral_self : ∀ {v s r : Str}, readLiteral (v ++ c!"\"" :: s) = some (v, r) → Plain v ∧ r = s := by
  have nob : ∀ {v s r : Str}, readLiteral (v ++ c!"\"" :: s) = some (v, r) → v[0]? ≠ some c!"\\" := by
    intro v s r h h0
    have grow : ∀ k, k ≤ v.length → ∀ j, j < k → v[j]? = some c!"\\" := by
      intro k
      induction k with
      | zero => intro _ j hj; omega
      | succ k ih =>
        intro hk j hj
        by_cases hjk : j < k
        · exact ih (by omega) j hjk
        · obtain rfl : j = k := by omega
          cases j with
          | zero => exact h0
          | succ j =>
            have := readLiteral_backslashes h (ih (by omega)) (j + 1) (by omega)
            rwa [List.getElem?_append_left (by omega)] at this
    have hlen : 0 < v.length := by
      cases v with
      | nil => simp at h0
      | cons a v => simp
    have := readLiteral_backslashes h (grow v.length (Nat.le_refl _)) v.length (by omega)
    rw [List.getElem?_append_right (Nat.le_refl _)] at this
    simp at this
  intro v
  induction v with
  | nil =>
    intro s r h
    rw [List.nil_append, readLiteral.eq_def] at h
    simp only [if_true, Option.some.injEq, Prod.mk.injEq, true_and] at h
    exact ⟨by decide, h.symm⟩
  | cons b v ih =>
    intro s r h
    have hb := nob h
    simp only [List.getElem?_cons_zero, ne_eq, Option.some.injEq] at hb
    rw [List.cons_append, readLiteral.eq_def] at h
    simp only [if_neg hb] at h
    split at h
    · simp at h
    · rename_i h1
      split at h
      · cases h
      · rename_i h2
        rw [Option.map_eq_some_iff] at h
        obtain ⟨x, hx, hx'⟩ := h
        simp only [Prod.mk.injEq, List.cons.injEq, true_and] at hx'
        obtain ⟨p, hr⟩ := ih (s := s) (r := r) (by rw [hx, ← hx'.1, ← hx'.2])
        exact ⟨⟨by simp [Ne.symm h1, p.1], by simp [Ne.symm hb, p.2.1], by simp [Ne.symm h2, p.2.2]⟩, hr⟩

/-- The value is written as it is, or begins with a quote. -/
def Written (l : LibInfo) (w : Str) : Prop := l.path = w ∨ (∃ q, l.path = c!"\"" :: q) ∧ w ≠ []

theorem readConstant_self {l : LibInfo} {w s r : Str} (hw : Written l w)
    (h : readConstant (libConstant l ++ s) = some ((l.name, w), r)) :
    IsIdentifier l.name ∧ Plain l.path ∧ l.path = w ∧ r = s := by
  have e : libConstant l ++ s = b!"static constexpr const char *const " ++
      (l.name ++ (b!" = \"" ++ (l.path ++ c!"\"" :: (b!";" ++ s)))) := by
    simp only [libConstant, List.append_assoc]
    rfl
  rw [readConstant, e, stripPrefix_append] at h
  simp only [Option.bind_eq_bind, Option.bind_some] at h
  generalize ht : l.name ++ (b!" = \"" ++ (l.path ++ c!"\"" :: (b!";" ++ s))) = t at h
  have h1 := readIdent_chars t
  have h2 := readIdent_eq t
  cases hn : (readIdent t).1 with
  | nil => simp [hn] at h
  | cons b n =>
    rw [hn] at h h1 h2
    simp only at h
    split at h
    · rename_i hl
      rw [Option.bind_eq_some_iff] at h
      obtain ⟨u, hu, h⟩ := h
      rw [Option.bind_eq_some_iff] at h
      obtain ⟨y, hy, h⟩ := h
      rw [Option.bind_eq_some_iff] at h
      obtain ⟨z, hz, h⟩ := h
      simp only [Option.some.injEq, Prod.mk.injEq] at h
      obtain ⟨⟨hname, hval⟩, hr⟩ := h
      have hid : IsIdentifier l.name := by
        rw [← hname]
        exact ⟨hl, fun x hx => h1 x (List.mem_cons_of_mem _ hx)⟩
      rw [hname] at h2
      have h3 := List.append_cancel_left (h2.trans ht.symm)
      have h4 := stripPrefix_some hu
      rw [h3] at h4
      have h5 := List.append_cancel_left h4
      rw [← h5] at hy
      have hpath : l.path = w := by
        rcases hw with hw | ⟨⟨q, hq⟩, hne⟩
        · exact hw
        · rw [hq, List.cons_append, readLiteral.eq_def] at hy
          simp only [if_true, Option.some.injEq] at hy
          rw [← hy] at hval
          exact absurd hval.symm hne
      obtain ⟨hp, hs⟩ := readLiteral_self (v := l.path) (r := y.2) (by rw [hy, hpath, ← hval])
      refine ⟨hid, hp, hpath, ?_⟩
      have h6 := stripPrefix_some hz
      rw [hs] at h6
      rw [← hr]
      exact (List.append_cancel_left h6).symm
    · cases h

theorem declares_written (ls : List (LibInfo × Str)) (hw : ∀ x ∈ ls, Written x.1 x.2)
    (h : Declares (libDirsText (ls.map (·.1))) (ls.map fun x => (x.1.name, x.2))) :
    ∀ x ∈ ls, IsIdentifier x.1.name ∧ Plain x.1.path ∧ x.1.path = x.2 := by
  obtain ⟨t, ht, hm⟩ := h
  rw [libDirsText, List.append_assoc] at ht
  rw [← List.append_cancel_left ht] at hm
  clear ht
  induction ls with
  | nil => intro l hl; cases hl
  | cons x ls ih =>
    have head : ∀ s : Str, Members (libConstant x.1 ++ s)
        ((x.1.name, x.2) :: ls.map fun x => (x.1.name, x.2)) →
        (IsIdentifier x.1.name ∧ Plain x.1.path ∧ x.1.path = x.2) ∧
          Members s (ls.map fun x => (x.1.name, x.2)) := by
      intro s hm
      have e : libConstant x.1 ++ s = c!"s" :: (libConstant x.1 ++ s).tail := rfl
      generalize hx : libConstant x.1 ++ s = u at hm
      rw [hx] at e
      cases hm with
      | space hb _ =>
        simp only [List.cons.injEq] at e
        rw [e.1] at hb
        exact absurd hb (by decide)
      | const h t =>
        rw [← hx] at h
        obtain ⟨h1, h2, h3, h4⟩ := readConstant_self (hw x (by simp)) h
        rw [h4] at t
        exact ⟨⟨h1, h2, h3⟩, t⟩
    cases ls with
    | nil =>
      obtain ⟨h1, -⟩ := head _ hm
      intro y hy
      obtain rfl := List.mem_singleton.1 hy
      exact h1
    | cons y ls =>
      simp only [List.map_cons, joinLines, List.append_assoc] at hm
      obtain ⟨h1, hm⟩ := head _ hm
      have hm2 : Members (joinLines (libConstant y.1 :: (ls.map (·.1)).map libConstant) ++ b!"\n};\n")
          ((y.1.name, y.2) :: ls.map fun x => (x.1.name, x.2)) := by
        cases hm with
        | space _ hm =>
          cases hm with
          | space _ hm => exact hm
          | const h _ => exact absurd (readConstant_head h) (by decide)
        | const h _ => exact absurd (readConstant_head h) (by decide)
      intro z hz
      rcases List.mem_cons.1 hz with rfl | hz
      · exact h1
      · exact ih (fun x hx => hw x (List.mem_cons_of_mem _ hx)) hm2 z hz

/-- C80, exactly: the header declares every directory with its name and its path if and only if all names are
identifiers, and the paths have no space, quote, backslash and newline. -/
theorem C80_exact (libsDir : Str) (entries : List (Str × Bool)) (he : ∀ e ∈ entries, EntryName e.1) :
    Declares (libDirsText (libsInfo libsDir entries))
        ((entries.filter (·.2)).map fun e => (e.1, Path.lexNormal (Path.append libsDir e.1))) ↔
      ∀ e ∈ entries, e.2 = true → IsIdentifier e.1 ∧ Plain (Path.lexNormal (Path.append libsDir e.1)) ∧
        c!" " ∉ Path.lexNormal (Path.append libsDir e.1) := by
  constructor
  · intro h e hm ht
    have hname : ∀ e ∈ entries, Path.filename (Path.append libsDir e.1) = e.1 := fun e hm => filename_entry (he e hm)
    let ls : List (LibInfo × Str) := (entries.filter (·.2)).map fun e =>
      (⟨Path.filename (Path.append libsDir e.1), Path.displayString (Path.append libsDir e.1)⟩,
        Path.lexNormal (Path.append libsDir e.1))
    have h1 : ls.map (·.1) = libsInfo libsDir entries := by
      simp only [ls, libsInfo, List.map_map]
      rfl
    have h2 : (ls.map fun x => (x.1.name, x.2)) =
        (entries.filter (·.2)).map fun e => (e.1, Path.lexNormal (Path.append libsDir e.1)) := by
      simp only [ls, List.map_map]
      refine List.map_congr_left fun e hm => ?_
      simp [hname e (List.mem_filter.1 hm).1]
    have key := declares_written ls ?_ (by rw [h1, h2]; exact h) _
      (List.mem_map_of_mem (List.mem_filter.2 ⟨hm, ht⟩))
    · simp only [hname e hm] at key
      obtain ⟨k1, k2, k3⟩ := key
      refine ⟨k1, k3 ▸ k2, fun hs => ?_⟩
      have := congrArg List.length k3
      simp [Path.displayString, Path.toPathString, hs] at this
      omega
    · intro x hx
      obtain ⟨e, -, rfl⟩ := List.mem_map.1 hx
      by_cases hs : c!" " ∈ Path.lexNormal (Path.append libsDir e.1)
      · have hd : Path.displayString (Path.append libsDir e.1) =
            c!"\"" :: (Path.lexNormal (Path.append libsDir e.1) ++ [c!"\""]) := if_pos hs
        refine .inr ⟨⟨_, hd⟩, fun h0 => ?_⟩
        simp only at h0
        rw [h0] at hs; cases hs
      · exact .inl (if_neg hs)
  · exact fun h => (C80_libs_partial libsDir entries h _).2 rfl

example : Declares (libDirsText (libsInfo b!"/h/libs" [(b!"fmt", true), (b!"README", false)]))
      [(b!"fmt", b!"/h/libs/fmt")] ∧
    ¬ Declares (libDirsText (libsInfo b!"/h/my libs" [(b!"fmt", true)])) [(b!"fmt", b!"/h/my libs/fmt")] :=
  ⟨(C80_exact b!"/h/libs" [(b!"fmt", true), (b!"README", false)] (by decide +kernel)).2 (by decide +kernel),
    mt (C80_exact b!"/h/my libs" [(b!"fmt", true)] (by decide +kernel)).1 (by decide +kernel)⟩

/-- C80, what fails: a directory whose name is not an identifier. -/
theorem C80_name_false (ds : List (Str × Str)) :
    ¬ Declares (libDirsText (libsInfo b!"/h/libs" [(b!"my-lib", true)])) ds := by
  rintro ⟨t, ht, hm⟩
  rw [libDirsText, List.append_assoc] at ht
  rw [← List.append_cancel_left ht] at hm
  generalize hx : joinLines (List.map libConstant (libsInfo b!"/h/libs" [(b!"my-lib", true)])) ++ b!"\n};\n" = x at hm
  have hc : readConstant x = none := by rw [← hx]; decide +kernel
  have hh : x.head? = some c!"s" := by rw [← hx]; decide +kernel
  cases hm with
  | done => exact absurd hh (by decide)
  | space hb _ =>
    simp only [List.head?_cons, Option.some.injEq] at hh
    subst hh
    exact absurd hb (by decide)
  | const h _ => rw [hc] at h; cases h

/-- Two libraries; the file beside them is not declared. -/
example : Declares
    (libDirsText (libsInfo b!"/h//libs" [(b!"json", true), (b!"README.md", false), (b!"cli_11", true)]))
    [(b!"json", b!"/h/libs/json"), (b!"cli_11", b!"/h/libs/cli_11")] := by
  rw [C80_libs_partial]
  · decide +kernel
  · decide +kernel

end Verif.Exe
