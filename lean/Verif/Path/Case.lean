import Verif.Path.Exact

/-!
# Files of targets where the case of file names does not count (C121)

On Windows and on most disks of macOS `Foo` and `foo` are the same file.  The library compares names and paths as
texts.  The specification is `SameFile`: two paths, written in normal form, that differ at most in the case of
letters.  Simplification: only the letters `A` to `Z` have two cases.
-/

namespace Verif.Path
open Verif

/-! ## Specification -/

/-- The two bytes are the same, or the two cases of one letter. -/
def CaseByte (a b : UInt8) : Prop :=
  a = b ∨ (a.toNat + 32 = b.toNat ∧ 65 ≤ a.toNat ∧ a.toNat ≤ 90) ∨
    (b.toNat + 32 = a.toNat ∧ 65 ≤ b.toNat ∧ b.toNat ≤ 90)

/-- The two texts differ at most in the case of letters. -/
def SameCase : Str → Str → Prop
  | [], [] => True
  | a :: s, b :: t => CaseByte a b ∧ SameCase s t
  | _, _ => False

instance (a b : UInt8) : Decidable (CaseByte a b) := by unfold CaseByte; infer_instance

instance SameCase.dec : (s t : Str) → Decidable (SameCase s t)
  | [], [] => isTrue trivial
  | _ :: _, [] => isFalse id
  | [], _ :: _ => isFalse id
  | a :: s, b :: t =>
    match (inferInstance : Decidable (CaseByte a b)), SameCase.dec s t with
    | isTrue h, isTrue h' => isTrue ⟨h, h'⟩
    | isFalse h, _ => isFalse fun x => h x.1
    | _, isFalse h => isFalse fun x => h x.2

/-- The two paths lead to the same file: their normal forms differ at most in the case of letters. -/
def SameFile (p q : Str) : Prop := SameCase (toPathString p) (toPathString q)

instance (p q : Str) : Decidable (SameFile p q) := by unfold SameFile; infer_instance

/-! ## Proofs -/

/-- The small letter. -/
def lowByte (b : UInt8) : UInt8 := if 65 ≤ b.toNat ∧ b.toNat ≤ 90 then b + 32 else b

theorem lowByte_toNat (b : UInt8) :
    (lowByte b).toNat = if 65 ≤ b.toNat ∧ b.toNat ≤ 90 then b.toNat + 32 else b.toNat := by
  unfold lowByte
  split
  · rw [UInt8.toNat_add]
    simp only [UInt8.reduceToNat]
    omega
  · rfl

theorem caseByte_iff (a b : UInt8) : CaseByte a b ↔ lowByte a = lowByte b := by
  unfold CaseByte
  rw [← UInt8.toNat_inj, ← UInt8.toNat_inj, lowByte_toNat, lowByte_toNat]
  split <;> split <;> omega

def low (s : Str) : Str := s.map lowByte

theorem sameCase_iff (s t : Str) : SameCase s t ↔ low s = low t := by
  induction s generalizing t with
  | nil => cases t <;> simp [SameCase, low]
  | cons a s ih =>
    cases t with
    | nil => simp [SameCase, low]
    | cons b t =>
      simp only [SameCase, caseByte_iff, ih, low, List.map_cons, List.cons.injEq]

theorem low_append (s t : Str) : low (s ++ t) = low s ++ low t := List.map_append

theorem low_eq_nil (s : Str) : low s = [] ↔ s = [] := List.map_eq_nil_iff

theorem low_slash (b : UInt8) : lowByte b = slash ↔ b = slash := by
  rw [← UInt8.toNat_inj, ← UInt8.toNat_inj, lowByte_toNat, show slash.toNat = 47 from rfl]
  split <;> omega

theorem low_dotByte (b : UInt8) : lowByte b = c!"." ↔ b = c!"." := by
  rw [← UInt8.toNat_inj, ← UInt8.toNat_inj, lowByte_toNat]
  simp only [UInt8.reduceToNat]
  split <;> omega

theorem low_dot (s : Str) : low s = dot ↔ s = dot := by
  match s with
  | [] => simp [low]
  | [a] => simp [low, low_dotByte]
  | _ :: _ :: _ => simp [low]

theorem low_dotdot (s : Str) : low s = dotdot ↔ s = dotdot := by
  match s with
  | [] => simp [low]
  | [_] => simp [low]
  | [a, b] => simp [low, low_dotByte]
  | _ :: _ :: _ :: _ => simp [low]

theorem mem_low_slash (s : Str) : slash ∈ low s ↔ slash ∈ s := by
  simp only [low, List.mem_map]
  constructor
  · rintro ⟨b, hb, h⟩
    rwa [(low_slash b).1 h] at hb
  · exact fun h => ⟨slash, h, by decide⟩

theorem isAbs_low (s : Str) : isAbs (low s) = isAbs s := by
  cases s with
  | nil => rfl
  | cons b r =>
    simp only [low, List.map_cons, isAbs]
    exact decide_eq_decide.2 (low_slash b)

theorem splitSlash_low (s : Str) : splitSlash (low s) = (splitSlash s).map low := by
  induction s with
  | nil => rfl
  | cons b r ih =>
    rw [show low (b :: r) = lowByte b :: low r from rfl, splitSlash, splitSlash, ih]
    by_cases h : b = slash
    · rw [if_pos h, if_pos ((low_slash b).2 h)]; rfl
    · rw [if_neg h, if_neg (mt (low_slash b).1 h)]
      cases splitSlash r <;> rfl

theorem joinSlash_low : (l : List Str) → joinSlash (l.map low) = low (joinSlash l)
  | [] => rfl
  | [_] => rfl
  | c :: d :: l => by
    have ih := joinSlash_low (d :: l)
    have e : ∀ (a b : Str) (m : List Str), joinSlash (a :: b :: m) = a ++ slash :: joinSlash (b :: m) :=
      fun _ _ _ => rfl
    rw [List.map_cons, List.map_cons, e, e, ← List.map_cons, ih, low_append]
    rfl

/-- The same state with small letters. -/
def lowState (st : NState) : NState := ⟨st.stack.map low, st.trail⟩

theorem nstep_low (abs : Bool) (st : NState) (c : Str) :
    nstep abs (lowState st) (low c) = lowState (nstep abs st c) := by
  have e1 : (low c = [] ∨ low c = dot) ↔ (c = [] ∨ c = dot) := by rw [low_eq_nil, low_dot]
  unfold nstep
  by_cases h : c = [] ∨ c = dot
  · rw [if_pos h, if_pos (e1.2 h)]; rfl
  · rw [if_neg h, if_neg (mt e1.1 h)]
    by_cases h2 : c = dotdot
    · rw [if_pos h2, if_pos ((low_dotdot c).2 h2)]
      obtain ⟨stack, trail⟩ := st
      cases stack with
      | nil => cases abs <;> rfl
      | cons top rest =>
        simp only [lowState, List.map_cons]
        by_cases h3 : top = dotdot
        · rw [if_pos h3, if_pos ((low_dotdot top).2 h3)]; rfl
        · rw [if_neg h3, if_neg (mt (low_dotdot top).1 h3)]
    · rw [if_neg h2, if_neg (mt (low_dotdot c).1 h2)]; rfl

theorem fold_low (abs : Bool) (l : List Str) (st : NState) :
    (l.map low).foldl (nstep abs) (lowState st) = lowState (l.foldl (nstep abs) st) := by
  induction l generalizing st with
  | nil => rfl
  | cons c l ih => rw [List.map_cons, List.foldl_cons, List.foldl_cons, nstep_low, ih]

theorem render_low (abs : Bool) (st : NState) : render abs (lowState st) = low (render abs st) := by
  obtain ⟨stack, trail⟩ := st
  cases stack with
  | nil => cases abs <;> rfl
  | cons top rest =>
    have e : joinSlash ((low top :: rest.map low).reverse) = low (joinSlash (top :: rest).reverse) := by
      rw [← List.map_cons, ← List.map_reverse, joinSlash_low]
    have f : (if abs = true then [slash] else ([] : Str)) = low (if abs = true then [slash] else []) := by
      cases abs <;> decide
    simp only [render, lowState, List.map_cons, low_append, e, ← f]
    congr 1
    by_cases h : trail = true ∧ top ≠ dotdot
    · rw [if_pos h, if_pos ⟨h.1, mt (low_dotdot top).1 h.2⟩]; decide
    · rw [if_neg h, if_neg fun x => h ⟨x.1, mt (low_dotdot top).2 x.2⟩]; rfl

/-- Normal forms do not depend on the case of letters. -/
theorem toPathString_low (s : Str) : toPathString (low s) = low (toPathString s) := by
  rw [toPathString, toPathString, lexNormal, lexNormal]
  by_cases h : s = []
  · rw [if_pos h, if_pos ((low_eq_nil s).2 h)]; rfl
  · rw [if_neg h, if_neg (mt (low_eq_nil s).1 h), isAbs_low, splitSlash_low]
    rw [show (⟨[], false⟩ : NState) = lowState ⟨[], false⟩ from rfl, fold_low, render_low]
    rfl

theorem splitFile_low (s : Str) : splitFile (low s) = (low (splitFile s).1, low (splitFile s).2) := by
  induction s with
  | nil => rfl
  | cons b r ih =>
    rw [show low (b :: r) = lowByte b :: low r from rfl, splitFile, splitFile, ih]
    by_cases h : (splitFile r).1 = []
    · simp only [(low_eq_nil _).2 h, h, if_true]
      by_cases hb : b = slash
      · rw [if_pos hb, if_pos ((low_slash b).2 hb)]; rfl
      · rw [if_neg hb, if_neg (mt (low_slash b).1 hb)]; rfl
    · simp only [mt (low_eq_nil _).1 h, h, if_false]; rfl

theorem filename_low (s : Str) : filename (low s) = low (filename s) := by
  rw [filename, splitFile_low]; rfl

theorem append_low (p q : Str) : append (low p) (low q) = low (append p q) := by
  simp only [append, isAbs_low, filename_low, low_eq_nil]
  by_cases h : isAbs q = true
  · simp only [h, if_true]
  · simp only [h]
    by_cases hf : filename p = []
    · simp only [hf, if_true]; simp [low_append]
    · simp only [hf, if_false]
      rw [if_neg (by simp), if_neg (by simp), low_append]
      rfl

theorem plain_low (c : Str) : PlainName (low c) ↔ PlainName c := by
  simp only [PlainName, ne_eq, low_eq_nil, low_dot, low_dotdot, mem_low_slash]

theorem dotdot_low (t : Str) : dotdot ∈ splitSlash (low t) ↔ dotdot ∈ splitSlash t := by
  rw [splitSlash_low, List.mem_map]
  constructor
  · rintro ⟨c, hc, h⟩
    rwa [(low_dotdot c).1 h] at hc
  · exact fun h => ⟨_, h, by decide⟩

theorem dir_low (env tc n : Str) : targetBuildDir (low env) (low tc) (low n) = low (targetBuildDir env tc n) := by
  rw [targetBuildDir, append_low, append_low]; rfl

theorem sameFile_low {p q : Str} (h : SameFile p q) : toPathString (low p) = toPathString (low q) := by
  rw [toPathString_low, toPathString_low]
  exact (sameCase_iff _ _).1 h

/-! ## Theorems -/

/-- **C121, targets.**  Two targets with plain names whose directories have a file in common have the same
names, apart from the case of letters. -/
theorem C121_targets (env tc1 n1 tc2 n2 t1 t2 : Str) (henv : env ≠ [])
    (p1 : PlainName tc1) (q1 : PlainName n1) (p2 : PlainName tc2) (q2 : PlainName n2)
    (h1 : dotdot ∉ splitSlash t1) (h2 : dotdot ∉ splitSlash t2)
    (h : SameFile (targetBuildDir env tc1 n1 ++ b!"/" ++ t1) (targetBuildDir env tc2 n2 ++ b!"/" ++ t2)) :
    SameCase tc1 tc2 ∧ SameCase n1 n2 := by
  have e := sameFile_low h
  simp only [low_append, ← dir_low] at e
  have := target_dirs_disjoint (low env) (low tc1) (low n1) (low tc2) (low n2) (low t1) (low t2)
    (mt (low_eq_nil env).1 henv) ((plain_low _).2 p1) ((plain_low _).2 q1) ((plain_low _).2 p2)
    ((plain_low _).2 q2) (mt (dotdot_low t1).1 h1) (mt (dotdot_low t2).1 h2) e
  exact ⟨(sameCase_iff _ _).2 this.1, (sameCase_iff _ _).2 this.2⟩

/-- **C121, state files**, exactly: two targets share their state if and only if their names are the same
apart from the case of letters. -/
theorem C121_state (env tc1 n1 tc2 n2 : Str) (henv : env ≠ [])
    (p1 : PlainName tc1) (q1 : PlainName n1) (p2 : PlainName tc2) (q2 : PlainName n2) :
    SameFile (targetStateFile env tc1 n1) (targetStateFile env tc2 n2) ↔
      SameCase tc1 tc2 ∧ SameCase n1 n2 := by
  constructor
  · intro h
    have e := sameFile_low h
    have s : ∀ tc n, low (targetStateFile env tc n) = targetStateFile (low env) (low tc) (low n) := by
      intro tc n
      rw [targetStateFile, targetStateFile, dir_low, ← append_low, low_append]
      rfl
    rw [s, s] at e
    by_cases hn : (low tc1, low n1) = (low tc2, low n2)
    · obtain ⟨a, b⟩ := Prod.mk.inj hn
      exact ⟨(sameCase_iff _ _).2 a, (sameCase_iff _ _).2 b⟩
    · exact absurd e (target_files_distinct (low env) (low tc1) (low n1) (low tc2) (low n2) b!".x" b!".x"
        (mt (low_eq_nil env).1 henv) ((plain_low _).2 p1) ((plain_low _).2 q1) ((plain_low _).2 p2)
        ((plain_low _).2 q2) (by decide) (by decide)
        (fun h => by have := congrArg List.getLast? h; simp at this)
        (fun h => by have := congrArg List.getLast? h; simp at this) hn).1
  · rintro ⟨a, b⟩
    rw [SameFile, sameCase_iff, ← toPathString_low, ← toPathString_low, targetStateFile, targetStateFile,
      ← append_low, ← append_low, ← dir_low, ← dir_low, low_append, low_append, (sameCase_iff _ _).1 a,
      (sameCase_iff _ _).1 b]

/-- **C121, objects**, exactly: two sources of a target have the same object if and only if their file names
are the same, and their directories as seen from the root directory, apart from the case of letters. -/
theorem C121_objects (root build ext s1 s2 : Str) (he : slash ∉ ext) :
    SameCase (objectPath root build ext s1) (objectPath root build ext s2) ↔
      SameCase (filename s1) (filename s2) ∧
        SameCase (dirPart (seenFrom root s1)) (dirPart (seenFrom root s2)) := by
  have rr : ∀ s, isAbs (seenFrom root s) = false := by
    intro s
    rw [seenFrom]
    split
    · exact dotsToUnderscores_rel _ (lexRelative_rel _ _)
    · exact lexRelative_rel _ _
  rw [objectPath_eq root build ext s1 he (seenFrom root s1) rfl (rr _),
    objectPath_eq root build ext s2 he (seenFrom root s2) rfl (rr _)]
  simp only [sameCase_iff, low_append]
  constructor
  · intro h
    rw [List.append_assoc, List.append_assoc] at h
    have h := List.append_cancel_left h
    rw [← List.append_assoc, ← List.append_assoc] at h
    have hs := congrArg splitFile (List.append_cancel_right h)
    have nf : ∀ s, slash ∉ low (filename s) := fun s => mt (mem_low_slash _).1 (filename_noSlash s)
    have nd : ∀ s : Str, low (dirPart s) = [] ∨ ∃ d', low (dirPart s) = d' ++ [slash] := by
      intro s
      rcases dirPart_end s with h | ⟨d, h⟩
      · exact .inl (by rw [h]; rfl)
      · exact .inr ⟨low d, by rw [h, low_append]; rfl⟩
    rw [splitFile_unique _ _ (nf s1) (nd _), splitFile_unique _ _ (nf s2) (nd _)] at hs
    exact ⟨(Prod.mk.inj hs).2, (Prod.mk.inj hs).1⟩
  · rintro ⟨a, b⟩
    rw [a, b]

/-- **C121, sources.**  Two sources inside of the root directory, without two dots in a row, that have the same
object are the same file: they differ at most in the case of letters. -/
theorem C121_sources_partial (root build ext r1 r2 : Str)
    (hroot : toPathString root = root) (habs : isAbs root = true) (hfn : filename root ≠ [])
    (he : slash ∉ ext)
    (h1 : toPathString (root ++ b!"/" ++ r1) = root ++ b!"/" ++ r1)
    (h2 : toPathString (root ++ b!"/" ++ r2) = root ++ b!"/" ++ r2)
    (f1 : filename r1 ≠ []) (f2 : filename r2 ≠ [])
    (d1 : hasDotDot r1 = false) (d2 : hasDotDot r2 = false)
    (h : SameCase (objectPath root build ext (root ++ b!"/" ++ r1))
      (objectPath root build ext (root ++ b!"/" ++ r2))) :
    SameFile (root ++ b!"/" ++ r1) (root ++ b!"/" ++ r2) := by
  obtain ⟨ha, hb⟩ := (C121_objects root build ext _ _ he).1 h
  have k1 := lexRelative_inside root r1 hroot habs hfn h1 f1
  have k2 := lexRelative_inside root r2 hroot habs hfn h2 f2
  have e : ∀ r, filename (root ++ b!"/" ++ r) = filename r := by
    intro r
    have := (splitFile_prefix (root ++ [slash]) r (Or.inr ⟨root, rfl⟩)).2
    simpa using this
  rw [e, e, sameCase_iff] at ha
  simp only [seenFrom, k1, k2, d1, d2, sameCase_iff] at hb
  simp only [Bool.false_eq_true, if_false] at hb
  have hr : low r1 = low r2 := by
    rw [← splitFile_append r1, ← splitFile_append r2, low_append, low_append, ha, hb]
  rw [SameFile, h1, h2, sameCase_iff]
  simp only [low_append, hr]

/-- C121 is false for names that differ in the case of letters only: the two targets are different for the
registry, and they share their state and their output. -/
theorem C121_names_false (env tc n1 n2 ext : Str) (hc : SameCase n1 n2) (hne : n1 ≠ n2) :
    targetId tc n1 ≠ targetId tc n2 ∧
    SameFile (targetStateFile env tc n1) (targetStateFile env tc n2) ∧
    SameFile (targetOutput env tc n1 ext) (targetOutput env tc n2 ext) := by
  have hl := (sameCase_iff _ _).1 hc
  refine ⟨fun h => hne ?_, ?_, ?_⟩
  · simpa [targetId] using h
  · rw [SameFile, sameCase_iff, ← toPathString_low, ← toPathString_low, targetStateFile, targetStateFile,
      ← append_low, ← append_low, ← dir_low, ← dir_low, low_append, low_append, hl]
  · rw [SameFile, sameCase_iff, ← toPathString_low, ← toPathString_low, targetOutput, targetOutput,
      ← append_low, ← append_low, ← dir_low, ← dir_low, low_append, low_append, hl]

/-! ## Instances -/

example : SameCase b!"Foo" b!"foo" ∧ b!"Foo" ≠ b!"foo" ∧ ¬ SameCase b!"foo" b!"fop" ∧ ¬ SameCase b!"a[" b!"a{" ∧
    targetId b!"gcc" b!"Foo" ≠ targetId b!"gcc" b!"foo" ∧
    SameFile (targetStateFile b!"/b" b!"gcc" b!"Foo") b!"/b/gcc/foo/./foo.bin" := by
  refine ⟨by decide, by decide, by decide, by decide, by decide, by decide⟩

example : PlainName b!"gcc" ∧ PlainName b!"Foo" ∧ PlainName b!"foo" ∧
    SameFile (targetBuildDir b!"/b" b!"gcc" b!"Foo" ++ b!"/" ++ b!"x.o")
      (targetBuildDir b!"/b" b!"gcc" b!"foo" ++ b!"/" ++ b!"X.o") := by decide

/-- One file that is added as `Src/a.cpp` and as `src/A.cpp` is two sources with one object. -/
example : b!"/r/Src/a.cpp" ≠ b!"/r/src/A.cpp" ∧ SameFile b!"/r/Src/a.cpp" b!"/r/src/A.cpp" ∧
    objectPath b!"/r" b!"/b" b!".o" b!"/r/Src/a.cpp" = b!"/b/Src/a.cpp.o" ∧
    objectPath b!"/r" b!"/b" b!".o" b!"/r/src/A.cpp" = b!"/b/src/A.cpp.o" ∧
    SameCase b!"/b/Src/a.cpp.o" b!"/b/src/A.cpp.o" := by decide

end Verif.Path
