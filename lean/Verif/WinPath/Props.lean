import Verif.WinPath.Lemmas
import Verif.Command.WinArgs

/-!
# C118: paths on Windows

A path is stored in one way however its separators are written; objects of a target are inside of its build
directory, and distinct for sources on the drive of the target's root directory.  Sources on another drive,
or on the same drive written with the other case, share an object as soon as they have the same file name.
-/

namespace Verif.WinPath
open Verif

/-! ## Stored paths -/

/-- C118: a path is stored in the same way whether it is written with `/` or with `\`. -/
theorem C118_spelling (s t : Str) (h : SameSpelling s t) : toPathString s = toPathString t := by
  rw [sameSpelling_iff] at h
  rw [toPathString, toPathString, ← bwd_fwd s, h, bwd_fwd]

example : SameSpelling b!"C:/p/src\\a.cpp" b!"C:\\p\\src/a.cpp" ∧ ¬ SameSpelling b!"C:/p" b!"C:/q" ∧
    toPathString b!"C:/p/src\\a.cpp" = b!"C:\\p\\src\\a.cpp" ∧
    toPathString b!"C:\\p\\src/a.cpp" = b!"C:\\p\\src\\a.cpp" := by decide

/-- The text that is put behind the drive. -/
theorem toPathString_eq (s : Str) : ∃ m : Str, toPathString s = drive s ++ bwd m ∧ back ∉ m ∧
    (c!":" ∉ tail s → c!":" ∉ m) ∧ (drive s = [] → m = Path.lexNormal (fwd (tail s))) ∧
    ((m = [] ∧ drive s ≠ []) ∨ (m = Path.lexNormal (fwd (tail s)) ∧ (drive s ≠ [] → m ≠ Path.dot))) := by
  have hb : back ∉ Path.lexNormal (fwd (tail s)) := by
    intro h
    rcases mem_lexNormal _ _ h with h | h | h
    · exact back_fwd _ h
    · exact absurd h (by decide)
    · exact absurd h (by decide)
  have hc : c!":" ∉ tail s → c!":" ∉ Path.lexNormal (fwd (tail s)) := by
    intro hn h
    rcases mem_lexNormal _ _ h with h | h | h
    · obtain ⟨b, hb, e⟩ := List.mem_map.1 h
      split at e
      · exact absurd e (by decide)
      · exact hn (e ▸ hb)
    · exact absurd h (by decide)
    · exact absurd h (by decide)
  by_cases hd : drive s ≠ [] ∧ Path.lexNormal (fwd (tail s)) = Path.dot
  · refine ⟨[], ?_, by simp, fun _ => by simp, fun h => absurd h hd.1, .inl ⟨rfl, hd.1⟩⟩
    rw [toPathString, lexNormal, drive_bwd, tail_bwd, if_pos hd]
  · refine ⟨Path.lexNormal (fwd (tail s)), ?_, hb, hc, fun _ => rfl, .inr ⟨rfl, fun h e => hd ⟨h, e⟩⟩⟩
    rw [toPathString, lexNormal, drive_bwd, tail_bwd, if_neg hd]

/-- C118: a stored path has no `/`. -/
theorem C118_preferred (s : Str) : c!"/" ∉ toPathString s := by
  obtain ⟨m, e, -⟩ := toPathString_eq s
  rw [e]
  intro h
  rcases List.mem_append.1 h with h | h
  · rcases drive_cases s with hd | ⟨a, ha, hd⟩
    · simp [hd] at h
    · rw [hd] at h
      simp [(letter_not_sep a ha).1.symm] at h
  · exact slash_bwd _ h

theorem drive_toPathString (s : Str) (hc : c!":" ∉ tail s) : drive (toPathString s) = drive s := by
  obtain ⟨m, e, -, hm, -⟩ := toPathString_eq s
  by_cases hd : drive s = []
  · rw [e, hd, List.nil_append, drive_bwd]
    exact drive_no_colon _ (hm hc)
  · rw [e, drive_of_cons _ _ hd]

/-- C118: what is stored is stored as it is; no file name has a colon. -/
theorem C118_again (s : Str) (hc : c!":" ∉ tail s) : toPathString (toPathString s) = toPathString s := by
  obtain ⟨m, e, hb, hm, -, hk⟩ := toPathString_eq s
  have d := drive_toPathString s hc
  have t : fwd (tail (toPathString s)) = m := by
    refine tail_eq _ _ (drive s) ?_ d
    rw [e, fwd_append, fwd_drive, fwd_bwd, fwd_same _ hb]
  conv => lhs; rw [toPathString, lexNormal, drive_bwd, tail_bwd, d, t]
  rw [e]
  congr 2
  rcases hk with ⟨rfl, hd⟩ | ⟨rfl, hn⟩
  · rw [show Path.lexNormal [] = [] from rfl, if_neg (fun h => absurd h.2 (by decide))]
  · rw [Path.lexNormal_idem]
    exact if_neg fun h => hn h.1 h.2

example : c!":" ∉ tail b!"C:\\p\\.\\src/..\\a.cpp" ∧
    toPathString b!"C:\\p\\.\\src/..\\a.cpp" = b!"C:\\p\\a.cpp" ∧ toPathString b!"C:." = b!"C:" := by decide

/-- C118 is false for a component with a colon: it becomes a drive. -/
theorem C118_again_false : toPathString (toPathString b!".\\C:.\\x") ≠ toPathString b!".\\C:.\\x" := by decide

theorem drive_long (p q : Str) (h : drive p ≠ []) :
    drive (p ++ q) = drive p ∧ tail (p ++ q) = tail p ++ q := by
  match p with
  | [] => exact absurd rfl h
  | [a] => exact absurd rfl h
  | a :: b :: r =>
    have : drive ((a :: b :: r) ++ q) = drive (a :: b :: r) := rfl
    refine ⟨this, ?_⟩
    rw [tail, tail, this]
    rcases drive_cases (a :: b :: r) with e | ⟨c, _, e⟩
    · rw [e]; rfl
    · rw [e]; rfl

/-- C118: other spellings of the same place are stored in the same way: `.`, repeated separators, and a name
followed by `..`. -/
theorem C118_places (p q x : Str) (hd : drive p ≠ []) (hx : Path.PlainName x) (hb : c!"\\" ∉ x) :
    toPathString (p ++ b!"\\.\\" ++ q) = toPathString (p ++ b!"\\" ++ q) ∧
    toPathString (p ++ b!"\\\\" ++ q) = toPathString (p ++ b!"\\" ++ q) ∧
    toPathString (p ++ b!"\\" ++ x ++ b!"\\..\\" ++ q) = toPathString (p ++ b!"\\" ++ q) := by
  have key : ∀ y z : Str, Path.lexNormal (fwd (tail p) ++ fwd y) = Path.lexNormal (fwd (tail p) ++ fwd z) →
      toPathString (p ++ y) = toPathString (p ++ z) := by
    intro y z h
    have e : ∀ y, drive (bwd (p ++ y)) = drive p ∧ fwd (tail (bwd (p ++ y))) = fwd (tail p) ++ fwd y := by
      intro y
      rw [drive_bwd, tail_bwd, (drive_long p y hd).1, (drive_long p y hd).2, fwd_append]
      exact ⟨rfl, rfl⟩
    rw [toPathString, toPathString, lexNormal, lexNormal, (e y).1, (e y).2, (e z).1, (e z).2, h]
  have fx : fwd x = x := fwd_same x hb
  refine ⟨?_, ?_, ?_⟩
  · rw [List.append_assoc, List.append_assoc]
    refine key _ _ ?_
    rw [fwd_append, fwd_append, ← List.append_assoc, ← List.append_assoc]
    exact Path.normal_skip_dot _ _
  · rw [List.append_assoc, List.append_assoc]
    refine key _ _ ?_
    rw [fwd_append, fwd_append, ← List.append_assoc, ← List.append_assoc]
    exact Path.normal_skip_slash _ _
  · rw [show p ++ b!"\\" ++ x ++ b!"\\..\\" ++ q = p ++ (b!"\\" ++ x ++ b!"\\..\\" ++ q) by simp,
      List.append_assoc p]
    refine key _ _ ?_
    rw [fwd_append, fwd_append, fwd_append, fwd_append, fx]
    have := Path.normal_skip_updown (fwd (tail p)) x (fwd q) hx
    rw [Path.toPathString, Path.toPathString] at this
    simpa [fwd, Path.slash, back] using this

example : drive b!"C:\\p" ≠ [] ∧ Path.PlainName b!"src" ∧ c!"\\" ∉ b!"src" ∧
    toPathString b!"C:\\p\\src\\..\\a.cpp" = b!"C:\\p\\a.cpp" := by decide

/-- C118: the drive of a path is a letter of either case and a colon at its beginning, and nothing else. -/
theorem C118_drive (s : Str) (a : UInt8) :
    drive s = [a, c!":"] ↔
      a ∈ b!"ABCDEFGHIJKLMNOPQRSTUVWXYZabcdefghijklmnopqrstuvwxyz" ∧ ∃ t, s = a :: c!":" :: t := by
  have hl : ∀ a : UInt8, isLetter a = true ↔
      a ∈ b!"ABCDEFGHIJKLMNOPQRSTUVWXYZabcdefghijklmnopqrstuvwxyz" := by
    intro a
    simp only [isLetter, Bool.or_eq_true, Bool.and_eq_true, decide_eq_true_eq, UInt8.le_iff_toNat_le,
      List.mem_cons, List.not_mem_nil, or_false, ← UInt8.toNat_inj]
    simp only [UInt8.reduceToNat]
    omega
  rw [← hl]
  constructor
  · intro h
    have e := drive_tail s
    rcases drive_cases s with h' | ⟨b, hb, h'⟩
    · rw [h'] at h; simp at h
    · rw [h'] at h
      have : b = a := by simpa using h
      subst this
      exact ⟨hb, tail s, by rw [h'] at e; exact e.symm⟩
  · rintro ⟨h, t, rfl⟩
    simp [drive, h]

example : drive b!"Z:/x" = b!"Z:" ∧ drive b!"a:x" = b!"a:" ∧ drive b!"1:/x" = [] ∧ drive b!"ab:/x" = [] := by decide

/-- C118: a path with a drive and a root directory replaces the directory that it is put behind; one without
a drive stays on the drive of that directory. -/
theorem C118_join (p q : Str) (hr : rooted q = true) :
    (drive q ≠ [] → append p q = q) ∧ (drive q = [] → append p q = drive p ++ q) := by
  refine ⟨fun h => if_pos ⟨h, .inl hr⟩, fun h => ?_⟩
  rw [append, if_neg (by simp [h]), if_pos hr, tail_of_drive_nil q h]

example : append b!"C:\\p" b!"D:\\x" = b!"D:\\x" ∧ append b!"C:\\p" b!"\\x" = b!"C:\\x" ∧
    append b!"C:\\p" b!"x/y" = b!"C:\\p\\x/y" ∧ append b!"C:\\p\\" b!"x" = b!"C:\\p\\x" := by decide

/-! ## Objects -/

/-- An extension of object files: no separator and no colon. -/
def PlainExt (e : Str) : Prop := c!":" ∉ e ∧ c!"/" ∉ e ∧ c!"\\" ∉ e

instance (e : Str) : Decidable (PlainExt e) := by unfold PlainExt; infer_instance

/-- C118, which objects are the same: two sources on the drive of the root directory share an object if and
only if they have the same file name and are in the same directory as seen from the root directory, after dots
have become underscores in those of the two relative paths that have two dots in a row. -/
theorem C118_objects_exact (root build ext s1 s2 : Str) (he : PlainExt ext)
    (d1 : drive s1 = drive root) (d2 : drive s2 = drive root) (c1 : c!":" ∉ tail s1) (c2 : c!":" ∉ tail s2) :
    SameSpelling (objectPath root build ext s1) (objectPath root build ext s2) ↔
      filename s1 = filename s2 ∧
      Path.dirPart (Path.seenFrom (fwd (tail root)) (fwd (tail s1)))
        = Path.dirPart (Path.seenFrom (fwd (tail root)) (fwd (tail s2))) := by
  rw [sameSpelling_iff, object_same_drive root build ext s1 d1 c1 he,
    object_same_drive root build ext s2 d2 c2 he, List.append_cancel_left_eq]
  exact Path.C21_exact _ _ _ _ _ he.2.1

/-- A directory next to the root directory and one below it. -/
example : SameSpelling (objectPath b!"C:\\p" b!"C:\\b" b!".obj" b!"C:\\a.b\\x.cpp")
    (objectPath b!"C:\\p" b!"C:\\b" b!".obj" b!"C:/p/__/a_b/x.cpp") :=
  (C118_objects_exact b!"C:\\p" b!"C:\\b" b!".obj" b!"C:\\a.b\\x.cpp" b!"C:/p/__/a_b/x.cpp" (by decide)
    (by decide) (by decide) (by decide) (by decide)).2 (by decide +kernel)

/-- C118: sources below the root directory have distinct objects. -/
theorem C118_objects_partial (root build ext r1 r2 : Str) (he : PlainExt ext)
    (hroot : toPathString root = root) (hd : drive root ≠ []) (hr : rooted root = true)
    (hf : filename root ≠ []) (hc : c!":" ∉ tail root)
    (n1 : toPathString (root ++ b!"\\" ++ r1) = root ++ b!"\\" ++ r1)
    (n2 : toPathString (root ++ b!"\\" ++ r2) = root ++ b!"\\" ++ r2)
    (c1 : c!":" ∉ r1) (c2 : c!":" ∉ r2)
    (f1 : filename (root ++ b!"\\" ++ r1) ≠ []) (f2 : filename (root ++ b!"\\" ++ r2) ≠ [])
    (x1 : Path.hasDotDot r1 = false) (x2 : Path.hasDotDot r2 = false)
    (h : SameSpelling (objectPath root build ext (root ++ b!"\\" ++ r1))
      (objectPath root build ext (root ++ b!"\\" ++ r2))) : r1 = r2 := by
  have norm : ∀ s, drive s ≠ [] → toPathString s = s → Path.isAbs (fwd (tail s)) = true →
      Path.toPathString (fwd (tail s)) = fwd (tail s) := by
    intro s hd hs ha
    obtain ⟨m, e, hb, -, -, hk⟩ := toPathString_eq s
    have ht : fwd (tail s) = m := by
      refine tail_eq s m (drive s) ?_ rfl
      conv => lhs; rw [← hs, e, fwd_append, fwd_drive, fwd_bwd, fwd_same _ hb]
    rcases hk with ⟨rfl, -⟩ | ⟨hm, -⟩
    · rw [ht] at ha; exact absurd ha (by decide)
    · rw [Path.toPathString, ← hm, ht]
  have shape : ∀ r, drive (root ++ b!"\\" ++ r) = drive root ∧
      fwd (tail (root ++ b!"\\" ++ r)) = fwd (tail root) ++ b!"/" ++ fwd r := by
    intro r
    rw [List.append_assoc, (drive_long _ _ hd).1, (drive_long _ _ hd).2, fwd_append, List.append_assoc]
    exact ⟨rfl, rfl⟩
  have tne : fwd (tail root) ≠ [] := by
    intro e
    rw [rooted, e] at hr
    exact absurd hr (by decide)
  have nn : ∀ r, toPathString (root ++ b!"\\" ++ r) = root ++ b!"\\" ++ r →
      Path.toPathString (fwd (tail root) ++ b!"/" ++ fwd r) = fwd (tail root) ++ b!"/" ++ fwd r := by
    intro r hn
    rw [← (shape r).2]
    refine norm _ (by rw [(shape r).1]; exact hd) hn ?_
    rw [(shape r).2, List.append_assoc, Path.isAbs_append _ _ tne]
    exact hr
  have fn : ∀ r, filename (root ++ b!"\\" ++ r) ≠ [] → Path.filename (fwd r) ≠ [] := by
    intro r hf
    rw [filename, (shape r).2] at hf
    rwa [(Path.splitFile_prefix (fwd (tail root) ++ b!"/") (fwd r) (.inr ⟨_, rfl⟩)).2] at hf
  have cc : ∀ r, c!":" ∉ r → c!":" ∉ tail (root ++ b!"\\" ++ r) := by
    intro r hr h
    rw [List.append_assoc, (drive_long _ _ hd).2] at h
    rcases List.mem_append.1 h with h | h
    · exact hc h
    · simp [hr] at h
  have dd : ∀ r, Path.hasDotDot (fwd r) = Path.hasDotDot r := by
    intro r
    rw [← hasDotDot_bwd, bwd_fwd, hasDotDot_bwd]
  have back1 : ∀ r, toPathString (root ++ b!"\\" ++ r) = root ++ b!"\\" ++ r → bwd r = r := by
    intro r hn
    have hs : Path.slash ∉ r := by
      intro h
      refine C118_preferred (root ++ b!"\\" ++ r) ?_
      rw [hn]
      exact List.mem_append_right _ h
    rw [bwd]
    conv => rhs; rw [← List.map_id r]
    refine List.map_congr_left fun b hb => ?_
    have hn : b ≠ Path.slash := fun e => hs (e ▸ hb)
    rw [if_neg hn]
    rfl
  rw [sameSpelling_iff, object_same_drive _ _ _ _ (shape r1).1 (cc r1 c1) he,
    object_same_drive _ _ _ _ (shape r2).1 (cc r2 c2) he, List.append_cancel_left_eq, (shape r1).2,
    (shape r2).2] at h
  have := Path.object_path_injective_inside_root_partial (fwd (tail root)) (fwd (tail build)) ext (fwd r1)
    (fwd r2) (norm root hd hroot hr) hr hf he.2.1 (nn r1 n1) (nn r2 n2) (fn r1 f1) (fn r2 f2)
    (by rw [dd]; exact x1) (by rw [dd]; exact x2) h
  rw [← back1 r1 n1, ← back1 r2 n2, ← bwd_fwd r1, ← bwd_fwd r2, this]

example : PlainExt b!".obj" ∧ toPathString b!"C:\\p" = b!"C:\\p" ∧ drive b!"C:\\p" ≠ [] ∧
    rooted b!"C:\\p" = true ∧ filename b!"C:\\p" ≠ [] ∧ c!":" ∉ tail b!"C:\\p" ∧
    toPathString (b!"C:\\p" ++ b!"\\" ++ b!"src\\a.b\\x.cpp") = b!"C:\\p" ++ b!"\\" ++ b!"src\\a.b\\x.cpp" ∧
    objectPath b!"C:\\p" b!"D:/build" b!".obj" b!"C:\\p\\src\\a.b\\x.cpp" = b!"D:/build\\src\\a.b\\x.cpp.obj" := by
  decide

/-- C118: for a source on another drive than the root directory only the file name counts. -/
theorem C118_other_drive (root build ext source : Str) (he : PlainExt ext)
    (hd : drive source ≠ drive root) (hc : c!":" ∉ tail source) :
    SameSpelling (objectPath root build ext source) (append build (filename source ++ ext)) :=
  object_other_drive root build ext source hd hc he

/-- C118 is false for sources on another drive: all sources with the same file name have the same object. -/
theorem C118_other_drive_false (root build ext s1 s2 : Str) (he : PlainExt ext)
    (h1 : drive s1 ≠ drive root) (h2 : drive s2 ≠ drive root) (c1 : c!":" ∉ tail s1) (c2 : c!":" ∉ tail s2)
    (h : filename s1 = filename s2) :
    SameSpelling (objectPath root build ext s1) (objectPath root build ext s2) := by
  have e1 := (sameSpelling_iff _ _).1 (object_other_drive root build ext s1 h1 c1 he)
  have e2 := (sameSpelling_iff _ _).1 (object_other_drive root build ext s2 h2 c2 he)
  rw [sameSpelling_iff, e1, e2, h]

/-- Another drive, and the same drive with a small letter. -/
example :
    objectPath b!"C:\\p" b!"C:\\p\\build" b!".obj" b!"D:\\lib\\a\\x.cpp" = b!"C:\\p\\build\\x.cpp.obj" ∧
    objectPath b!"C:\\p" b!"C:\\p\\build" b!".obj" b!"D:\\lib\\b\\x.cpp" = b!"C:\\p\\build\\x.cpp.obj" ∧
    objectPath b!"C:\\p" b!"C:\\p\\build" b!".obj" b!"c:\\p\\a\\x.cpp" = b!"C:\\p\\build\\x.cpp.obj" ∧
    objectPath b!"C:\\p" b!"C:\\p\\build" b!".obj" b!"C:\\p\\a\\x.cpp" = b!"C:\\p\\build\\a\\x.cpp.obj" := by
  decide

theorem inside_of_posix (build p x : Str) (hb : tail build ≠ []) (e : fwd p = drive build ++ x)
    (h : Path.Inside (fwd (tail build)) x) : Inside build p := by
  obtain ⟨t, h, hdd⟩ := h
  have bx : back ∉ x := by
    intro hx
    refine back_fwd p ?_
    rw [e]
    exact List.mem_append_right _ hx
  refine ⟨t, ?_, hdd⟩
  rcases h with h | ⟨hl, h⟩
  · left
    rw [h] at bx
    rw [sameSpelling_iff, e, h, fwd_append, fwd_append, fwd_split build,
      fwd_same t fun hx => bx (List.mem_append_right _ (List.mem_cons_of_mem _ hx))]
    simp [fwd, Path.slash, back]
  · right
    rw [h] at bx
    refine ⟨?_, by rw [sameSpelling_iff, e, h, fwd_append, fwd_split build,
      fwd_same t fun hx => bx (List.mem_append_right _ hx), List.append_assoc]⟩
    have : build.getLast? = (tail build).getLast? := by
      conv => lhs; rw [← drive_tail build, List.getLast?_append]
      cases hg : (tail build).getLast? with
      | none => exact absurd (List.getLast?_eq_none_iff.1 hg) hb
      | some b => rfl
    rw [this]
    rw [fwd, List.getLast?_map] at hl
    cases hg : (tail build).getLast? with
    | none => rw [hg] at hl; simp at hl
    | some b =>
      rw [hg] at hl
      simp only [Option.map_some, Option.some.injEq] at hl
      split at hl
      · rename_i e; right; rw [e]
      · left; rw [hl]

/-- C118: every object is inside of the build directory, wherever the source is. -/
theorem C118_inside (root build ext source : Str) (he : PlainExt ext) (hc : c!":" ∉ tail source)
    (hb : tail build ≠ []) (hn : filename source ++ ext ≠ Path.dotdot) :
    Inside build (objectPath root build ext source) := by
  have ftn : fwd (tail build) ≠ [] := fun h => hb (List.map_eq_nil_iff.1 h)
  by_cases hd : drive source = drive root
  · exact inside_of_posix build _ _ hb (object_same_drive root build ext source hd hc he)
      (Path.object_path_inside_build (fwd (tail root)) (fwd (tail build)) ext (fwd (tail source)) ftn he.2.1 hn)
  · have e := (sameSpelling_iff _ _).1 (object_other_drive root build ext source hd hc he)
    have fns : ∀ b ∈ filename source ++ ext, b ≠ c!"/" ∧ b ≠ c!"\\" ∧ b ≠ c!":" := by
      intro b hb
      rcases List.mem_append.1 hb with hb | hb
      · refine ⟨fun e => Path.filename_noSlash _ (e ▸ hb), fun e => ?_, fun e => ?_⟩
        · refine back_fwd (tail source) ?_
          rw [← Path.splitFile_append (fwd (tail source)), ← show b = back from e]
          exact List.mem_append_right _ hb
        · have : c!":" ∈ fwd (tail source) := by
            rw [← Path.splitFile_append (fwd (tail source))]
            exact List.mem_append_right _ (e ▸ hb)
          obtain ⟨x, hx, ex⟩ := List.mem_map.1 this
          split at ex
          · exact absurd ex (by decide)
          · exact hc (ex ▸ hx)
      · exact ⟨fun e => he.2.1 (e ▸ hb), fun e => he.2.2 (e ▸ hb), fun e => he.1 (e ▸ hb)⟩
    have df : drive (filename source ++ ext) = [] := drive_no_colon _ fun h => (fns _ h).2.2 rfl
    have ff : fwd (filename source ++ ext) = filename source ++ ext := fwd_same _ fun h => (fns _ h).2.1 rfl
    have nf : Path.slash ∉ filename source ++ ext := fun h => (fns _ h).1 rfl
    obtain ⟨d3, t3⟩ := append_rel build (filename source ++ ext) df
      (by rw [ff]; exact Path.isAbs_noSlash _ nf)
      (fun x e => (fns c!":" (by rw [e]; exact List.mem_cons_self ..)).2.2 rfl)
    refine inside_of_posix build _ (Path.append (fwd (tail build)) (filename source ++ ext)) hb ?_
      ⟨filename source ++ ext, ?_, ?_⟩
    · rw [e, fwd_split (append _ _), d3, t3, ff]
    · rw [Path.append, Path.isAbs_noSlash _ nf, if_neg Bool.false_ne_true]
      split
      · rename_i hz
        rcases Path.dirPart_empty_filename _ hz with h0 | ⟨d', h0⟩
        · exact absurd h0 ftn
        · right; exact ⟨by rw [h0]; simp, rfl⟩
      · left; rfl
    · rw [Path.splitSlash_noSlash _ nf, List.mem_singleton]
      exact fun h => hn h.symm

example : Inside b!"C:\\p\\build" (objectPath b!"C:\\p" b!"C:\\p\\build" b!".obj" b!"C:\\lib\\x.cpp") ∧
    objectPath b!"C:\\p" b!"C:\\p\\build" b!".obj" b!"C:\\lib\\x.cpp" = b!"C:\\p\\build\\__\\lib\\x.cpp.obj" :=
  ⟨C118_inside _ _ _ _ (by decide) (by decide) (by decide) (by decide), by decide⟩

/-! ## Commands -/

/-- C118: a path in a command, with texts before and behind it that need no quotes, is exactly one argument
with exactly the stored path, unless that path has a space and ends with a separator. -/
theorem C118_argument (p pre post : Str) (hne : toPathString p ≠ [])
    (hp : ∀ b ∈ toPathString p, b ≠ c!"\"" ∧ b ≠ c!"\t")
    (hpre : ∀ b ∈ pre, b ≠ c!"\"" ∧ b ≠ c!" " ∧ b ≠ c!"\t" ∧ b ≠ c!"\\")
    (hpost : ∀ b ∈ post, b ≠ c!"\"" ∧ b ≠ c!" " ∧ b ≠ c!"\t") :
    Windows.split (pre ++ displayString p ++ post) = some [pre ++ toPathString p ++ post] ↔
      ¬ (c!" " ∈ toPathString p ∧ (toPathString p).getLast? = some c!"\\") := by
  rw [displayString]
  split
  · rename_i hs
    have := Windows.split_quoted pre (toPathString p) post hpre (fun b hb => (hp b hb).1) hpost
    simp only [hs, true_and]
    rw [← Ne, ← this]
    simp only [List.append_assoc, List.cons_append, List.nil_append]
  · rename_i hs
    simp only [hs, false_and, not_false_eq_true, iff_true]
    refine Windows.split_plain ⟨by simp [hne], fun b hb => ?_⟩
    rcases List.mem_append.1 hb with hb | hb
    · rcases List.mem_append.1 hb with hb | hb
      · exact ⟨(hpre b hb).1, (hpre b hb).2.1, (hpre b hb).2.2.1⟩
      · exact ⟨(hp b hb).1, fun e => hs (e ▸ hb), (hp b hb).2⟩
    · exact hpost b hb

/-- A file in a directory with a space is one argument. -/
example : Windows.split b!"cl /Fo\"C:\\my build\\x.obj\" C:\\p\\x.cpp"
      = some [b!"cl", b!"/FoC:\\my build\\x.obj", b!"C:\\p\\x.cpp"] ∧
    displayString b!"C:/my build/x.obj" = b!"\"C:\\my build\\x.obj\"" := by decide +kernel

/-- C118 is false for a directory with a space that is written with a final separator, of either kind: the
quote that ends it is taken for a part of the path. -/
theorem C118_directory_false :
    displayString b!"C:/my libs/" = b!"\"C:\\my libs\\\"" ∧
    Windows.split (b!"gen " ++ displayString b!"C:/my libs/" ++ b!" out.h") ≠
      some [b!"gen", toPathString b!"C:/my libs/", b!"out.h"] ∧
    Windows.split (b!"gen " ++ displayString b!"C:/my libs" ++ b!" out.h") =
      some [b!"gen", toPathString b!"C:/my libs", b!"out.h"] := by decide +kernel

end Verif.WinPath
