import Verif.WinPath.Props
import Verif.Path.Case

/-! # Files of targets on Windows (C121)

There both separators are the same and the case of letters does not count. -/

namespace Verif.WinPath
open Verif

/-! ## Model -/

/-- Build directory of a target: `env.GetTargetBuildDir() / toolchain.GetName() / name` (`target.h:68-71`). -/
def targetBuildDir (envBuild toolchain name : Str) : Str := append (append envBuild toolchain) name

/-- State file of a target: `build dir / "{name}.bin"` (`target.h:73`). -/
def targetStateFile (envBuild toolchain name : Str) : Str :=
  append (targetBuildDir envBuild toolchain name) (name ++ b!".bin")

/-! ## Specification -/

/-- The two paths lead to the same file on Windows: what is stored for them differs at most in the case of
letters. -/
def SameFile (p q : Str) : Prop := Path.SameCase (toPathString p) (toPathString q)

instance (p q : Str) : Decidable (SameFile p q) := by unfold SameFile; infer_instance

/-- A file name: not empty, not `.` or `..`, without separators and colons. -/
def PlainName (c : Str) : Prop := Path.PlainName c ∧ c!"\\" ∉ c ∧ c!":" ∉ c

instance (c : Str) : Decidable (PlainName c) := by unfold PlainName; infer_instance

/-! ## Proofs -/

theorem rooted_append (p q : Str) (h : rooted p = true) :
    drive (p ++ q) = drive p ∧ tail (p ++ q) = tail p ++ q := by
  by_cases hd : drive p = []
  · have ht := tail_of_drive_nil p hd
    rw [rooted, ht] at h
    have : drive (p ++ q) = [] := by
      match p, h with
      | b :: r, h =>
        have hb : isLetter b = false := by
          rw [fwd, List.map_cons, Path.isAbs, decide_eq_true_eq] at h
          by_cases e : b = back
          · rw [e]; decide
          · rw [if_neg e] at h; rw [h]; decide
        match r, q with
        | [], [] => rfl
        | [], _ :: _ => simp [drive, hb]
        | _ :: _, _ => simp [drive, hb]
    exact ⟨this.trans hd.symm, by rw [tail_of_drive_nil _ this, ht]⟩
  · exact drive_long p q hd

/-- What is stored for a path with a root directory. -/
theorem stored_rooted (s : Str) (h : rooted s = true) :
    toPathString s = drive s ++ bwd (Path.toPathString (fwd (tail s))) := by
  rw [toPathString, lexNormal, drive_bwd, tail_bwd, Path.toPathString]
  have ha : Path.isAbs (Path.lexNormal (fwd (tail s))) = true := by
    have ha : Path.isAbs (fwd (tail s)) = true := h
    rw [Path.lexNormal, if_neg (by intro e; rw [e] at ha; exact absurd ha (by decide)), ha, Path.render]
    split
    · rfl
    · simp [Path.isAbs]
  rw [if_neg]
  rintro ⟨-, e⟩
  rw [e] at ha
  exact absurd ha (by decide)

theorem low_bwd (s : Str) : Path.low (bwd s) = bwd (Path.low s) := by
  simp only [Path.low, bwd, List.map_map]
  refine List.map_congr_left fun b _ => ?_
  simp only [Function.comp]
  by_cases h : b = Path.slash
  · rw [if_pos h, if_pos ((Path.low_slash b).2 h)]; decide
  · rw [if_neg h, if_neg (mt (Path.low_slash b).1 h)]

theorem low_back (b : UInt8) : Path.lowByte b = back ↔ b = back := by
  rw [← UInt8.toNat_inj, ← UInt8.toNat_inj, Path.lowByte_toNat, show back.toNat = 92 from rfl]
  split <;> omega

theorem back_normal (s : Str) : back ∉ Path.low (Path.toPathString (fwd s)) := by
  intro h
  obtain ⟨b, hb, e⟩ := List.mem_map.1 h
  rw [(low_back b).1 e] at hb
  rcases mem_lexNormal _ _ hb with h | h | h
  · exact back_fwd _ h
  · exact absurd h (by decide)
  · exact absurd h (by decide)

theorem same_rooted (s t : Str) (hs : rooted s = true) (ht : rooted t = true) (hd : drive s = drive t)
    (h : SameFile s t) : Path.SameFile (fwd (tail s)) (fwd (tail t)) := by
  rw [SameFile, stored_rooted s hs, stored_rooted t ht, hd, Path.sameCase_iff, Path.low_append, Path.low_append,
    low_bwd, low_bwd] at h
  have h := congrArg fwd (List.append_cancel_left h)
  rw [fwd_bwd, fwd_bwd, fwd_same _ (back_normal _), fwd_same _ (back_normal _)] at h
  exact (Path.sameCase_iff _ _).2 h

theorem append_name (p n : Str) (h : PlainName n) :
    drive (append p n) = drive p ∧ fwd (tail (append p n)) = Path.append (fwd (tail p)) n := by
  have e : fwd n = n := fwd_same n h.2.1
  have := append_rel p n (drive_no_colon n h.2.2) (by rw [e]; exact Path.isAbs_noSlash _ h.1.2.2.2)
    (fun r er => h.2.2 (er ▸ List.mem_cons_self ..))
  rwa [e] at this

theorem dir_parts (env tc n : Str) (hr : rooted env = true) (p : PlainName tc) (q : PlainName n) :
    drive (targetBuildDir env tc n) = drive env ∧
    fwd (tail (targetBuildDir env tc n)) = Path.targetBuildDir (fwd (tail env)) tc n ∧
    rooted (targetBuildDir env tc n) = true := by
  obtain ⟨a1, a2⟩ := append_name env tc p
  obtain ⟨b1, b2⟩ := append_name (append env tc) n q
  have e : fwd (tail (targetBuildDir env tc n)) = Path.targetBuildDir (fwd (tail env)) tc n := by
    rw [targetBuildDir, b2, a2]; rfl
  refine ⟨b1.trans a1, e, ?_⟩
  have hne : ∀ x : Str, Path.isAbs x = true → x ≠ [] := by rintro _ h rfl; exact absurd h (by decide)
  have key : ∀ x y : Str, Path.isAbs x = true → Path.isAbs (Path.append x y) = true := by
    intro x y hx
    rw [Path.append]
    split
    · assumption
    · split <;> rw [Path.isAbs_append _ _ (hne x hx), hx]
  rw [rooted, e]
  exact key _ _ (key _ _ hr)

/-! ## Theorems -/

/-- **C121, targets on Windows.**  Two targets with plain names whose directories have a file in common have the
same names, apart from the case of letters. -/
theorem C121_windows (env tc1 n1 tc2 n2 t1 t2 : Str) (hr : rooted env = true)
    (p1 : PlainName tc1) (q1 : PlainName n1) (p2 : PlainName tc2) (q2 : PlainName n2)
    (h1 : Path.dotdot ∉ Path.splitSlash (fwd t1)) (h2 : Path.dotdot ∉ Path.splitSlash (fwd t2))
    (h : SameFile (targetBuildDir env tc1 n1 ++ b!"\\" ++ t1) (targetBuildDir env tc2 n2 ++ b!"\\" ++ t2)) :
    Path.SameCase tc1 tc2 ∧ Path.SameCase n1 n2 := by
  have part : ∀ tc n t, PlainName tc → PlainName n →
      rooted (targetBuildDir env tc n ++ b!"\\" ++ t) = true ∧
      drive (targetBuildDir env tc n ++ b!"\\" ++ t) = drive env ∧
      fwd (tail (targetBuildDir env tc n ++ b!"\\" ++ t)) =
        Path.targetBuildDir (fwd (tail env)) tc n ++ b!"/" ++ fwd t := by
    intro tc n t p q
    obtain ⟨a, b, c⟩ := dir_parts env tc n hr p q
    obtain ⟨d, e⟩ := rooted_append (targetBuildDir env tc n) (b!"\\" ++ t) c
    have f : fwd (tail (targetBuildDir env tc n ++ b!"\\" ++ t)) =
        Path.targetBuildDir (fwd (tail env)) tc n ++ b!"/" ++ fwd t := by
      rw [List.append_assoc, e, fwd_append, fwd_append, b, List.append_assoc]
      rfl
    refine ⟨?_, by rw [List.append_assoc, d, a], f⟩
    rw [rooted, b] at c
    rw [rooted, f, List.append_assoc, Path.isAbs_append _ _ (by rintro e; rw [e] at c; exact absurd c (by decide)), c]
  obtain ⟨r1, d1, e1⟩ := part tc1 n1 t1 p1 q1
  obtain ⟨r2, d2, e2⟩ := part tc2 n2 t2 p2 q2
  have := same_rooted _ _ r1 r2 (d1.trans d2.symm) h
  rw [e1, e2] at this
  refine Path.C121_targets (fwd (tail env)) tc1 n1 tc2 n2 (fwd t1) (fwd t2) ?_ p1.1 q1.1 p2.1 q2.1 h1 h2 this
  intro e
  rw [rooted, e] at hr
  exact absurd hr (by decide)

theorem name_bin (n : Str) (h : PlainName n) : PlainName (n ++ b!".bin") := by
  refine ⟨⟨?_, ?_, ?_, ?_⟩, ?_, ?_⟩
  · simp
  · intro e; have := congrArg List.getLast? e; simp at this
  · intro e; have := congrArg List.getLast? e; simp at this
  · rw [List.mem_append, not_or]; exact ⟨h.1.2.2.2, by decide⟩
  · rw [List.mem_append, not_or]; exact ⟨h.2.1, by decide⟩
  · rw [List.mem_append, not_or]; exact ⟨h.2.2, by decide⟩

/-- **C121, state files on Windows**, exactly: two targets share their state if and only if their names are the
same apart from the case of letters. -/
theorem C121_windows_state (env tc1 n1 tc2 n2 : Str) (hr : rooted env = true)
    (p1 : PlainName tc1) (q1 : PlainName n1) (p2 : PlainName tc2) (q2 : PlainName n2) :
    SameFile (targetStateFile env tc1 n1) (targetStateFile env tc2 n2) ↔
      Path.SameCase tc1 tc2 ∧ Path.SameCase n1 n2 := by
  have part : ∀ tc n, PlainName tc → PlainName n →
      toPathString (targetStateFile env tc n) =
        drive env ++ bwd (Path.toPathString (Path.targetStateFile (fwd (tail env)) tc n)) ∧
      back ∉ Path.low (Path.toPathString (Path.targetStateFile (fwd (tail env)) tc n)) := by
    intro tc n p q
    obtain ⟨a, b, c⟩ := dir_parts env tc n hr p q
    obtain ⟨d, e⟩ := append_name (targetBuildDir env tc n) (n ++ b!".bin") (name_bin n q)
    rw [b] at e
    rw [rooted, b] at c
    have f : fwd (tail (targetStateFile env tc n)) = Path.targetStateFile (fwd (tail env)) tc n := e
    have g : rooted (targetStateFile env tc n) = true := by
      rw [rooted, f, Path.targetStateFile, Path.append,
        if_neg (by rw [Path.isAbs_noSlash _ (name_bin n q).1.2.2.2]; simp)]
      have hne : Path.targetBuildDir (fwd (tail env)) tc n ≠ [] := by
        rintro e; rw [e] at c; exact absurd c (by decide)
      split <;> rw [Path.isAbs_append _ _ hne, c]
    refine ⟨?_, ?_⟩
    · rw [stored_rooted _ g, f]
      congr 1
      exact d.trans a
    · rw [← f]; exact back_normal _
  have hne : fwd (tail env) ≠ [] := by
    intro e
    rw [rooted, e] at hr
    exact absurd hr (by decide)
  obtain ⟨a1, b1⟩ := part tc1 n1 p1 q1
  obtain ⟨a2, b2⟩ := part tc2 n2 p2 q2
  rw [← Path.C121_state (fwd (tail env)) tc1 n1 tc2 n2 hne p1.1 q1.1 p2.1 q2.1, SameFile, a1, a2, Path.SameFile,
    Path.sameCase_iff, Path.sameCase_iff, Path.low_append, Path.low_append, low_bwd, low_bwd,
    List.append_cancel_left_eq]
  constructor
  · intro h
    have h := congrArg fwd h
    rwa [fwd_bwd, fwd_bwd, fwd_same _ b1, fwd_same _ b2] at h
  · intro h
    rw [h]

/-- C121 is false on Windows for names that differ in the case of letters only: one state file. -/
theorem C121_windows_false : PlainName b!"Foo" ∧ PlainName b!"foo" ∧ b!"Foo" ≠ b!"foo" ∧
    SameFile (targetStateFile b!"C:/p/build" b!"msvc" b!"Foo") (targetStateFile b!"c:\\P\\build" b!"msvc" b!"foo") ∧
    toPathString (targetStateFile b!"C:/p/build" b!"msvc" b!"Foo") = b!"C:\\p\\build\\msvc\\Foo\\Foo.bin" := by
  decide +kernel

/-- Instance of the hypotheses. -/
example : rooted b!"C:/p/build" = true ∧ PlainName b!"msvc" ∧ PlainName b!"Foo" ∧
    Path.dotdot ∉ Path.splitSlash (fwd b!"src\\a.obj") ∧
    SameFile (targetBuildDir b!"C:/p/build" b!"msvc" b!"Foo" ++ b!"\\" ++ b!"src\\a.obj")
      (targetBuildDir b!"C:/p/build" b!"MSVC" b!"foo" ++ b!"\\" ++ b!"Src/A.obj") := by decide +kernel

end Verif.WinPath
