import Verif.WinPath.Targets
import Verif.Path.Generators

/-! # Files of generators on Windows (C122)

There both separators are the same and the case of letters does not count. -/

namespace Verif.WinPath
open Verif

/-! ## Model -/

/-- Build directory of a generator (`custom_generator.h:67`). -/
def genBuildDir (envBuild name : Str) : Str := append envBuild name

/-- State file of a generator (`custom_generator.h:68-69`). -/
def genStateFile (envBuild name : Str) : Str := append (genBuildDir envBuild name) (name ++ b!".json")

/-! ## Proofs -/

theorem rooted_ne (env : Str) (hr : rooted env = true) : fwd (tail env) ≠ [] := by
  intro e
  rw [rooted, e] at hr
  exact absurd hr (by decide)

theorem gen_dir_parts (env g : Str) (hr : rooted env = true) (p : PlainName g) :
    drive (genBuildDir env g) = drive env ∧
    fwd (tail (genBuildDir env g)) = Path.genBuildDir (fwd (tail env)) g ∧
    rooted (genBuildDir env g) = true := by
  obtain ⟨a1, a2⟩ := append_name env g p
  refine ⟨a1, a2, ?_⟩
  rw [rooted, genBuildDir, a2, Path.append, if_neg (by rw [Path.isAbs_noSlash _ p.1.2.2.2]; simp)]
  split <;> rw [Path.isAbs_append _ _ (rooted_ne env hr)] <;> exact hr

theorem below_parts (d e t : Str) (hd : rooted d = true) (he : fwd (tail d) = e) :
    rooted (d ++ b!"\\" ++ t) = true ∧ drive (d ++ b!"\\" ++ t) = drive d ∧
      fwd (tail (d ++ b!"\\" ++ t)) = e ++ b!"/" ++ fwd t := by
  obtain ⟨a, b⟩ := rooted_append d (b!"\\" ++ t) hd
  have f : fwd (tail (d ++ b!"\\" ++ t)) = e ++ b!"/" ++ fwd t := by
    rw [List.append_assoc, b, fwd_append, fwd_append, he, List.append_assoc]
    rfl
  refine ⟨?_, by rw [List.append_assoc, a], f⟩
  rw [rooted, f, List.append_assoc, Path.isAbs_append _ _ (by rw [← he]; exact rooted_ne d hd), ← he]
  exact hd

theorem name_json (n : Str) (h : PlainName n) : PlainName (n ++ b!".json") := by
  refine ⟨Path.json_plain n h.1, ?_, ?_⟩
  · rw [List.mem_append, not_or]; exact ⟨h.2.1, by decide⟩
  · rw [List.mem_append, not_or]; exact ⟨h.2.2, by decide⟩

/-! ## Theorems -/

/-- **C122, generators on Windows.**  Two generators whose directories have a file in common have the same name,
apart from the case of letters. -/
theorem C122_windows (env g1 g2 t1 t2 : Str) (hr : rooted env = true) (p1 : PlainName g1) (p2 : PlainName g2)
    (h1 : Path.dotdot ∉ Path.splitSlash (fwd t1)) (h2 : Path.dotdot ∉ Path.splitSlash (fwd t2))
    (h : SameFile (genBuildDir env g1 ++ b!"\\" ++ t1) (genBuildDir env g2 ++ b!"\\" ++ t2)) :
    Path.SameCase g1 g2 := by
  obtain ⟨a1, b1, c1⟩ := gen_dir_parts env g1 hr p1
  obtain ⟨a2, b2, c2⟩ := gen_dir_parts env g2 hr p2
  obtain ⟨r1, d1, e1⟩ := below_parts _ _ t1 c1 b1
  obtain ⟨r2, d2, e2⟩ := below_parts _ _ t2 c2 b2
  have := same_rooted _ _ r1 r2 (by rw [d1, d2, a1, a2]) h
  rw [e1, e2] at this
  exact (Path.C122_generators _ g1 g2 _ _ (rooted_ne env hr) p1.1 p2.1 h1 h2).2 this

/-- **C122, a generator and a target on Windows.**  If their directories have a file in common, then the generator
has the name of the toolchain, apart from the case of letters. -/
theorem C122_windows_target (env g tc n t1 t2 : Str) (hr : rooted env = true) (pg : PlainName g)
    (pt : PlainName tc) (pn : PlainName n)
    (h1 : Path.dotdot ∉ Path.splitSlash (fwd t1)) (h2 : Path.dotdot ∉ Path.splitSlash (fwd t2))
    (h : SameFile (genBuildDir env g ++ b!"\\" ++ t1) (targetBuildDir env tc n ++ b!"\\" ++ t2)) :
    Path.SameCase g tc := by
  obtain ⟨a1, b1, c1⟩ := gen_dir_parts env g hr pg
  obtain ⟨a2, b2, c2⟩ := dir_parts env tc n hr pt pn
  obtain ⟨r1, d1, e1⟩ := below_parts _ _ t1 c1 b1
  obtain ⟨r2, d2, e2⟩ := below_parts _ _ t2 c2 b2
  have := same_rooted _ _ r1 r2 (by rw [d1, d2, a1, a2]) h
  rw [e1, e2] at this
  exact (Path.C122_target _ g tc n _ _ (rooted_ne env hr) pg.1 pt.1 pn.1 h1 h2).2 this

/-- **C122, state files of generators on Windows**, exactly. -/
theorem C122_windows_state (env g1 g2 : Str) (hr : rooted env = true) (p1 : PlainName g1) (p2 : PlainName g2) :
    SameFile (genStateFile env g1) (genStateFile env g2) ↔ Path.SameCase g1 g2 := by
  have part : ∀ g, PlainName g →
      toPathString (genStateFile env g) =
        drive env ++ bwd (Path.toPathString (Path.genStateFile (fwd (tail env)) g)) ∧
      back ∉ Path.low (Path.toPathString (Path.genStateFile (fwd (tail env)) g)) := by
    intro g p
    obtain ⟨a, b, c⟩ := dir_parts env g (g ++ b!".json") hr p (name_json g p)
    have e : genStateFile env g = targetBuildDir env g (g ++ b!".json") := rfl
    have f : Path.genStateFile (fwd (tail env)) g = Path.targetBuildDir (fwd (tail env)) g (g ++ b!".json") := rfl
    rw [e, f, stored_rooted _ c, a, b, ← b]
    exact ⟨rfl, back_normal _⟩
  obtain ⟨a1, b1⟩ := part g1 p1
  obtain ⟨a2, b2⟩ := part g2 p2
  rw [← (Path.C122_state (fwd (tail env)) g1 g2 (rooted_ne env hr) p1.1 p2.1).2, SameFile, a1, a2, Path.SameFile,
    Path.sameCase_iff, Path.sameCase_iff, Path.low_append, Path.low_append, low_bwd, low_bwd,
    List.append_cancel_left_eq]
  constructor
  · intro h
    have h := congrArg fwd h
    rwa [fwd_bwd, fwd_bwd, fwd_same _ b1, fwd_same _ b2] at h
  · intro h
    rw [h]

/-! ## Instances -/

example : rooted b!"C:/p/build" = true ∧ PlainName b!"Gen" ∧ PlainName b!"gen" ∧ b!"Gen" ≠ b!"gen" ∧
    Path.dotdot ∉ Path.splitSlash (fwd b!"src\\a.h") ∧
    SameFile (genBuildDir b!"C:/p/build" b!"Gen" ++ b!"\\" ++ b!"src\\a.h")
      (genBuildDir b!"C:/p/build" b!"gen" ++ b!"\\" ++ b!"src/A.h") ∧
    toPathString (genStateFile b!"C:/p/build" b!"Gen") = b!"C:\\p\\build\\Gen\\Gen.json" := by decide +kernel

example : SameFile (genBuildDir b!"C:/p/build" b!"MSVC" ++ b!"\\" ++ b!"app\\app.bin")
    (targetBuildDir b!"C:/p/build" b!"msvc" b!"app" ++ b!"\\" ++ b!"app.bin") := by decide +kernel

end Verif.WinPath
