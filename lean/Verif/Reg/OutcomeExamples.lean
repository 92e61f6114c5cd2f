import Verif.Reg.OutcomeProps
import Verif.Reg.RebuildExamples

/-! # Examples for C114

The builders and the files of `WorldExamples`. -/

namespace Verif.Reg
open Verif Verif.Schema
open Verif.Target (Fixed BinArt objPath outputPath upd paths)

/-- `Faulty` as a function. -/
def faulty : Comp → Bool
  | .target _ σ => σ.log.any fun
      | .pch false | .obj _ false | .link false | .storeFailed => true
      | _ => false
  | .gen σ => σ.log.any fun
      | .called _ false | .storeFailed => true
      | _ => false

theorem Faulty.eq_true {c : Comp} (h : Faulty c) : faulty c = true := by
  cases c with
  | target fx σ =>
    rcases h with h | ⟨p, h⟩ | h | h <;> exact List.any_eq_true.2 ⟨_, h, rfl⟩
  | gen σ =>
    rcases h with ⟨p, h⟩ | h <;> exact List.any_eq_true.2 ⟨_, h, rfl⟩

theorem exAccepts (w : World) : ∀ j ∈ exWGraph.ids, Accepts (w.comps j) (exSetup j) := by
  intro j hj
  simp only [exWGraph, List.mem_cons, List.not_mem_nil, or_false] at hj
  rcases hj with rfl | rfl | rfl
  · cases w.comps b!"gen" with
    | target fx σ => trivial
    | gen σ =>
      intro id i h hi hh
      have := Generator.find_mem hi
      simp only [exGenCfg, List.mem_cons, Prod.mk.injEq, List.not_mem_nil, or_false] at this
      obtain ⟨-, rfl⟩ := this
      simp at hh
  · cases w.comps b!"lib" <;> trivial
  · cases w.comps b!"app" <;> trivial

/-- Before the first build the header and the library do not exist; the generator and the library were
never built. -/
theorem exProvided : Provided (exW0.steps exWFiles) exWGraph exSetup := by
  intro b hb p hp
  simp only [exWGraph, List.mem_cons, List.not_mem_nil, or_false] at hb
  rcases hb with rfl | rfl | rfl
  · have : p = b!"/p/v.in" := by
      simpa [exSetup, Setup.inputs, exGenCfg] using hp
    subst this
    exact .inl ⟨1, by decide +kernel⟩
  · have : p = b!"/p/a.cpp" ∨ p = b!"/p/gen/v.h" := by
      revert hp; revert p; decide +kernel
    rcases this with rfl | rfl
    · exact .inl ⟨1, by decide +kernel⟩
    · exact .inr ⟨b!"gen", by decide, rfl, by decide +kernel⟩
  · have : p = b!"/p/main.cpp" ∨ p = outputPath exLibFx := by
      revert hp; revert p; decide +kernel
    rcases this with rfl | rfl
    · exact .inl ⟨1, by decide +kernel⟩
    · exact .inr ⟨b!"lib", by decide, rfl, by decide +kernel⟩

theorem exThorough : ∀ e ∈ exFirst, Thorough exSetup e := by
  intro e he
  simp only [exFirst, exGenTasks, exTargetTasks, List.cons_append, List.nil_append, List.mem_cons,
    List.not_mem_nil, or_false] at he
  rcases he with rfl | rfl | rfl | rfl | rfl | rfl | rfl | rfl | rfl | rfl | rfl | rfl | rfl | rfl |
    rfl | rfl | rfl | rfl | rfl
  case inr.inr.inr.inl =>
    refine ⟨by simp, fun id c i h1 h2 h3 p hp => ?_⟩
    cases h1
    have : c = exGenCfg := by
      have : exSetup b!"gen" = .gen exGenCfg := rfl
      rw [this] at h2
      exact (Setup.gen.inj h2).symm
    subst this
    have := Generator.find_mem h3
    simp only [exGenCfg, List.mem_cons, Prod.mk.injEq, List.not_mem_nil, or_false] at this
    obtain ⟨-, rfl⟩ := this
    simp only [List.mem_cons, List.not_mem_nil, or_false] at hp
    exact ⟨2, by rw [hp]; simp⟩
  all_goals first | trivial | exact ⟨by simp, fun _ _ _ h => by simp at h⟩

theorem exEnds : (exW1.step .join).active = false ∧ ∀ j ∈ exWGraph.ids, faulty (exW1.comps j) = false := by
  decide +kernel

/-- The first build succeeds although the header and the library did not exist before. -/
example : (exW1.step .join).result = some true ∧ ∀ j ∈ exWGraph.ids, Present exW1.files (exSetup j) :=
  C114_succeeds (kinds := exKinds) (hist := exWFiles) rfl exFirst_runs exRegular (exAccepts _) exProvided
    exThorough (fun j hj h => absurd h.eq_true (by simp [exEnds.2 j hj]))
    exEnds.1

/-- The library is deleted. -/
def exGone : World := (exW1.step .join).step (.delete (outputPath exLibFx))

theorem exGone_def : exGone = (exW1.step .join).step (.delete (outputPath exLibFx)) := rfl

attribute [irreducible] exGone

theorem exGone_eq : exGone = exW0.steps (exWFiles ++ .launch exWGraph exSetup :: exFirst
    ++ [.join, .delete (outputPath exLibFx)]) := by
  rw [exGone_def, exW1_eq]
  simp [World.steps, List.foldl_append]

/-- Nothing to do for the generator and the library; the program misses the library. -/
def exGoneBuild : List WEvent :=
  [ .begin b!"gen", .task b!"gen" (.g .begin) [], .task b!"gen" (.g (.task b!"v")) [],
    .task b!"gen" (.g (.finish [b!"v"] true)) [],
    .begin b!"lib", .task b!"lib" (.t .objTask) [], .task b!"lib" (.t .linkTask) [],
    .task b!"lib" (.t (.finish true)) [],
    .begin b!"app", .task b!"app" (.t .objTask) [], .task b!"app" (.t .linkTask) [],
    .task b!"app" (.t (.finish true)) [] ]

def exGoneEnd : World := (exGone.step (.launch exWGraph exSetup)).steps exGoneBuild

theorem exGoneEnd_def : exGoneEnd = (exGone.step (.launch exWGraph exSetup)).steps exGoneBuild := rfl

attribute [irreducible] exGoneEnd

theorem exGone_runs : RunsScript exGone exWGraph exSetup exGoneBuild exGoneEnd :=
  runsScript_of exGone_eq exGoneEnd_def (exPlan _) (by decide +kernel) (by decide +kernel)

theorem exGone_ends : (exGoneEnd.step .join).active = false ∧
    ∀ j ∈ exWGraph.ids, faulty (exGoneEnd.comps j) = false := by
  decide +kernel

/-- The build fails, no command having failed, and the library has not come back. -/
example : (exGoneEnd.step .join).result = some false ∧ exGoneEnd.files (outputPath exLibFx) = none :=
  have h := C114_deleted_false (kinds := exKinds) (hist := exWFiles) (a := b!"lib") (b := b!"app")
    (p := outputPath exLibFx) rfl exFirst_runs exW1_ok exRegular (by decide) (by decide)
    (by decide +kernel) (by decide +kernel) exGone_def exGone_runs exGone_ends.1
  ⟨h.1, h.2.1⟩

/-- The exact condition: no command has failed, but a file is missing. -/
example : ¬ ∀ j ∈ exWGraph.ids, Present exGoneEnd.files (exSetup j) := by
  intro h
  have := (C114_result (kinds := exKinds) (by rw [exGone_eq]; rfl) exGone_runs exRegular (exAccepts _)
    exGone_ends.1).2 ⟨fun j hj h => absurd h.eq_true (by simp [exGone_ends.2 j hj]), h⟩
  exact absurd this (by decide +kernel)

/-- A build in which only the generator has run can come to its end. -/
example (w : World) (hw : w = ((exW0.steps exWFiles).step (.launch exWGraph exSetup)).steps (exGenTasks 2)) :
    ∃ rest, RunsScript (exW0.steps exWFiles) exWGraph exSetup (exGenTasks 2 ++ rest) (w.steps rest) ∧
    ((w.steps rest).step .join).active = false :=
  C114_ends (kinds := exKinds) (hist := exWFiles) rfl
    (runsScript_of rfl hw (exPlan _) (by decide +kernel) (by decide +kernel))

end Verif.Reg
