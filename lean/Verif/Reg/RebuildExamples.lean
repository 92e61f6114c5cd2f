import Verif.Reg.RebuildProps
import Verif.Reg.OneScriptExamples

/-! # A script that is run again

The builders and the files of `WorldExamples`. -/

namespace Verif.Reg
open Verif Verif.Schema
open Verif.Target (Fixed BinArt objPath outputPath upd paths)

/-- The script declares what its builders need from one another, at any time. -/
theorem exPlan (evs : List WEvent) : Plan (exW0.steps evs) exWGraph exSetup where
  valid := exWGraph_valid
  acyclic := exWGraph_acyclic
  declared := by
    intro a ha b hb p hp hp'
    rw [outputs_events] at hp
    exact exSound.declared a ha b hb p hp hp'

theorem steps_join (w : World) (a : List WEvent) (e : WEvent) (b : List WEvent) :
    ((w.steps a).step e).steps b = w.steps (a ++ e :: b) := by
  simp only [World.steps, List.foldl_append, List.foldl_cons]

theorem runsScript_of {w w' : World} {evs : List WEvent} {g : Graph} {s : Str → Setup} {mid : List WEvent}
    (hw : w = exW0.steps evs) (hw' : w' = (w.step (.launch g s)).steps mid)
    (hp : Plan (exW0.steps evs) g s) (hi : (!w.active && (w.step (.launch g s)).active) = true)
    (hm : mid.all WEvent.inside = true) : RunsScript w g s mid w' := by
  subst hw hw'
  simp only [Bool.and_eq_true, Bool.not_eq_true'] at hi
  exact ⟨hp, hi.1, hi.2, fun e he => List.all_eq_true.1 hm e he, rfl⟩

/-- The first build without its start. -/
def exFirst : List WEvent :=
  exGenTasks 2 ++ exTargetTasks b!"lib" (outputPath exLibFx) 3
    ++ exTargetTasks b!"app" (outputPath exAppFx) 4

/-- All of a build in which the generator has nothing to do, the source of the library has
changed and the program is linked again. -/
def exSecond : List WEvent :=
  [ .begin b!"gen", .task b!"gen" (.g .begin) [], .task b!"gen" (.g (.task b!"v")) [],
    .task b!"gen" (.g (.finish [b!"v"] true)) [] ] ++
  exTargetTasks b!"lib" (outputPath exLibFx) 6 ++
  [ .begin b!"app", .task b!"app" (.t .objTask) [], .task b!"app" (.t .linkTask) [],
    .task b!"app" (.t (.linkExec true none)) [(outputPath exAppFx, some 7)],
    .task b!"app" (.t (.finish true)) [] ]

/-- The world after the first build. -/
def exW1 : World := ((exW0.steps exWFiles).step (.launch exWGraph exSetup)).steps exFirst

theorem exW1_def : exW1 = ((exW0.steps exWFiles).step (.launch exWGraph exSetup)).steps exFirst := rfl

attribute [irreducible] exW1

theorem exFirst_runs : RunsScript (exW0.steps exWFiles) exWGraph exSetup exFirst exW1 :=
  runsScript_of rfl exW1_def (exPlan _) (by decide +kernel) (by decide +kernel)

theorem exW1_eq : exW1 = exW0.steps (exWFiles ++ .launch exWGraph exSetup :: exFirst) :=
  exW1_def.trans (steps_join _ _ _ _)

theorem exW1_ok : (exW1.step .join).result = some true := by decide +kernel

/-- The source of the library is edited. -/
def exW2 : World := (exW1.step .join).steps [.edit b!"/p/a.cpp" 5]

theorem exW2_def : exW2 = (exW1.step .join).steps [.edit b!"/p/a.cpp" 5] := rfl

attribute [irreducible] exW2

theorem exW2_eq : exW2 = exW0.steps (exWFiles ++ .launch exWGraph exSetup :: exFirst
    ++ [.join, .edit b!"/p/a.cpp" 5]) := by
  rw [exW2_def, exW1_eq, steps_join]

/-- The world at the end of the second build. -/
def exW3 : World := (exW2.step (.launch exWGraph exSetup)).steps exSecond

theorem exW3_def : exW3 = (exW2.step (.launch exWGraph exSetup)).steps exSecond := rfl

attribute [irreducible] exW3

theorem exSecond_runs : RunsScript exW2 exWGraph exSetup exSecond exW3 :=
  runsScript_of exW2_eq exW3_def (exPlan _) (by decide +kernel) (by decide +kernel)

theorem exRegular : ∀ j ∈ exWGraph.ids, Regular (exSetup j) := by
  intro j hj
  simp only [exWGraph, List.mem_cons, List.not_mem_nil, or_false] at hj
  rcases hj with rfl | rfl | rfl
  · intro id i h b hi hh hb
    have := Generator.find_mem hi
    simp only [exGenCfg, List.mem_cons, Prod.mk.injEq, List.not_mem_nil, or_false] at this
    obtain ⟨-, rfl⟩ := this
    simp at hh
  · show (paths exLibCfg.sources).Nodup; decide
  · show (paths exAppCfg.sources).Nodup; decide

/-- What a target has logged. -/
def Comp.entries : Comp → List Target.Entry
  | .target _ σ => σ.log
  | .gen _ => []

theorem Executed.of_link {c : Comp} {b : Bool} (h : .link b ∈ c.entries) : Executed c := by
  cases c with
  | target fx σ => exact .inr (.inr ⟨b, h⟩)
  | gen σ => simp [Comp.entries] at h

/-- The program is linked again in the second build. -/
theorem exLinked : Executed (exW3.comps b!"app") :=
  Executed.of_link (b := true) (by decide +kernel)

/-- Its own files have not changed; a builder that it depends on has been executed. -/
example : ∃ a ∈ exWGraph.ids, Reaches exWGraph.edges a b!"app" ∧ Executed (exW3.comps a) := by
  rcases C94_cause (kinds := exKinds) (hist := exWFiles) rfl exFirst_runs exW1_ok exW2_def
    (j := b!"app") (by decide) exSecond_runs (by decide) (by decide) (SameSetup.refl _)
    (exRegular _ (by decide)) (.inl exLinked) with h | h
  · exact absurd h (by decide +kernel)
  · exact h

/-- The generator is not executed. -/
example : ¬ Executed (exW3.comps b!"gen") := by
  intro h
  have := C94_only_affected (kinds := exKinds) (hist := exWFiles) rfl exFirst_runs exW1_ok
    exW2_def (j := b!"gen") (by decide) exSecond_runs (by decide) (by decide) (SameSetup.refl _)
    (exRegular _ (by decide)) (.inl h)
  exact absurd this (by decide +kernel)

/-- The program is not compiled again. -/
example (fx : Fixed) (σ : Target.Sys) (hσ : exW3.comps b!"app" = .target fx σ) (p : Str) (b : Bool)
    (hp : p ∈ paths exAppCfg.sources) : .obj p b ∉ σ.log := by
  intro h
  obtain ⟨q, hq, hne⟩ := (C94_commands (kinds := exKinds) (hist := exWFiles) rfl exFirst_runs exW1_ok
    exW2_def (j := b!"app") (c := exAppCfg) (o := [b!"/p/main.cpp"]) (by decide) exSecond_runs
    (by decide) (by decide) (SameSetup.refl _) (exRegular _ (by decide)) rfl hσ).2 p b h
  have hp' : p = b!"/p/main.cpp" := by simpa [exAppCfg, paths] using hp
  subst hp'
  have hq' : q = b!"/p/main.cpp" := by
    simpa [exAppCfg, paths, TargetSchema.empty] using hq
  subst hq'
  exact absurd hne (by decide +kernel)

/-- The callback of the only id of the generator is not called. -/
example (σ : Generator.Sys) (hσ : exW3.comps b!"gen" = .gen σ) (id : Str) (b : Bool) :
    .called id b ∉ σ.log := by
  intro h
  obtain ⟨i, hi, hne⟩ := C94_ids (kinds := exKinds) (hist := exWFiles) rfl exFirst_runs exW1_ok
    exW2_def (j := b!"gen") (c := exGenCfg) (by decide) exSecond_runs
    (by decide) (by decide) (SameSetup.refl _) (exRegular _ (by decide)) rfl hσ h
  have := Generator.find_mem hi
  simp only [exGenCfg, List.mem_cons, Prod.mk.injEq, List.not_mem_nil, or_false] at this
  obtain ⟨-, rfl⟩ := this
  exact absurd hne (by decide +kernel)

/-! ## Building again without a change -/

/-- The generator and the library only. -/
def exPart : Graph := ⟨[b!"gen", b!"lib"], [(b!"gen", b!"lib")], []⟩

/-- Two builders with nothing to do. -/
def exIdle : List WEvent :=
  [ .begin b!"gen", .task b!"gen" (.g .begin) [], .task b!"gen" (.g (.task b!"v")) [],
    .task b!"gen" (.g (.finish [b!"v"] true)) [],
    .begin b!"lib", .task b!"lib" (.t .objTask) [], .task b!"lib" (.t .linkTask) [] ]

/-- A build that is killed, a build of a part of the script, and a complete build. -/
def exLater : List WEvent :=
  .launch exWGraph exSetup :: exIdle ++ [ .kill (fun _ => []) (fun _ => none), .launch exPart exSetup ] ++ exIdle ++
  [ .task b!"lib" (.t (.finish true)) [], .join, .launch exWGraph exSetup ] ++ exIdle ++
  [ .task b!"lib" (.t (.finish true)) [],
    .begin b!"app", .task b!"app" (.t .objTask) [], .task b!"app" (.t .linkTask) [],
    .task b!"app" (.t (.finish true)) [] ]

theorem exPart_acyclic : Acyclic exPart.edges :=
  C37_acyclic_partial 10
    [ .callBuild true b!"gen", .callBuild true b!"lib", .dep ⟨true, true⟩ b!"lib" b!"gen" ]
    ⟨exPart, []⟩ (by decide +kernel) (by decide)

theorem exPart_plan (evs : List WEvent) : Plan (exW0.steps evs) exPart exSetup where
  valid := ⟨by decide, by decide, by decide, by decide, by decide⟩
  acyclic := exPart_acyclic
  declared := by
    have h : ∀ a ∈ exPart.ids, ∀ b ∈ exPart.ids,
        (∀ p ∈ outputs (exKinds a).init (exSetup a), p ∉ (exSetup b).inputs) ∨
          (a, b) ∈ exPart.edges := by decide +kernel
    intro a ha b hb p hp hp'
    rw [outputs_events] at hp
    rcases h a ha b hb with h1 | h1
    · exact absurd hp' (h1 p hp)
    · exact .edge h1

theorem exLater_again : ∀ e ∈ exLater, Again exW1 exWGraph exSetup e := by
  have h1 : Again exW1 exWGraph exSetup (.launch exWGraph exSetup) :=
    ⟨by rw [exW1_eq]; exact exPlan _, fun _ h => h, fun _ _ => SameSetup.refl _⟩
  have h2 : Again exW1 exWGraph exSetup (.launch exPart exSetup) :=
    ⟨by rw [exW1_eq]; exact exPart_plan _, by decide, fun _ _ => SameSetup.refl _⟩
  intro e he
  simp only [exLater, exIdle, List.cons_append, List.nil_append, List.append_assoc, List.mem_cons,
    List.not_mem_nil, or_false] at he
  cases e with
  | edit p t => simp at he
  | delete p => simp at he
  | dropState id => simp at he
  | launch g s =>
    simp only [reduceCtorEq, false_or, or_false, WEvent.launch.injEq] at he
    rcases he with ⟨rfl, rfl⟩ | ⟨rfl, rfl⟩ | ⟨rfl, rfl⟩ <;> assumption
  | _ => trivial

/-- Nothing is executed in any of them. -/
example : ∀ j ∈ exWGraph.ids, ¬ Executed (((exW1.step .join).steps exLater).comps j) := by
  have h := (C93_null_rebuild (kinds := exKinds) (hist := exWFiles) rfl exFirst_runs exW1_ok exRegular
    exLater_again rfl).2.2.2.2 (by decide +kernel)
  intro j hj
  exact (h.2 j (by
    rw [show (((exW1.step .join).steps exLater).graph) = exWGraph by decide +kernel]; exact hj)).1

/-- The last build succeeds. -/
example : (((exW1.step .join).steps (exLater ++ [.join]))).result = some true := by decide +kernel

end Verif.Reg
