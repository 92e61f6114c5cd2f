import Verif.Reg.OneScript
import Verif.Generator.SoundProps

/-! # A script that is run twice, and one that forgets a dependency -/

namespace Verif.Reg
open Verif Verif.Schema
open Verif.Target (Fixed BinArt objPath outputPath upd paths Clean)

/-- A boolean form of `Delicate`. -/
def delicate (p : Str) : Comp → Bool
  | .target _ σ =>
    match σ.run with
    | none => false
    | some r => !r.cfg.pchs.isEmpty && (decide (r.phase = .pchRun) || decide (r.phase = .obj))
      && decide (p ∈ paths r.cfg.headers)
  | .gen σ => Generator.mildG.reliedG σ p

/-- Edits give new stamps and come at no delicate moment. -/
def quiet : World → List WEvent → Bool
  | _, [] => true
  | w, e :: l =>
    (match e with
      | .edit p t => decide (t ∉ w.used p) && w.graph.ids.all fun j => !delicate p (w.comps j)
      | .delete p => w.graph.ids.all fun j => !delicate p (w.comps j)
      | _ => true) && quiet (w.step e) l

theorem delicate_of {p : Str} {c : Comp} (h : Delicate p c) : delicate p c = true ∧ c.running = true := by
  cases c with
  | target fx σ =>
    obtain ⟨r, h1, h2, h3, h4⟩ := h
    simp only [delicate, Comp.running, h1, Bool.and_eq_true, Bool.or_eq_true, decide_eq_true_eq,
      Bool.not_eq_true', Option.isSome_some, and_true]
    exact ⟨⟨by simpa using h2, h3⟩, h4⟩
  | gen σ =>
    refine ⟨Generator.relied_of h, ?_⟩
    obtain ⟨r, _, _, hr, _⟩ := h
    simp [Comp.running, hr]

theorem not_delicate {w : World} (hb : BInv w) {p : Str}
    (h : (w.graph.ids.all fun j => !delicate p (w.comps j)) = true) (j : Str) :
    ¬ Delicate p (w.comps j) := by
  intro hd
  obtain ⟨h1, h2⟩ := delicate_of hd
  by_cases hj : j ∈ w.graph.ids
  · have := List.all_eq_true.1 h j hj
    rw [h1] at this; simp at this
  · rw [hb.out j hj] at h2; simp at h2

theorem allOfScript_of {g : Graph} {s : Str → Setup} {kinds : Str → Kind} (evs : List WEvent)
    (hl : ∀ g' s', .launch g' s' ∈ evs → g' = g ∧ ∀ j ∈ g.ids, SameSetup (s' j) (s j))
    (hq : quiet (World.init kinds) evs = true) : AllOfScript g s (World.init kinds) evs := by
  have gen : ∀ (evs : List WEvent) (w : World), BInv w →
      (∀ g' s', .launch g' s' ∈ evs → g' = g ∧ ∀ j ∈ g.ids, SameSetup (s' j) (s j)) →
      quiet w evs = true → AllOfScript g s w evs := by
    intro evs
    induction evs with
    | nil => intros; exact trivial
    | cons e l ih =>
      intro w hb h hq
      simp only [quiet, Bool.and_eq_true] at hq
      refine ⟨?_, ih _ (bInv_step hb e) (fun g' s' hm => h g' s' (by simp [hm])) hq.2⟩
      cases e with
      | edit p t =>
        obtain ⟨h1, h2⟩ := Bool.and_eq_true_iff.1 hq.1
        exact ⟨of_decide_eq_true h1, not_delicate hb h2⟩
      | delete p => exact not_delicate hb hq.1
      | launch g' s' => exact h g' s' (by simp)
      | _ => trivial
  exact gen evs _ (bInv_init kinds) hl hq

theorem SameSetup.refl (s : Setup) : SameSetup s s := by cases s <;> rfl

theorem exKinds_shipped : ShippedAll exKinds := by
  intro j fx h
  simp only [exKinds] at h
  split at h
  · cases h; simp [Target.Shipped, exLibFx]
  · split at h
    · cases h; simp [Target.Shipped, exAppFx]
    · cases h

theorem exFits : ∀ j ∈ exWGraph.ids, Fits (exKinds j) (exSetup j) := by
  intro j hj
  simp only [exWGraph, List.mem_cons, List.not_mem_nil, or_false] at hj
  rcases hj with rfl | rfl | rfl
  · exact trivial
  · exact ⟨by decide, by decide⟩
  · exact ⟨by decide, by decide⟩

theorem exSound : SoundScript exKinds exWGraph exSetup where
  shipped := exKinds_shipped
  valid := exWGraph_valid
  acyclic := exWGraph_acyclic
  declared := by
    have h : ∀ a ∈ exWGraph.ids, ∀ b ∈ exWGraph.ids,
        (∀ p ∈ outputs (exKinds a).init (exSetup a), p ∉ (exSetup b).inputs) ∨
          (a, b) ∈ exWGraph.edges := by decide +kernel
    intro a ha b hb p hp hp'
    rcases h a ha b hb with h1 | h1
    · exact absurd hp' (h1 p hp)
    · exact .edge h1
  fits := exFits

/-- While the library is compiled for the first time its source is saved once more. -/
def exWBuildEdited : List WEvent :=
  .launch exWGraph exSetup :: exGenTasks 2 ++
  [ .begin b!"lib", .task b!"lib" (.t .objTask) [], .edit b!"/p/a.cpp" 8,
    .task b!"lib" (.t (.exec 0 true none)) [],
    .task b!"lib" (.t (.add 0)) [], .task b!"lib" (.t .linkTask) [],
    .task b!"lib" (.t (.linkExec true none)) [(outputPath exLibFx, some 3)],
    .task b!"lib" (.t (.finish true)) [] ]
    ++ exTargetTasks b!"app" (outputPath exAppFx) 4

/-- A build during which a file is edited, and a build after a further edit. -/
def exHistory : List WEvent := exWFiles ++ exWBuildEdited ++ exWBuild2

/-- The first build is not one of those the theorem speaks of, the second is. -/
example : ((World.init exKinds).steps (exWFiles ++ exWBuildEdited)).calm = false ∧
    ((World.init exKinds).steps exHistory).calm = true := by decide +kernel

theorem exHistory_script : AllOfScript exWGraph exSetup (World.init exKinds) exHistory := by
  refine allOfScript_of _ ?_ (by decide +kernel)
  intro g' s' hm
  simp only [exHistory, exWFiles, exWBuildEdited, exWBuild2, exGenTasks, exTargetTasks, List.mem_append,
    List.mem_cons, List.not_mem_nil, reduceCtorEq, false_or, or_false, WEvent.launch.injEq] at hm
  rcases hm with ⟨rfl, rfl⟩ | ⟨rfl, rfl⟩ <;> exact ⟨rfl, fun j _ => SameSetup.refl _⟩

theorem exHistory_owned : Owned exKinds exWGraph exSetup exHistory b!"lib" exLibFx where
  kind := rfl
  others := by decide +kernel
  pch := by decide +kernel
  objs := by
    intro c o h
    have : Setup.target exLibCfg [b!"/p/a.cpp"] = Setup.target c o := h
    cases this
    decide +kernel
  byHand := by
    intro e he
    simp only [exHistory, exWFiles, exWBuildEdited, exWBuild2, exGenTasks, exTargetTasks, List.mem_append,
      List.mem_cons, List.not_mem_nil, or_false] at he
    refine ⟨fun t h => ?_, fun h => ?_⟩
    · subst h
      revert he
      simp only [reduceCtorEq, WEvent.edit.injEq, false_or, or_false]
      intro hh
      rcases hh with (((hh | hh | hh) | hh)) | hh <;> exact absurd hh.1 (by decide +kernel)
    · subst h
      revert he
      simp only [reduceCtorEq, false_or, or_false]
      exact fun h => h

/-- After the second build of the example, in which only a source of the library had been
edited, the program is linked with the new library. -/
example : LinkedWith (((World.init exKinds).steps exHistory).step .join) b!"lib" b!"app"
    (outputPath exLibFx) :=
  (C40_one_script_partial rfl exSound exHistory_script (by decide +kernel) (by decide +kernel)
    (by decide +kernel)).2
    b!"lib" (by decide) b!"app" (by decide) exLibFx exAppCfg [b!"/p/main.cpp"] exHistory_owned rfl
    (by decide)

/-- The version the program is linked with is that of the second build. -/
example : ((((World.init exKinds).steps exHistory).step .join).comps b!"app").bin.map (·.libs) =
    some [(outputPath exLibFx, some b!"6")] := by decide +kernel

/-! ## A dependency that is not declared -/

/-- The same script without `Reg::Dep(app, lib)`. -/
def exNoDep : Graph := ⟨[b!"gen", b!"lib", b!"app"], [(b!"gen", b!"lib")], []⟩

/-- In the second build the program looks at the library before the library is linked. -/
def exNoDepHistory : List WEvent :=
  exWFiles ++ .launch exNoDep exSetup :: exGenTasks 2
    ++ exTargetTasks b!"lib" (outputPath exLibFx) 3
    ++ exTargetTasks b!"app" (outputPath exAppFx) 4
    ++ [ .join, .edit b!"/p/a.cpp" 5, .launch exNoDep exSetup,
        .begin b!"app", .task b!"app" (.t .objTask) [], .task b!"app" (.t .linkTask) [],
        .task b!"app" (.t (.finish true)) [],
        .begin b!"gen", .task b!"gen" (.g .begin) [], .task b!"gen" (.g (.task b!"v")) [],
        .task b!"gen" (.g (.finish [b!"v"] true)) [] ]
    ++ exTargetTasks b!"lib" (outputPath exLibFx) 6

/-- C40 without `Reg::Dep`: `AddLibDep` alone does not order the targets.  In a history of a
script that satisfies everything else `Reg::Run` returns with success, and the program is
still linked with the library of the build before. -/
theorem C40_undeclared_false : ∃ (g : Graph) (evs : List WEvent),
    Valid g ∧ Acyclic g.edges ∧ AllOfScript g exSetup (World.init exKinds) evs ∧
    outputPath exLibFx ∈ paths exAppCfg.libs ∧
    let w := (World.init exKinds).steps evs
    w.active = true ∧ w.calm = true ∧ (w.step .join).result = some true ∧
    ¬ LinkedWith (w.step .join) b!"lib" b!"app" (outputPath exLibFx) := by
  refine ⟨exNoDep, exNoDepHistory, ⟨by decide, by decide, by decide, by decide, by decide⟩, ?_, ?_,
    by decide, by decide +kernel, by decide +kernel, by decide +kernel, ?_⟩
  · intro a ha
    have h2 : ∀ {a b : Str}, Reaches exNoDep.edges a b → a = b!"gen" ∧ b = b!"lib" := by
      intro a b h
      induction h with
      | edge h => simpa [exNoDep] using h
      | step h _ ih =>
        simp only [exNoDep, List.mem_singleton, Prod.mk.injEq] at h
        exact ⟨h.1, ih.2⟩
    obtain ⟨h3, h4⟩ := h2 ha
    rw [h3] at h4
    exact absurd h4 (by decide)
  · refine allOfScript_of _ ?_ (by decide +kernel)
    intro g' s' hm
    simp only [exNoDepHistory, exWFiles, exGenTasks, exTargetTasks, List.mem_append,
      List.mem_cons, List.not_mem_nil, reduceCtorEq, false_or, or_false, WEvent.launch.injEq] at hm
    rcases hm with ⟨rfl, rfl⟩ | ⟨rfl, rfl⟩ <;> exact ⟨rfl, fun j _ => SameSetup.refl _⟩
  · rintro ⟨t, binA, binB, h1, h2, h3, -⟩
    have e1 : (((World.init exKinds).steps exNoDepHistory).step .join).files (outputPath exLibFx)
        = some 6 := by decide +kernel
    have e2 : ((((World.init exKinds).steps exNoDepHistory).step .join).comps b!"app").bin.map
        (·.libs) = some [(outputPath exLibFx, some b!"3")] := by decide +kernel
    rw [e1] at h1
    rw [h2] at e2
    simp only [Option.some.injEq, Option.map_some] at h1 e2
    subst h1
    rw [e2] at h3
    exact absurd h3 (by decide +kernel)

end Verif.Reg
