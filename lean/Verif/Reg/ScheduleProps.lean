import Verif.Reg.Schedule
import Verif.Reg.WorldExamples

/-!
# Order, termination and failures of `Reg::Run` (C38, C39)

Unless said otherwise the theorems are about every history from nothing: any graphs and
configurations, any schedules, edits while a build runs, failures, processes that are
killed.
-/

namespace Verif.Reg
open Verif Verif.Schema
open Verif.Target (Fixed BinArt objPath outputPath upd paths Clean)

/-! ## C38 -/

/-- C38.  When a task of `b` does anything, everything `b` depends on, directly or through
others, was scheduled and has finished. -/
theorem C38_order (kinds : Str → Kind) (evs : List WEvent) (b : Str) (e : Ev) (ws : Writes) :
    let w := (World.init kinds).steps evs
    w.step (.task b e ws) ≠ w →
    ∀ a, Reaches w.graph.edges a b → a ∈ w.begun ∧ (w.comps a).running = false := by
  intro w hne a hr
  have h : BInv w := bInv_steps evs _ (bInv_init kinds)
  simp only [World.step] at hne
  split at hne
  · rename_i hg
    simp only [Bool.and_eq_true, decide_eq_true_eq] at hg
    obtain ⟨⟨⟨⟨ha, hb⟩, -⟩, -⟩, -⟩ := hg
    have := h.finished_of_reaches ha hr hb
    simpa [World.finished] using this
  · exact absurd rfl hne

/-- What the tasks of a builder have done in the present run. -/
def Comp.did : Comp → List Target.Entry × List Generator.Entry
  | .target _ σ => (σ.log, [])
  | .gen σ => ([], σ.log)

theorem did_write (c : Comp) (p : Str) (x : Option Nat) : (c.write p x).did = c.did := by
  cases x <;> cases c <;> rfl

theorem did_writes (ws : Writes) : ∀ (w : World) (a : Str),
    ((w.writes ws).comps a).did = (w.comps a).did ∧
    ((w.writes ws).comps a).running = (w.comps a).running := by
  induction ws with
  | nil => intro w a; exact ⟨rfl, rfl⟩
  | cons x l ih =>
    intro w a
    simp only [World.writes, List.foldl_cons] at ih ⊢
    obtain ⟨h1, h2⟩ := ih (w.write x.1 x.2) a
    refine ⟨h1.trans (did_write _ _ _), h2.trans (write_running _ _ _).1⟩

/-- C38.  The tasks of a builder are scheduled at most once in a run of `Reg::Run`, and
after they have finished nothing is done for this builder until the run ends. -/
theorem C38_once (kinds : Str → Kind) (evs : List WEvent) :
    let w := (World.init kinds).steps evs
    w.begun.Nodup ∧
    ∀ e a, w.active = true → (w.step e).active = true →
      a ∈ w.begun → (w.comps a).running = false →
      a ∈ (w.step e).begun ∧ ((w.step e).comps a).running = false ∧
      ((w.step e).comps a).did = (w.comps a).did := by
  intro w
  have h : BInv w := bInv_steps evs _ (bInv_init kinds)
  refine ⟨h.nodup, ?_⟩
  generalize w = w at h
  intro e a ha ha' hb hr
  revert ha'
  cases e with
  | edit p t =>
    intro _
    · exact ⟨hb, (write_running (w.comps a) p (some t)).1.trans hr, did_write (w.comps a) p (some t)⟩
  | delete p =>
    intro _
    exact ⟨hb, (write_running (w.comps a) p none).1.trans hr, did_write (w.comps a) p none⟩
  | dropState id =>
    simp only [World.step, ha, if_true]
    intro _; exact ⟨hb, hr, trivial⟩
  | launch g s =>
    simp only [World.step, ha, Bool.not_true, Bool.false_and, Bool.false_eq_true, if_false]
    intro _; exact ⟨hb, hr, trivial⟩
  | «begin» id =>
    simp only [World.step]
    intro _
    split
    · exact ⟨List.mem_append_left _ hb, hr, rfl⟩
    · exact ⟨hb, hr, rfl⟩
  | task id e ws =>
    intro _
    simp only [World.step]
    split
    · rename_i hg
      simp only [Bool.and_eq_true, decide_eq_true_eq] at hg
      obtain ⟨⟨⟨⟨-, -⟩, hri⟩, -⟩, -⟩ := hg
      have hne : a ≠ id := by rintro rfl; rw [hr] at hri; simp at hri
      rw [task_eq]
      obtain ⟨h1, h2⟩ := did_writes ws (w.stepped id e ws) a
      obtain ⟨-, -, -, h3, -⟩ := writes_frame ws (w.stepped id e ws)
      have hsame : (w.stepped id e ws).comps a = w.comps a := by
        simp only [World.stepped, if_neg hne]
        split
        · exact fail_idle _ hr
        · rfl
      rw [h1, h2, h3, hsame]
      exact ⟨hb, hr, rfl⟩
    · exact ⟨hb, hr, rfl⟩
  | look id e =>
    intro _
    simp only [World.step]
    split
    · rename_i hg
      simp only [Bool.and_eq_true, decide_eq_true_eq] at hg
      have hne : a ≠ id := by rintro rfl; rw [hr] at hg; simp at hg
      simp only [upd, if_neg hne]
      exact ⟨hb, hr, trivial⟩
    · exact ⟨hb, hr, rfl⟩
  | join =>
    simp only [World.step]
    split
    · intro h; simp at h
    · intro _; exact ⟨hb, hr, rfl⟩
  | kill order written =>
    simp only [World.step, ha, if_true]
    intro h; simp at h

/-- C38.  `Reg::Run` ends only when the tasks of every registered builder have run.

Missing: registrations with a cycle, which need a call `Dep(a, a)` (`C37_acyclic_partial`);
for them it is false (`C38_self_false`). -/
theorem C38_all_executed_partial (kinds : Str → Kind) (evs : List WEvent) :
    let w := (World.init kinds).steps evs
    Valid w.graph → Acyclic w.graph.edges → w.active = true → (w.step .join).active = false →
    ∀ id ∈ w.graph.ids, id ∈ w.begun ∧ (w.comps id).running = false := by
  intro w hv hc ha hj id hid
  simp only [World.step] at hj
  split at hj
  · rename_i hg
    simp only [Bool.and_eq_true] at hg
    have := over_finished hv hc hg.2 id hid
    simpa [World.finished] using this
  · rw [ha] at hj; simp at hj

open Classical in
/-- Number of steps of the executor in a schedule that have an effect. -/
noncomputable def effective (w : World) : List WEvent → Nat
  | [] => 0
  | e :: l => (if e.internal = true ∧ w.step e ≠ w then 1 else 0) + effective (w.step e) l

/-- C38.  `Reg::Run` terminates: whatever the executor does, what the commands read and
what others do to the files meanwhile, only a bounded number of its steps have an effect, -/
theorem C38_bounded (kinds : Str → Kind) (evs sched : List WEvent)
    (hs : ∀ g s, .launch g s ∉ sched) :
    let w := (World.init kinds).steps evs
    effective w sched + (w.steps sched).remaining ≤ w.remaining := by
  intro w
  have h : BInv w := bInv_steps evs _ (bInv_init kinds)
  generalize w = w at h
  induction sched generalizing w with
  | nil => simp [effective, World.steps]
  | cons e l ih =>
    have h2 := ih (fun g s he => hs g s (List.mem_cons_of_mem _ he)) (w.step e) (bInv_step h e)
    simp only [effective, World.steps, List.foldl_cons] at h2 ⊢
    split
    · rename_i he
      have := (remaining_internal h he.1).resolve_left he.2
      omega
    · rename_i he
      have : (w.step e).remaining ≤ w.remaining := by
        cases hi : e.internal with
        | false => exact remaining_other hi fun g s h => hs g s (h ▸ List.mem_cons_self)
        | true =>
          rw [Classical.not_not.1 fun h => he ⟨hi, h⟩]
          exact Nat.le_refl _
      omega

/-- ... and as long as it has not ended, the executor can do something that has an effect. -/
theorem C38_progress (kinds : Str → Kind) (evs : List WEvent) :
    let w := (World.init kinds).steps evs
    w.active = true → ∃ e, e.internal = true ∧ w.step e ≠ w := by
  intro w ha
  have h : BInv w := bInv_steps evs _ (bInv_init kinds)
  obtain ⟨e, h1, h2⟩ := world_progress h ha
  refine ⟨e, h1, fun he => ?_⟩
  rw [he] at h2
  omega

/-- The first launch of the example, and the end of that run. -/
example : (exW0.steps (exWFiles ++ [.launch exWGraph exSetup])).remaining = 20 ∧
    (exW0.steps (exWFiles ++ exWBuild)).begun = [b!"gen", b!"lib", b!"app"] ∧
    (exW0.steps (exWFiles ++ exWBuild)).active = true ∧
    ((exW0.steps (exWFiles ++ exWBuild)).step .join).active = false := by decide +kernel

example : ∀ id ∈ exWGraph.ids, id ∈ ((World.init exKinds).steps (exWFiles ++ exWBuild)).begun ∧
    (((World.init exKinds).steps (exWFiles ++ exWBuild)).comps id).running = false := by
  have e : ((World.init exKinds).steps (exWFiles ++ exWBuild)).graph = exWGraph := by decide +kernel
  have := C38_all_executed_partial exKinds (exWFiles ++ exWBuild) (by rw [e]; exact exWGraph_valid)
    (by rw [e]; exact exWGraph_acyclic) (by decide +kernel) (by decide +kernel)
  rw [e] at this
  exact this

/-- The library compiles while the program waits. -/
example :
    let w := exW0.steps (exWFiles ++ .launch exWGraph exSetup :: exGenTasks 2 ++ [.begin b!"lib"])
    ((w.step (.task b!"lib" (.t .objTask) [])).comps b!"lib").remaining
      ≠ (w.comps b!"lib").remaining ∧
    Reaches w.graph.edges b!"gen" b!"lib" ∧ w.ready b!"app" = false :=
  ⟨by decide +kernel, .edge (by decide +kernel), by decide +kernel⟩

/-- C38 is false for a builder declared to depend on itself, which `Reg::Dep` accepts
(`C37_self_false`): `Reg::Run` ends with success, and the builder was never executed. -/
theorem C38_self_false :
    let w := (World.init fun _ => .gen).steps [ .launch selfGraph fun _ => .gen [],
      .begin b!"b", .task b!"b" (.g .begin) [], .task b!"b" (.g (.finish [] true)) [] ]
    w.active = true ∧ (w.step .join).active = false ∧ (w.step .join).result = some true ∧
    (w.step .join).after = [.postBuild, .tests []] ∧
    b!"a" ∈ w.graph.ids ∧ b!"a" ∉ w.begun ∧ (w.comps b!"a").did = ([], []) := by
  decide +kernel

/-! ## C39 -/

/-- C39.  When a task of `a` has failed, no builder that depends on `a`, directly or through
others, has executed a command or a callback in this run, -/
theorem C39_dependents (kinds : Str → Kind) (evs : List WEvent) :
    let w := (World.init kinds).steps evs
    w.active = true → ∀ a b, a ∈ w.graph.ids → b ∈ w.graph.ids → OwnFailure (w.comps a) →
    Reaches w.graph.edges a b → ¬ Executed (w.comps b) := by
  intro w ha a b hi hb hf hr
  have h : FInv w := fInv_steps evs _ (fInv_init kinds)
  exact (h.halt ha a hi hf b hb hr).not_executed

/-- ... and `Reg::Run` does not return: when it ends it ends the process, without the
post-build callback and without tests. -/
theorem C39_no_return (kinds : Str → Kind) (evs : List WEvent) :
    let w := (World.init kinds).steps evs
    w.active = true → ∀ a, a ∈ w.graph.ids → OwnFailure (w.comps a) →
    (w.step .join).active = false →
    (w.step .join).result = some false ∧ (w.step .join).after = [] := by
  intro w ha a hi hf hj
  have h : FInv w := fInv_steps evs _ (fInv_init kinds)
  have hok := h.bad ha a hi hf
  simp only [World.step] at hj ⊢
  split
  · exact ⟨by simp [hok], by simp [hok]⟩
  · rename_i hg
    rw [if_neg hg, ha] at hj
    simp at hj

/-- Conversely the post-build callback and the tests run when nothing has failed: -/
theorem C39_return (kinds : Str → Kind) (evs : List WEvent) :
    let w := (World.init kinds).steps evs
    w.active = true → w.ok = true → (w.step .join).active = false →
    (w.step .join).result = some true ∧
    (w.step .join).after = [.postBuild, .tests w.graph.tests] := by
  intro w ha hok hj
  simp only [World.step] at hj ⊢
  split
  · exact ⟨by simp [hok], by simp [hok]⟩
  · rename_i hg
    rw [if_neg hg, ha] at hj
    simp at hj

/-- C58 for several builders: once a task of any builder has set FAILURE, nothing that happens
before the next process is started sets the state back, and `Reg::Run` does not return. -/
theorem C58_seen (w : World) (hf : w.ok = false) : ∀ (evs : List WEvent),
    (∀ g s, .launch g s ∉ evs) → (w.steps evs).ok = false ∧
      ((w.steps evs).active = true → ((w.steps evs).step .join).active = false →
        ((w.steps evs).step .join).result = some false ∧ ((w.steps evs).step .join).after = []) := by
  have one : ∀ (w : World) (e : WEvent), w.ok = false → (∀ g s, e ≠ .launch g s) →
      (w.step e).ok = false := by
    intro w e h hn
    cases e with
    | launch g s => exact absurd rfl (hn g s)
    | edit p t => exact h
    | delete p => exact h
    | dropState id => simp only [World.step]; split <;> exact h
    | begin id => simp only [World.step]; split <;> exact h
    | look id e => simp only [World.step]; split <;> exact h
    | join => simp only [World.step]; split <;> exact h
    | kill o x => simp only [World.step]; split <;> exact h
    | task id e ws =>
      simp only [World.step]
      split
      · simp only [World.task]
        rw [(writes_frame ws _).2.2.2.2.1]
        simp [h]
      · exact h
  intro evs hl
  have key : (w.steps evs).ok = false := by
    revert w
    induction evs with
    | nil => intro w hf; exact hf
    | cons e l ih =>
      intro w hf
      exact ih (fun g s h => hl g s (by simp [h])) (w.step e)
        (one w e hf (fun g s h => hl g s (by simp [h])))
  refine ⟨key, ?_⟩
  generalize w.steps evs = v at key
  intro ha hj
  simp only [World.step] at hj ⊢
  split
  · exact ⟨by simp [key], by simp [key]⟩
  · rename_i hg
    rw [if_neg hg, ha] at hj
    simp at hj

/-- The library fails; the program has nothing executed. -/
theorem exWFail_own :
    OwnFailure (((World.init exKinds).steps (exWFiles ++ exWFail)).comps b!"lib") := by
  have h : (((World.init exKinds).steps (exWFiles ++ exWFail)).comps b!"lib").did.1
      = [.obj b!"/p/a.cpp" false] := by decide +kernel
  revert h
  generalize ((World.init exKinds).steps (exWFiles ++ exWFail)).comps b!"lib" = c
  intro h
  cases c with
  | target fx σ =>
    exact ⟨.obj b!"/p/a.cpp" false, by simp only [Comp.did] at h; rw [h]; simp, rfl, by simp⟩
  | gen σ => simp [Comp.did] at h

theorem exWFail_edge :
    Reaches ((World.init exKinds).steps (exWFiles ++ exWFail)).graph.edges b!"lib" b!"app" :=
  .edge (by decide +kernel)

example : ¬ Executed (((World.init exKinds).steps (exWFiles ++ exWFail)).comps b!"app") := by
  have ha : ((World.init exKinds).steps (exWFiles ++ exWFail)).active = true := by decide +kernel
  have h1 : b!"lib" ∈ ((World.init exKinds).steps (exWFiles ++ exWFail)).graph.ids := by
    decide +kernel
  have h2 : b!"app" ∈ ((World.init exKinds).steps (exWFiles ++ exWFail)).graph.ids := by
    decide +kernel
  have := C39_dependents exKinds (exWFiles ++ exWFail) ha b!"lib" b!"app" h1 h2
    (by with_reducible exact exWFail_own) exWFail_edge
  with_reducible exact this

example :
    let w := (World.init exKinds).steps (exWFiles ++ exWFail)
    (w.step .join).result = some false ∧ (w.step .join).after = [] :=
  C39_no_return exKinds (exWFiles ++ exWFail) (by decide +kernel) b!"lib" (by decide +kernel)
      (by with_reducible exact exWFail_own) (by decide +kernel)

/-- The state after the compile command of the library has failed. -/
def exWFailed : World := (World.init exKinds).steps ((exWFiles ++ exWFail).take 12)

example : exWFailed.active = true ∧ (exWFailed.steps ((exWFiles ++ exWFail).drop 12)).ok = false :=
  ⟨by decide +kernel, (C58_seen exWFailed (by decide +kernel) ((exWFiles ++ exWFail).drop 12) (by
    intro g s h
    simp [exWFiles, exWFail, exGenTasks] at h)).1⟩

end Verif.Reg
