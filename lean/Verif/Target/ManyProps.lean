import Verif.Target.ManySteps
import Verif.Target.Examples

/-!
# C102: several processes build one target at the same time

Vocabulary: `Many.lean`.
-/

namespace Verif.Target
open Verif Verif.Command Verif.Schema Verif.Json

/-- C102.  Any number of processes build one target in one build directory, without any lock.
They all use one configuration, in which no source is listed twice and no two sources share an
object file; files are edited only while no process builds, with new stamps; failed commands
leave their outputs alone.  Processes start, fail and are killed at any time, also while they
write the state file or while another one reads it.  Whenever a process has ended with SUCCESS
and no file was changed since it started, all built files are what a build from scratch leaves:
also while others still build, and also after their further steps.

Partial: without the conditions on edits, configurations and failed commands it is false
(`C102_edit_false`, `C102_flags_false`, `C102_failure_false` in `ManyRefute.lean`). -/
theorem C102_concurrent_partial (fx : Fixed) (hsh : Shipped fx) (c : TargetSchema)
    (hn : (paths c.sources).Nodup)
    (hinj : ∀ p ∈ paths c.sources, ∀ q ∈ paths c.sources, objPath fx p = objPath fx q → p = q)
    (evs : List MEvent) (ht : Together fx c Many.init evs) (k : Nat)
    (hk : Succeeded (msteps fx Many.init evs) k) : CleanFiles fx (msteps fx Many.init evs) c := by
  have hf : Family fx (One c) :=
    ⟨by rintro _ rfl; exact hn, by rintro _ _ rfl rfl; exact hinj,
      by rintro a b rfl rfl h1 h2; exact absurd h2 h1, by rintro a b rfl rfl _ _ _; rfl⟩
  obtain ⟨d, h1, h2, h3⟩ := hk
  exact (MInv.steps hsh.compileLocal hsh.pchLocal hf evs (MInv.init fx c) ht).done k d h1 h2 h3

/-! ## Processes do not influence each other's course -/

/-- The events of process `k`. -/
def eventsOf (k : Nat) (evs : List MEvent) : List Event :=
  evs.filterMap fun e =>
    match e with
    | .act j e => if j = k && !e.outside then some e else none
    | _ => none

/-- The event starts no build of process `k` and changes no file from outside. -/
def MEvent.keeps (k : Nat) : MEvent → Bool
  | .edit _ _ | .delete _ => false
  | .act j e => j ≠ k || !e.isStart
  | .startDuring j _ _ _ _ => j ≠ k

theorem ite_proc (p : Prop) [Decidable p] (x y : Sys) :
    (if p then x else y).proc = if p then x.proc else y.proc := by
  split <;> rfl

theorem inPhase_proc {σ σ' : Sys} {ph : Phase} {f g : Run → Sys} (h : σ.proc = σ'.proc)
    (hfg : ∀ r, (f r).proc = (g r).proc) : (inPhase σ ph f).proc = (inPhase σ' ph g).proc := by
  have h1 : σ.run = σ'.run := congrArg Proc.run h
  unfold inPhase
  rw [h1]
  cases σ'.run with
  | none => exact h
  | some r => simp only [ite_proc, hfg, h]

/-- A step of a process depends on the process and on the input files only. -/
theorem step_proc (fx : Fixed) {σ σ' : Sys} (e : Event) (h : σ.proc = σ'.proc)
    (hf : σ.files = σ'.files) (hs : e.isStart = false) (ho : e.outside = false) :
    (step fx σ e).proc = (step fx σ' e).proc := by
  have hseen : σ.seen = σ'.seen := congrArg Proc.seen h
  have hview : σ.view = σ'.view := congrArg Proc.view h
  have hrun : σ.run = σ'.run := congrArg Proc.run h
  have hok : σ.ok = σ'.ok := congrArg Proc.ok h
  have hlog : σ.log = σ'.log := congrArg Proc.log h
  have hdone : σ.done = σ'.done := congrArg Proc.done h
  have hfresh : σ.fresh = σ'.fresh := congrArg Proc.fresh h
  cases e <;> simp only [Event.outside, Event.isStart, Bool.true_eq_false] at hs ho
  case otherFail =>
    simp only [step, ite_proc, hrun]
    simp only [Sys.proc, Sys.fail, hseen, hview, hrun, hok, hlog, hdone, hfresh]
  case look p v =>
    simp only [step, lookAt, ite_proc, hseen]
    simp only [Sys.proc, hseen, hview, hrun, hok, hlog, hdone, hfresh]
  case pchTask =>
    refine inPhase_proc h fun r => ?_
    simp only [pchTask, ite_proc]
    simp only [Sys.proc, Sys.settle, Sys.fail, hf, hok, hlog, hdone, hfresh]
    rfl
  case pchExec =>
    refine inPhase_proc h fun r => ?_
    simp only [pchExec, ite_proc]
    simp only [Sys.proc, Sys.fail, hseen, hview, hok, hlog, hdone, hfresh]
  case objTask =>
    refine inPhase_proc h fun r => ?_
    simp only [objTask, ite_proc]
    simp only [Sys.proc, Sys.settle, Sys.fail, hf, hok, hlog, hdone, hfresh]
    rfl
  case exec k ok junk =>
    refine inPhase_proc h fun r => ?_
    unfold execObj
    cases r.pending[k]? with
    | none => exact h
    | some i =>
      simp only [ite_proc]
      simp only [Sys.proc, Sys.fail, hseen, hview, hok, hlog, hdone, hfresh]
  case add k =>
    refine inPhase_proc h fun r => ?_
    unfold addObj
    cases r.executed[k]? with
    | none => exact h
    | some i => simp only [Sys.proc, hseen, hview, hok, hlog, hdone, hfresh]
  case linkTask =>
    simp only [step, hrun]
    cases σ'.run with
    | none => exact h
    | some r =>
      simp only [linkTask, ite_proc, h]
      simp only [Sys.proc, Sys.settle, Sys.fail, hf, hok, hlog, hdone, hfresh]
      rfl
  case linkExec =>
    refine inPhase_proc h fun r => ?_
    simp only [linkExec, ite_proc]
    simp only [Sys.proc, Sys.fail, hseen, hview, hok, hlog, hdone, hfresh]
  case finish o =>
    refine inPhase_proc h fun r => ?_
    by_cases hd : r.dirty = true
    · simp only [finishRun, if_pos hd]
      cases targetText r.toStore with
      | none => simp only [storeText, Sys.proc, Sys.fail, hseen, hview, hlog, hfresh]
      | some t =>
        cases o <;>
          simp only [storeText, Sys.proc, Sys.fail, hseen, hview, hok, hlog, hfresh, if_true,
            Bool.false_eq_true, if_false]
    · simp only [finishRun, if_neg hd, Sys.proc, hseen, hview, hok, hlog, hfresh]
  case crash w =>
    have hc : ∀ (τ : Sys) (r : Run), (crashRun τ r w).proc =
        ⟨τ.seen, τ.view, none, τ.ok, τ.log, τ.done, τ.fresh⟩ := by
      intro τ r
      simp only [crashRun]
      repeat' split
      all_goals rfl
    simp only [step, hrun]
    cases σ'.run with
    | none => exact h
    | some r => simp only [hc, hseen, hview, hok, hlog, hdone, hfresh]

/-- What a process has done does not depend on the others. -/
theorem independent_steps (fx : Fixed) (k : Nat) (evs : List MEvent) : ∀ (m : Many) (σ : Sys),
    (∀ e ∈ evs, e.keeps k = true) → m.procs k = σ.proc → m.files = σ.files →
    (msteps fx m evs).procs k = (steps fx σ (eventsOf k evs)).proc := by
  induction evs with
  | nil => intro m σ _ h _; exact h
  | cons e evs ih =>
    intro m σ hk h hf
    have hke := hk e List.mem_cons_self
    have hk' : ∀ e ∈ evs, e.keeps k = true := fun e he => hk e (List.mem_cons_of_mem _ he)
    cases e with
    | edit p t => simp [MEvent.keeps] at hke
    | delete p => simp [MEvent.keeps] at hke
    | act j e =>
      by_cases ho : e.outside = true
      · have e1 : eventsOf k (.act j e :: evs) = eventsOf k evs := by simp [eventsOf, ho]
        have e2 : mstep fx m (.act j e) = m := by simp [mstep, ho]
        rw [e1, msteps, List.foldl_cons, e2]
        exact ih m σ hk' h hf
      · have ho' : e.outside = false := by simpa using ho
        have e2 : mstep fx m (.act j e) = m.take j (step fx (m.sys j) e) := by simp [mstep, ho']
        rw [msteps, List.foldl_cons, e2, ← msteps]
        by_cases hj : j = k
        · have e1 : eventsOf k (.act j e :: evs) = e :: eventsOf k evs := by simp [eventsOf, ho', hj]
          have hs : e.isStart = false := by simpa [MEvent.keeps, hj] using hke
          rw [e1, hj]
          have hs2 : e.starts = false := by
            cases e <;> first | rfl | (simp [Event.isStart] at hs)
          have hl := step_local fx (m.sys k) e hs2 ho'
          have hl' := step_local fx σ e hs2 ho'
          refine ih _ _ hk' ?_ ?_
          · show (if k = k then (step fx (m.sys k) e).proc else m.procs k) = _
            rw [if_pos rfl]
            exact step_proc fx e h hf hs ho'
          · show (step fx (m.sys k) e).files = _
            rw [hl.1, hl'.1]; exact hf
        · have e1 : eventsOf k (.act j e :: evs) = eventsOf k evs := by simp [eventsOf, hj]
          rw [e1]
          refine ih _ _ hk' ?_ ?_
          · show (if k = j then (step fx (m.sys j) e).proc else m.procs k) = _
            rw [if_neg (fun e => hj e.symm)]
            exact h
          · show (step fx (m.sys j) e).files = _
            refine Eq.trans ?_ hf
            by_cases hs : e.starts = true
            · cases e <;> simp only [Event.starts, Bool.false_eq_true] at hs
              simp only [step, startRun]
              repeat' split
              all_goals rfl
            · exact (step_local fx (m.sys j) e (by simpa using hs) ho').1
    | startDuring j i n c o =>
      have hj : j ≠ k := by simpa [MEvent.keeps] using hke
      have e1 : eventsOf k (.startDuring j i n c o :: evs) = eventsOf k evs := by simp [eventsOf]
      rw [e1, msteps, List.foldl_cons, ← msteps]
      refine ih _ _ hk' ?_ ?_
      · show (if k = j then _ else m.procs k) = _
        rw [if_neg (fun e => hj e.symm)]
        exact h
      · show (step fx { m.sys j with stateFile := _ } (.start c o)).files = _
        refine Eq.trans ?_ hf
        simp only [step, startRun]
        repeat' split
        all_goals rfl

/-- C102.  While files are left alone, the course of a process (its phases, which commands it
runs, what they report, what it logs, its result) is what it is when no other process runs:
whatever the others do, including failed commands, kills and other configurations.  Only the
contents of the files it leaves may differ. -/
theorem C102_independent (fx : Fixed) (m : Many) (k : Nat) (c : TargetSchema) (order : List Str)
    (evs : List MEvent) (hk : ∀ e ∈ evs, e.keeps k = true) :
    (msteps fx m (.act k (.start c order) :: evs)).procs k =
      (steps fx (m.sys k) (.start c order :: eventsOf k evs)).proc := by
  have e : mstep fx m (.act k (.start c order)) = m.take k (step fx (m.sys k) (.start c order)) := by
    simp [mstep, Event.outside]
  rw [msteps, List.foldl_cons, e, ← msteps]
  refine independent_steps fx k evs _ _ hk ?_ rfl
  show (if k = k then _ else _) = _
  rw [if_pos rfl]

end Verif.Target
