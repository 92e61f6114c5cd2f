import Verif.Target.Discipline

/-! # Successful builds leave nothing outdated -/

namespace Verif.Target
open Verif Verif.Command Verif.Schema Verif.Json

theorem step_fresh (fx : Fixed) (σ : Sys) (e : Event) (h1 : e.outside = false)
    (h2 : e.isStart = false) : (step fx σ e).fresh = σ.fresh := by
  cases e <;> simp only [Event.outside, Event.isStart, Bool.true_eq_false] at h1 h2
  all_goals simp only [step, inPhase, Sys.put, lookAt, pchTask, pchExec, objTask, execObj, addObj, linkTask, linkExec,
    finishRun, crashRun]
  all_goals repeat' split
  all_goals rfl

theorem allowed_quiet (fx : Fixed) (σ : Sys) (e : Event) (h1 : e.outside = false)
    (h2 : e.isStart = false) : Allowed fx σ e := by
  cases e <;> simp only [Event.outside, Event.isStart, Bool.true_eq_false] at h1 h2 <;> exact trivial

theorem quiet_steps (fx : Fixed) (mid : List Event) : ∀ (σ : Sys),
    (∀ e ∈ mid, e.outside = false ∧ e.isStart = false) →
    (steps fx σ mid).fresh = σ.fresh ∧ AllAllowed fx σ mid := by
  induction mid with
  | nil => intro σ _; exact ⟨rfl, trivial⟩
  | cons e l ih =>
    intro σ h
    obtain ⟨h1, h2⟩ := h e List.mem_cons_self
    obtain ⟨h3, h4⟩ := ih (step fx σ e) fun e' he => h e' (List.mem_cons_of_mem _ he)
    refine ⟨?_, allowed_quiet fx σ e h1 h2, h4⟩
    rw [← step_fresh fx σ e h1 h2]
    exact h3

theorem start_fresh {fx : Fixed} {σ : Sys} {c : TargetSchema} {o : List Str} (h1 : σ.run = none)
    (h2 : (step fx σ (.start c o)).run.isSome = true) : (step fx σ (.start c o)).fresh = true := by
  revert h2
  simp only [step, startRun, h1]
  split
  · simp
  · simp [h1]

/-- The general form, with the conditions on every single event. -/
theorem build_clean {fx : Fixed} (hlc : CompileLocal fx) (hlp : PchLocal fx) {pre mid : List Event}
    {c : TargetSchema} {o : List Str} {σ : Sys}
    (ha : AllAllowed fx Sys.init (pre ++ [.start c o]))
    (hb : SuccessfulBuild fx (steps fx Sys.init pre) c o mid σ) :
    Clean fx σ c ∧ ∃ s, UpToDate σ s c := by
  obtain ⟨hq1, hq2⟩ := quiet_steps fx mid (step fx (steps fx Sys.init pre) (.start c o)) hb.quiet
  have hi : SysInv fx σ := by
    rw [← hb.result]
    refine inv_steps hlc hlp mid ?_ hq2
    have := inv_steps hlc hlp _ (inv_init fx) ha
    rw [steps_append] at this
    exact this
  obtain ⟨b, hd⟩ := hb.success
  refine hi.done _ hd rfl ?_
  rw [← hb.result, hq1]
  exact start_fresh hb.idle hb.started

theorem wf_step (fx : Fixed) (σ : Sys) (e : Event) (h : WF σ) : WF (step fx σ e) := by
  cases e
  case edit p t =>
    simp only [step]
    · intro q u hq
      simp only [Sys.put, upd] at hq ⊢
      split at hq
      · rename_i he
        simp only [Option.some.injEq] at hq
        simp [he, hq]
      · rename_i he
        simp only [he, if_false]
        exact h q u hq
  case delete p =>
    intro q u hq
    simp only [step, Sys.put, upd] at hq ⊢
    split at hq
    · simp at hq
    · exact h q u hq
  all_goals simp only [step, inPhase, startRun, Sys.put, lookAt, pchTask, pchExec, objTask, execObj, addObj, linkTask,
    linkExec, finishRun, crashRun, Sys.fail]
  all_goals repeat' split
  all_goals exact h

/-- The next command reads versions that the files had since the last decision. -/
def ViewOk (σ : Sys) : Prop := ∀ p, σ.view p ∈ σ.seen p

theorem viewOk_put {σ : Sys} (h : ViewOk σ) (p : Str) (v : Option Nat) : ViewOk (σ.put p v) := view_put h p v

theorem viewOk_step (fx : Fixed) (σ : Sys) (e : Event) (h : ViewOk σ) : ViewOk (step fx σ e) := by
  cases e
  case edit p t => exact viewOk_put h p (some t)
  case delete p => exact viewOk_put h p none
  case look p v =>
    simp only [step, lookAt]
    split
    · rename_i hv
      intro q
      simp only [upd]
      split
      · rename_i e; rw [e]; exact hv
      · exact h q
    · exact h
  case pchTask =>
    simp only [step, inPhase, pchTask]
    have h' : ViewOk σ.settle := fun p => List.mem_singleton.2 rfl
    repeat' split
    all_goals first | exact h | exact h'
  case objTask =>
    simp only [step, inPhase, objTask]
    have h' : ViewOk σ.settle := fun p => List.mem_singleton.2 rfl
    repeat' split
    all_goals first | exact h | exact h'
  case linkTask =>
    simp only [step, linkTask]
    have h' : ViewOk σ.settle := fun p => List.mem_singleton.2 rfl
    repeat' split
    all_goals first | exact h | exact h'
  all_goals simp only [step, inPhase, startRun, pchExec, execObj, addObj, linkExec, finishRun,
    crashRun, Sys.fail]
  all_goals repeat' split
  all_goals exact h

theorem viewOk_steps (fx : Fixed) (evs : List Event) : ∀ σ, ViewOk σ → ViewOk (steps fx σ evs) := by
  induction evs with
  | nil => intro σ h; exact h
  | cons e l ih => intro σ h; exact ih _ (viewOk_step fx σ e h)

theorem wf_steps (fx : Fixed) (evs : List Event) : ∀ σ, WF σ → WF (steps fx σ evs) := by
  induction evs with
  | nil => intro σ h; exact h
  | cons e l ih => intro σ h; exact ih _ (wf_step fx σ e h)

/-- Without a usable state nothing that exists matters. -/
theorem build_clean_scratch {fx : Fixed} (hlc : CompileLocal fx) (hlp : PchLocal fx)
    {pre mid : List Event} {c : TargetSchema} {o : List Str} {σ : Sys}
    (hn : (paths c.sources).Nodup)
    (hi : ∀ p ∈ paths c.sources, ∀ q ∈ paths c.sources, objPath fx p = objPath fx q → p = q)
    (hu : loadTargetFile (steps fx Sys.init pre).stateFile = none)
    (hb : SuccessfulBuild fx (steps fx Sys.init pre) c o mid σ) :
    Clean fx σ c ∧ ∃ s, UpToDate σ s c := by
  have hw : WF (steps fx Sys.init pre) := wf_steps fx pre _ (by simp [WF, Sys.init])
  have hvw : ViewOk (steps fx Sys.init pre) := viewOk_steps fx pre _ (by simp [ViewOk, Sys.init])
  generalize steps fx Sys.init pre = σ₀ at hu hb hw hvw
  obtain ⟨hq1, hq2⟩ := quiet_steps fx mid (step fx σ₀ (.start c o)) hb.quiet
  have h0 : SysInv fx { σ₀ with done := none } := by
    refine ⟨hw, hvw, ?_, ?_, fun _ => rfl, by simp⟩
    · intro s hs; rw [show loadTargetFile σ₀.stateFile = some s from hs] at hu; simp at hu
    · intro r hr; exact absurd ((show σ₀.run = some r from hr).symm.trans hb.idle) (by simp)
  have hs : step fx σ₀ (.start c o) = step fx { σ₀ with done := none } (.start c o) := by
    have := hb.started
    simp only [step, startRun, hb.idle] at this ⊢
    split at this
    · rename_i h; simp [h]
    · simp [hb.idle] at this
  have h1 : SysInv fx (step fx σ₀ (.start c o)) := by
    rw [hs]
    refine inv_start h0 c o fun _ => ⟨hn, hi, ?_, ?_, ?_, ?_, ?_, ?_⟩ <;>
      (intro s hs; rw [show loadTargetFile σ₀.stateFile = some s from hs] at hu; simp at hu)
  have hi : SysInv fx σ := by
    rw [← hb.result]
    exact inv_steps hlc hlp mid h1 hq2
  obtain ⟨b, hd⟩ := hb.success
  refine hi.done _ hd rfl ?_
  rw [← hb.result, hq1]
  exact start_fresh hb.idle hb.started

end Verif.Target
