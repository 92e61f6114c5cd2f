import Verif.Target.Examples
import Verif.Target.Select

/-!
# Every run ends

C60: whatever the schedule, a run makes a bounded number of steps, and as long as it
has not ended there is a step it can make.
-/

namespace Verif.Target
open Verif Verif.Command Verif.Schema Verif.Json

/-- Steps that a run can still make at most. -/
def remaining (σ : Sys) : Nat :=
  match σ.run with
  | none => 0
  | some r =>
    match r.phase with
    | .pch => 2 * r.user.sources.length + r.executed.length + 6
    | .pchRun => 2 * r.user.sources.length + r.executed.length + 5
    | .obj => 2 * r.user.sources.length + r.executed.length + 4
    | .objRun => 2 * r.pending.length + r.executed.length + 3
    | .link => 3
    | .linkRun => 2
    | .fin => 1

/-- Events by which the build itself goes on. -/
def Event.progress : Event → Bool
  | .pchTask | .pchExec _ _ | .objTask | .exec _ _ _ | .add _ | .linkTask | .linkExec _ _
  | .finish _ => true
  | _ => false

theorem hashAll_length (f : Str → Option Nat) (l : List PathInfo) :
    (hashAll f l).1.length = l.length := by
  have := congrArg List.length (hashAll_paths f l)
  simpa [paths] using this

theorem selected_length (prev cur : List PathInfo) :
    (recompile prev cur).selected.length ≤ cur.length := by
  have := (recompile_perm cur prev).length_eq
  simp at this
  omega

/-- Every effective step of the build uses up one of the remaining steps. -/
theorem progress_step (fx : Fixed) (σ : Sys) (e : Event) (he : e.progress = true) :
    step fx σ e = σ ∨ remaining (step fx σ e) < remaining σ := by
  cases hr : σ.run with
  | none =>
    left
    cases e <;> simp [Event.progress] at he <;> simp [step, inPhase, hr]
  | some r =>
    cases e <;> simp only [Event.progress, Bool.false_eq_true] at he <;>
      simp only [step, inPhase, hr]
    case pchTask =>
      split
      · rename_i hp
        right
        simp only [pchTask]
        repeat' split
        all_goals simp [remaining, hr, hp]
      · exact .inl rfl
    case pchExec =>
      split
      · rename_i hp
        right
        simp only [pchExec]
        repeat' split
        all_goals simp [remaining, hr, hp]
      · exact .inl rfl
    case objTask =>
      split
      · rename_i hp
        right
        simp only [objTask]
        repeat' split
        all_goals simp only [remaining, hr, hp]
        · omega
        · omega
        · omega
        · omega
        · simp only [hashAll_length]; omega
        · have := selected_length r.load.sources (hashAll σ.settle.files r.user.sources).1
          rw [hashAll_length] at this
          omega
      · exact .inl rfl
    case exec k ok junk =>
      split
      · rename_i hp
        simp only [execObj]
        split
        · exact .inl rfl
        · rename_i i hk
          have hl : (r.pending.eraseIdx k).length + 1 = r.pending.length := by
            rw [List.length_eraseIdx_of_lt (List.getElem?_eq_some_iff.1 hk).1]
            have := (List.getElem?_eq_some_iff.1 hk).1
            omega
          right
          split
          all_goals simp only [remaining, hr, hp, List.length_cons]; omega
      · exact .inl rfl
    case add k =>
      split
      · rename_i hp
        simp only [addObj]
        split
        · exact .inl rfl
        · rename_i i hk
          have hl : (r.executed.eraseIdx k).length + 1 = r.executed.length := by
            rw [List.length_eraseIdx_of_lt (List.getElem?_eq_some_iff.1 hk).1]
            have := (List.getElem?_eq_some_iff.1 hk).1
            omega
          right
          simp only [remaining, hr, hp]; omega
      · exact .inl rfl
    case linkTask =>
      split
      · rename_i hp
        right
        have h3 : 3 ≤ remaining σ := by
          rcases hp with hp | ⟨hp, -⟩ <;> simp [remaining, hr, hp]
        simp only [linkTask]
        repeat' split
        all_goals exact Nat.lt_of_lt_of_le (m := 3) (by simp [remaining]) h3
      · exact .inl rfl
    case linkExec =>
      split
      · rename_i hp
        right
        simp only [linkExec]
        repeat' split
        all_goals simp [remaining, hr, hp]
      · exact .inl rfl
    case finish =>
      split
      · rename_i hp
        right
        simp only [finishRun]
        repeat' split
        all_goals simp [remaining, hr, hp]
      · exact .inl rfl

/-- While a run is active it can make a step, in which no command fails. -/
def nextEvent (r : Run) : Event :=
  match r.phase with
  | .pch => .pchTask
  | .pchRun => .pchExec true none
  | .obj => .objTask
  | .objRun =>
    if r.pending ≠ [] then .exec 0 true none else if r.executed ≠ [] then .add 0 else .linkTask
  | .link => .linkTask
  | .linkRun => .linkExec true none
  | .fin => .finish true

theorem next_progress (r : Run) : (nextEvent r).progress = true := by
  unfold nextEvent
  repeat' split
  all_goals rfl

theorem next_effective (fx : Fixed) (σ : Sys) (r : Run) (hr : σ.run = some r) :
    step fx σ (nextEvent r) ≠ σ := by
  intro he
  have hrun : (step fx σ (nextEvent r)).run = some r := by rw [he]; exact hr
  revert hrun
  unfold nextEvent
  split <;> rename_i hp
  · simp only [step, inPhase, hr, hp, if_true, pchTask]
    repeat' split
    all_goals (intro h; have := congrArg (Option.map Run.phase) h; simp [hp] at this)
  · simp only [step, inPhase, hr, hp, if_true, pchExec]
    intro h; have := congrArg (Option.map Run.phase) h; simp [hp] at this
  · simp only [step, inPhase, hr, hp, if_true, objTask]
    repeat' split
    all_goals (intro h; have := congrArg (Option.map Run.phase) h; simp [hp] at this)
  · split
    · rename_i hpe
      obtain ⟨i, l, hl⟩ := List.exists_cons_of_ne_nil hpe
      simp only [step, inPhase, hr, hp, if_true, execObj, hl, List.getElem?_cons_zero,
        List.eraseIdx_cons_zero]
      intro h; have := congrArg (Option.map fun r => r.pending.length) h; simp [hl] at this
    · split
      · rename_i hpe hex
        obtain ⟨i, l, hl⟩ := List.exists_cons_of_ne_nil hex
        simp only [step, inPhase, hr, hp, if_true, addObj, hl, List.getElem?_cons_zero,
          List.eraseIdx_cons_zero]
        intro h; have := congrArg (Option.map fun r => r.executed.length) h; simp [hl] at this
      · rename_i hpe hex
        simp only [ne_eq, Classical.not_not] at hpe hex
        simp only [step, hr, hp, hpe, hex, and_self, or_true, if_true, linkTask]
        repeat' split
        all_goals (intro h; have := congrArg (Option.map Run.phase) h; simp [hp] at this)
  · simp only [step, hr, hp, true_or, if_true, linkTask]
    repeat' split
    all_goals (intro h; have := congrArg (Option.map Run.phase) h; simp [hp] at this)
  · simp only [step, inPhase, hr, hp, if_true, linkExec]
    intro h; have := congrArg (Option.map Run.phase) h; simp [hp] at this
  · simp only [step, inPhase, hr, hp, if_true, finishRun]
    repeat' split
    all_goals simp

/-- Nothing that others do prolongs a run. -/
theorem other_step (fx : Fixed) (σ : Sys) (e : Event) (he : e.progress = false)
    (hs : ∀ c o, e ≠ .start c o) : remaining (step fx σ e) ≤ remaining σ := by
  have hle : ∀ σ' : Sys, σ'.run = σ.run → remaining σ' ≤ remaining σ := by
    intro σ' h; simp [remaining, h]
  have hnone : ∀ σ' : Sys, σ'.run = none → remaining σ' ≤ remaining σ := by
    intro σ' h; simp [remaining, h]
  cases e <;> simp only [Event.progress, Bool.true_eq_false] at he
  case start => exact absurd rfl (hs _ _)
  all_goals
    simp only [step, inPhase, lookAt, crashRun]
    repeat' split
    all_goals first
      | exact Nat.le_refl _
      | exact hle _ rfl
      | exact hnone _ rfl

open Classical in
/-- Number of steps of the build in a schedule that have an effect. -/
noncomputable def effective (fx : Fixed) (σ : Sys) : List Event → Nat
  | [] => 0
  | e :: l =>
    (if e.progress = true ∧ step fx σ e ≠ σ then 1 else 0) + effective fx (step fx σ e) l

/-- C60: every schedule of a run makes at most `remaining` effective steps, whatever
happens to the files and to other tasks in between. -/
theorem C60_bounded (fx : Fixed) : ∀ (evs : List Event) (σ : Sys),
    (∀ c o, .start c o ∉ evs) →
    effective fx σ evs + remaining (steps fx σ evs) ≤ remaining σ := by
  intro evs
  induction evs with
  | nil => intro σ _; simp [effective, steps]
  | cons e l ih =>
    intro σ h
    have h2 := ih (step fx σ e) (fun c o he => h c o (List.mem_cons_of_mem _ he))
    simp only [effective, steps, List.foldl_cons] at h2 ⊢
    split
    · rename_i he
      have := (progress_step fx σ e he.1).resolve_left he.2
      omega
    · rename_i he
      have : remaining (step fx σ e) ≤ remaining σ := by
        cases hp : e.progress with
        | false => exact other_step fx σ e hp fun c o h' => h c o (h' ▸ List.mem_cons_self)
        | true =>
          rw [Classical.not_not.1 fun h' => he ⟨hp, h'⟩]
          exact Nat.le_refl _
      omega

/-- C60: a run that has not ended can make an effective step. -/
theorem C60_progress (fx : Fixed) (σ : Sys) (hr : σ.run.isSome = true) :
    ∃ e, e.progress = true ∧ step fx σ e ≠ σ := by
  obtain ⟨r, hr⟩ := Option.isSome_iff_exists.1 hr
  exact ⟨nextEvent r, next_progress r, next_effective fx σ r hr⟩

/-- A step that ends the run sets its result. -/
theorem ends_done (fx : Fixed) (σ : Sys) (e : Event) (he : e.progress = true)
    (h1 : σ.run.isSome = true) (h2 : (step fx σ e).run = none) :
    (step fx σ e).done.isSome = true := by
  obtain ⟨r, hr⟩ := Option.isSome_iff_exists.1 h1
  revert h2
  cases e <;> simp only [Event.progress, Bool.false_eq_true] at he <;>
    simp only [step, inPhase, hr, Sys.put, lookAt, pchTask, pchExec, objTask, execObj, addObj, linkTask, linkExec,
      finishRun] <;> repeat' split
  all_goals first
    | (intro h; rw [hr] at h; simp at h; done)
    | (intro h; simp at h; done)
    | (intro _; rfl)

/-- C60: from every state in which a run is active it can be completed. -/
theorem C60_completes (fx : Fixed) (σ : Sys) (hr : σ.run.isSome = true) :
    ∃ evs, (∀ e ∈ evs, e.progress = true) ∧ evs.length ≤ remaining σ ∧
      (steps fx σ evs).run = none ∧ (steps fx σ evs).done.isSome = true := by
  suffices h : ∀ n (σ : Sys), remaining σ ≤ n → σ.run.isSome = true →
      ∃ evs, (∀ e ∈ evs, e.progress = true) ∧ evs.length ≤ remaining σ ∧
      (steps fx σ evs).run = none ∧ (steps fx σ evs).done.isSome = true from
    h _ σ (Nat.le_refl _) hr
  intro n
  induction n with
  | zero =>
    intro σ hn hr
    obtain ⟨r, hr⟩ := Option.isSome_iff_exists.1 hr
    exfalso
    simp only [remaining, hr] at hn
    split at hn <;> omega
  | succ n ih =>
    intro σ hn hr
    obtain ⟨r, hr'⟩ := Option.isSome_iff_exists.1 hr
    have hp := next_progress r
    rcases progress_step fx σ (nextEvent r) hp with h | h
    · exact absurd h (next_effective fx σ r hr')
    · cases hrun : (step fx σ (nextEvent r)).run with
      | none =>
        exact ⟨[nextEvent r], by simpa using hp, by simp; omega, hrun,
          ends_done fx σ _ hp hr hrun⟩
      | some r' =>
        obtain ⟨evs, h1, h2, h3, h4⟩ := ih (step fx σ (nextEvent r)) (by omega) (by simp [hrun])
        refine ⟨nextEvent r :: evs, ?_, by simp; omega, h3, h4⟩
        intro e he
        rcases List.mem_cons.1 he with rfl | he
        · exact hp
        · exact h1 e he

/-- A run of two sources with a PCH: at most ten steps, which `exFull` makes. -/
example : remaining (steps exFixed Sys.init (exFiles ++ [.start exCfg exOrder])) = 10 ∧
    exFull.length = 10 ∧
    (steps exFixed Sys.init (exFiles ++ .start exCfg exOrder :: exFull)).done
      = some ⟨exCfg, true, true⟩ := by decide +kernel

end Verif.Target
