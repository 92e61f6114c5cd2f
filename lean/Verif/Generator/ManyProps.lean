import Verif.Generator.ManySteps
import Verif.Generator.Examples

/-!
# C103: several processes run one generator at the same time

Vocabulary: `Many.lean`.
-/

namespace Verif.Generator
open Verif Verif.Schema Verif.Json
open Verif.Target (Reads fileHash upd)

/-- C103.  Any number of processes run one generator in one build directory, without any lock.
They all use one configuration; files are edited only while no process runs, with new stamps; no
callback fails and no process is killed while one of its callbacks runs.  Processes start, fail
in other ways and are killed otherwise at any time, also while they write the state file or while
another one reads it.  Whenever a process has ended with SUCCESS and no file was changed since it
started, every id whose callback does not run in some other process is up to date; so is every id
once those have ended.

Partial: without the conditions on edits, configurations, failed callbacks and kills it is false
(`C103_edit_false`, `C103_configurations_false`, `C103_failure_false`, `C103_killed_false`). -/
theorem C103_concurrent_partial (c : Cfg) (hn : (keys c).Nodup) (evs : List MEvent)
    (ht : Together c Many.init evs) (k : Nat) (hk : Succeeded (msteps Many.init evs) k)
    (id : Str) (i : IdCfg) (hi : find id c = some i)
    (hc : ∀ j, ¬ Calling (msteps Many.init evs) j id) : UpToDate (msteps Many.init evs) id i := by
  obtain ⟨d, h1, h2, h3⟩ := hk
  rcases (MInv.steps hn evs (MInv.init c) ht).done k d h1 h2 h3 id i hi with ⟨j, h⟩ | h
  · exact absurd h (hc j)
  · exact h

/-! ## Processes do not influence each other's course -/

/-- The events of process `k`. -/
def eventsOf (k : Nat) (evs : List MEvent) : List Event :=
  evs.filterMap fun e =>
    match e with
    | .act j e =>
      match e with
      | .edit _ _ | .delete _ | .dropState => none
      | e => if j = k then some e else none
    | _ => none

/-- The event starts no run of process `k` and changes no file from outside. -/
def MEvent.keeps (k : Nat) : MEvent → Bool
  | .edit _ _ | .delete _ => false
  | .dropState => true
  | .act j e =>
    match e with
    | .start _ => j ≠ k
    | _ => true
  | .startDuring j _ _ _ _ => j ≠ k

/-- The event is one of a running process. -/
def Event.inside : Event → Bool
  | .edit _ _ | .delete _ | .dropState | .start _ => false
  | _ => true

/-- Two systems in which a process is in the same state. -/
structure SameProc (σ σ' : Sys) : Prop where
  files : σ.files = σ'.files
  seen : σ.seen = σ'.seen
  view : σ.view = σ'.view
  run : σ.run = σ'.run
  ok : σ.ok = σ'.ok
  log : σ.log = σ'.log
  done : σ.done = σ'.done

/-- A step of a process depends on the process and on the input files only. -/
theorem SameProc.step {σ σ' : Sys} (h : SameProc σ σ') (e : Event) (he : e.inside = true) :
    SameProc (step σ e) (step σ' e) := by
  obtain ⟨f, u, se, vi, la, sf, ru, ok, lo, dn, ls⟩ := σ
  obtain ⟨f', u', se', vi', la', sf', ru', ok', lo', dn', ls'⟩ := σ'
  obtain ⟨h0, h1, h2, h3, h4, h5, h6⟩ := h
  simp only at h0 h1 h2 h3 h4 h5 h6
  subst h0 h1 h2 h3 h4 h5 h6
  cases e <;> simp only [Event.inside, Bool.false_eq_true] at he
  case finish o b =>
    simp only [Generator.step, inRun]
    cases ru with
    | none => exact ⟨rfl, rfl, rfl, rfl, rfl, rfl, rfl⟩
    | some r =>
      simp only
      split
      · simp only [finishRun]
        split
        · cases toStore f r o with
          | none => exact ⟨rfl, rfl, rfl, rfl, rfl, rfl, rfl⟩
          | some s =>
            simp only
            cases genText s with
            | none =>
              simp only [storeText]
              exact ⟨rfl, rfl, rfl, rfl, rfl, rfl, rfl⟩
            | some t =>
              cases b
              · simp only [storeText, Bool.false_eq_true, if_false]
                exact ⟨rfl, rfl, rfl, rfl, rfl, rfl, rfl⟩
              · simp only [storeText, if_true]
                exact ⟨rfl, rfl, rfl, rfl, rfl, rfl, rfl⟩
        · exact ⟨rfl, rfl, rfl, rfl, rfl, rfl, rfl⟩
      · exact ⟨rfl, rfl, rfl, rfl, rfl, rfl, rfl⟩
  all_goals
    simp only [Generator.step, inRun, beginRun, taskRun, callRun, lookAt, crashRun, Sys.fail]
    repeat' split
    all_goals exact ⟨rfl, rfl, rfl, rfl, rfl, rfl, rfl⟩

/-- Events of processes do not change files. -/
theorem mstep_files (m : Many) (j : Nat) (e : Event) : (mstep m (.act j e)).files = m.files := by
  have hs : ∀ (σ : Sys), e.inside = true ∨ (∃ c, e = .start c) → (step σ e).files = σ.files := by
    intro σ he
    cases e <;> simp only [Event.inside, Bool.false_eq_true, false_or, reduceCtorEq, exists_false] at he
    all_goals
      simp only [step, startRun, inRun, beginRun, taskRun, callRun, lookAt, finishRun, crashRun, Sys.fail]
      repeat' split
      all_goals rfl
  cases e
  case edit => rfl
  case delete => rfl
  case dropState => rfl
  case crash o w => exact hs _ (.inl rfl)
  case start c => exact hs _ (.inr ⟨c, rfl⟩)
  all_goals exact hs _ (.inl rfl)

/-- Events of other processes leave a process alone. -/
theorem mstep_other (m : Many) {j k : Nat} (e : Event) (h : j ≠ k) :
    (mstep m (.act j e)).procs k = m.procs k := by
  have h' : ¬ k = j := fun e => h e.symm
  cases e <;> simp only [mstep, Many.take, Many.broken, if_neg h']

theorem independent_steps (k : Nat) (evs : List MEvent) : ∀ (m : Many) (σ : Sys),
    (∀ e ∈ evs, e.keeps k = true) → SameProc (m.sys k) σ →
    SameProc ((msteps m evs).sys k) (steps σ (eventsOf k evs)) := by
  induction evs with
  | nil => intro m σ _ h; exact h
  | cons e evs ih =>
    intro m σ hk h
    have hke := hk e List.mem_cons_self
    have hk' : ∀ e ∈ evs, e.keeps k = true := fun e he => hk e (List.mem_cons_of_mem _ he)
    have hsame : ∀ {m' : Many}, m'.files = m.files → m'.procs k = m.procs k → SameProc (m'.sys k) σ := by
      intro m' h1 h2
      obtain ⟨g0, g1, g2, g3, g4, g5, g6⟩ := h
      refine ⟨h1.trans g0, ?_, ?_, ?_, ?_, ?_, ?_⟩
      all_goals
        simp only [Many.sys, Many.at, h2]
        assumption
    cases e with
    | edit p t => simp [MEvent.keeps] at hke
    | delete p => simp [MEvent.keeps] at hke
    | dropState => exact ih _ σ hk' (hsame rfl rfl)
    | startDuring j i n o c =>
      have hj : j ≠ k := by simpa [MEvent.keeps] using hke
      refine ih _ σ hk' (hsame ?_ ?_)
      · simp only [mstep, Many.take, step, startRun]
        repeat' split
        all_goals rfl
      · simp only [mstep, Many.take, if_neg fun e : k = j => hj e.symm]
    | act j e =>
      by_cases hj : j = k
      · subst hj
        have key : e.inside = true → SameProc ((mstep m (.act j e)).sys j) (step σ e) := by
          intro he
          have h1 : SameProc ((mstep m (.act j e)).sys j) (step (m.sys j) e) := by
            cases e <;> simp only [Event.inside, Bool.false_eq_true] at he
            case crash o w =>
              have h2 : SameProc (step ((m.broken j).sys j) (.crash o w)) (step (m.sys j) (.crash o w)) :=
                SameProc.step (σ := (m.broken j).sys j) (σ' := m.sys j) ⟨rfl, rfl, rfl, rfl, rfl, rfl, rfl⟩ _ rfl
              obtain ⟨g0, g1, g2, g3, g4, g5, g6⟩ := h2
              refine ⟨g0, ?_, ?_, ?_, ?_, ?_, ?_⟩
              all_goals
                simp only [mstep, Many.sys, Many.at, Many.take, if_pos, Sys.proc]
                assumption
            all_goals
              refine ⟨rfl, ?_, ?_, ?_, ?_, ?_, ?_⟩
              all_goals simp only [mstep, Many.sys, Many.at, Many.take, if_pos, Sys.proc]
          have h2 := h.step e he
          exact ⟨h1.files.trans h2.files, h1.seen.trans h2.seen, h1.view.trans h2.view,
            h1.run.trans h2.run, h1.ok.trans h2.ok, h1.log.trans h2.log, h1.done.trans h2.done⟩
        cases e
        case edit => exact ih _ σ hk' (hsame rfl rfl)
        case delete => exact ih _ σ hk' (hsame rfl rfl)
        case dropState => exact ih _ σ hk' (hsame rfl rfl)
        case start c => simp [MEvent.keeps] at hke
        all_goals
          have := ih _ _ hk' (key rfl)
          simpa only [eventsOf, List.filterMap_cons, if_pos, msteps, steps, List.foldl_cons] using this
      · have e1 : eventsOf k (.act j e :: evs) = eventsOf k evs := by
          cases e <;> simp [eventsOf, hj]
        rw [e1]
        exact ih _ σ hk' (hsame (mstep_files m j e) (mstep_other m e hj))

/-- C103.  While files are left alone, the course of a process (which callbacks it runs, what they
return, what it logs, its result) is what it is when no other process runs: whatever the others
do, including failed callbacks, kills and other configurations.  Only the contents of the files it
leaves may differ. -/
theorem C103_independent (m : Many) (k : Nat) (c : Cfg) (evs : List MEvent)
    (hk : ∀ e ∈ evs, e.keeps k = true) :
    ((msteps m (.act k (.start c) :: evs)).procs k).run =
        (steps (m.sys k) (.start c :: eventsOf k evs)).run ∧
      ((msteps m (.act k (.start c) :: evs)).procs k).ok =
        (steps (m.sys k) (.start c :: eventsOf k evs)).ok ∧
      ((msteps m (.act k (.start c) :: evs)).procs k).log =
        (steps (m.sys k) (.start c :: eventsOf k evs)).log ∧
      ((msteps m (.act k (.start c) :: evs)).procs k).done =
        (steps (m.sys k) (.start c :: eventsOf k evs)).done := by
  have h0 : SameProc ((mstep m (.act k (.start c))).sys k) (step (m.sys k) (.start c)) := by
    refine ⟨rfl, ?_, ?_, ?_, ?_, ?_, ?_⟩
    all_goals simp only [mstep, Many.sys, Many.at, Many.take, if_pos, Sys.proc]
  have h := independent_steps k evs _ _ hk h0
  exact ⟨h.run, h.ok, h.log, h.done⟩

end Verif.Generator
