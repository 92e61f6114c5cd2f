import Verif.Target.Order
import Verif.Target.Examples

/-!
# Order of commands, fail-stop and the task state (C09, C10, C11, C19, C58)

All theorems are about every history from nothing: any edits and deletions also while
the build runs, any schedule, any failures, any crashes.
-/

namespace Verif.Target
open Verif Verif.Command Verif.Schema Verif.Json

/-! ## C11 -/

/-- C11.  The commands of a run are: at most one PCH command, then compile commands,
then at most one link command. -/
theorem C11_phase_order (fx : Fixed) (evs : List Event) :
    ∃ A B C, commands (steps fx Sys.init evs).log = A ++ B ++ C ∧
      (A = [] ∨ ∃ b, A = [.pch b]) ∧ (∀ e ∈ B, ∃ p b, e = .obj p b) ∧
      (C = [] ∨ ∃ b, C = [.link b]) := by
  have h := (logInv_reach fx evs).idle
  generalize commands (steps fx Sys.init evs).log = l at h
  cases h with
  | fin1 h => exact ⟨l, [], [], by simp, h, by simp, .inl rfl⟩
  | @fin2 A B h h' => exact ⟨A, B, [], by simp, h.pre, h', .inl rfl⟩
  | @fin3 A B h h' b => exact ⟨A, B, _, rfl, h.pre, h'.objs, .inr ⟨b, rfl⟩⟩

/-- C11.  While a build runs, the state file does not change; when the state file
changes, no build runs afterwards, so that the state is written after the last command
of the build. -/
theorem C11_state_written_last (fx : Fixed) (evs : List Event) (e : Event)
    (h : (steps fx Sys.init (evs ++ [e])).stateFile ≠ (steps fx Sys.init evs).stateFile) :
    (steps fx Sys.init (evs ++ [e])).run = none ∧
    (e = .dropState ∧ (steps fx Sys.init evs).run = none ∨
      ∃ r, (steps fx Sys.init evs).run = some r ∧ r.phase = .fin ∧ r.dirty = true ∧
        ((∃ b, e = .finish b) ∨ ∃ w, e = .crash (some w))) := by
  rw [steps_append] at h ⊢
  generalize steps fx Sys.init evs = σ at h ⊢
  simp only [steps, List.foldl_cons, List.foldl_nil] at h ⊢
  cases e
  case dropState =>
    simp only [step] at h ⊢
    split
    · rename_i hr
      simp only [Option.isNone_iff_eq_none] at hr
      exact ⟨hr, .inl ⟨trivial, hr⟩⟩
    · rename_i hr; simp [hr] at h
  case finish b =>
    simp only [step, inPhase] at h ⊢
    split
    · rename_i r hr
      simp only [hr] at h
      split
      · rename_i hp
        rw [if_pos hp] at h
        simp only [finishRun] at h ⊢
        split
        · rename_i hd
          refine ⟨by split <;> rfl, .inr ⟨r, by first | rfl | exact hr, hp, hd, .inl ⟨_, rfl⟩⟩⟩
        · rename_i hd
          simp [hd] at h
      · rename_i hp; simp [hp] at h
    · rename_i hr; simp [hr] at h
  case crash w =>
    simp only [step] at h ⊢
    split
    · rename_i r hr
      simp only [hr] at h
      simp only [crashRun] at h ⊢
      split
      · simp at h
      · rename_i n
        split
        · rename_i hp hd ht
          simp only [hp, hd, ht] at h
          refine ⟨by split <;> rfl, .inr ⟨r, by first | rfl | exact hr, hp, hd, .inr ⟨_, rfl⟩⟩⟩
        · simp at h
    · rename_i hr; simp [hr] at h
  all_goals
    exfalso
    revert h
    simp only [step, inPhase, startRun, Sys.put, lookAt, pchTask, pchExec, objTask, execObj, addObj, linkTask,
      linkExec, Sys.fail]
    repeat' split
    all_goals simp

/-! ## C09 -/

/-- C09.  After a failed PCH command no compile and no link command runs; after a failed
compile command no link command runs. -/
theorem C09_no_later_command (fx : Fixed) (evs : List Event) :
    (Entry.pch false ∈ (steps fx Sys.init evs).log →
      ∀ e ∈ (steps fx Sys.init evs).log, (∀ p b, e ≠ .obj p b) ∧ ∀ b, e ≠ .link b) ∧
    ((∃ p, Entry.obj p false ∈ (steps fx Sys.init evs).log) →
      ∀ e ∈ (steps fx Sys.init evs).log, ∀ b, e ≠ .link b) := by
  have h := (logInv_reach fx evs).idle
  generalize (steps fx Sys.init evs).log = log at h
  have hc : ∀ e, e.isCommand = true → (e ∈ log ↔ e ∈ commands log) := by
    intro e he; simp [commands, he]
  have key : ∀ l, Shape .fin l →
      (Entry.pch false ∈ l → ∀ e ∈ l, (∀ p b, e ≠ .obj p b) ∧ ∀ b, e ≠ .link b) ∧
      ((∃ p, Entry.obj p false ∈ l) → ∀ e ∈ l, ∀ b, e ≠ .link b) := by
    intro l hl
    cases hl with
    | fin1 h =>
      rcases h with rfl | ⟨b, rfl⟩
      · simp
      · simp
    | @fin2 A B h h' =>
      refine ⟨fun hp => ?_, fun _ e he b hb => ?_⟩
      · rcases List.mem_append.1 hp with hp | hp
        · rcases h with rfl | rfl <;> simp at hp
        · obtain ⟨p, b, hp⟩ := h' _ hp; simp at hp
      · rcases List.mem_append.1 he with he | he
        · rcases h with rfl | rfl <;> simp_all
        · obtain ⟨p, b', hp⟩ := h' _ he; simp [hp] at hb
    | @fin3 A B h h' b =>
      have hno : ∀ e ∈ A ++ B ++ [Entry.link b], e ≠ .pch false ∧ ∀ p, e ≠ .obj p false := by
        intro e he
        rcases List.mem_append.1 he with he | he
        · rcases List.mem_append.1 he with he | he
          · rcases h with rfl | rfl <;> simp_all
          · obtain ⟨p, hp⟩ := h' _ he; simp [hp]
        · simp [List.mem_singleton.1 he]
      exact ⟨fun hp => absurd rfl (hno _ hp).1, fun ⟨p, hp⟩ => absurd rfl ((hno _ hp).2 p)⟩
  obtain ⟨k1, k2⟩ := key _ h
  refine ⟨fun hp e he => ⟨fun p b hb => ?_, fun b hb => ?_⟩, fun ⟨p, hp⟩ e he b hb => ?_⟩
  · rw [hc _ rfl] at hp
    rw [hb, hc _ rfl] at he
    exact (k1 hp _ he).1 p b rfl
  · rw [hc _ rfl] at hp
    rw [hb, hc _ rfl] at he
    exact (k1 hp _ he).2 b rfl
  · rw [hc _ rfl] at hp
    rw [hb, hc _ rfl] at he
    exact k2 ⟨p, hp⟩ _ he b rfl

/-- Commands that may still run when the task state becomes FAILURE while the target is
at this point: only those that were already decided. -/
def InProgress (r : Run) : Entry → Prop
  | .pch _ => r.phase = .pchRun
  | .obj p _ => r.phase = .objRun ∧ p ∈ paths r.pending
  | .link _ => r.phase = .linkRun
  | _ => False

/-- Invariant after a failure at point `r₀`. -/
structure Stopped (r₀ : Run) (l₀ : List Entry) (σ : Sys) : Prop where
  ok : σ.ok = false
  log : ∃ l, commands σ.log = l₀ ++ l ∧ (∀ e ∈ l, InProgress r₀ e) ∧
    (∀ r, σ.run = some r → (r.phase = .pchRun ∨ r.phase = .linkRun) → l = [])
  run : ∀ r, σ.run = some r → (r.phase = .pchRun → r₀.phase = .pchRun) ∧
    (r.phase = .objRun → r₀.phase = .objRun ∧ ∀ i ∈ r.pending, i.path ∈ paths r₀.pending) ∧
    (r.phase = .linkRun → r₀.phase = .linkRun)

theorem Stopped.same {r₀ : Run} {l₀ : List Entry} {σ σ' : Sys} (h : Stopped r₀ l₀ σ)
    (h1 : σ'.ok = σ.ok) (h2 : commands σ'.log = commands σ.log) (h3 : σ'.run = σ.run) :
    Stopped r₀ l₀ σ' :=
  ⟨h1.trans h.ok, by rw [h2, h3]; exact h.log, by rw [h3]; exact h.run⟩

/-- The run moves on without a command. -/
theorem Stopped.move {r₀ : Run} {l₀ : List Entry} {σ σ' : Sys} (h : Stopped r₀ l₀ σ)
    (h1 : σ'.ok = false) (h2 : commands σ'.log = commands σ.log)
    (h3 : ∀ r, σ'.run = some r → r.phase = .obj ∨ r.phase = .link ∨ r.phase = .fin) :
    Stopped r₀ l₀ σ' := by
  obtain ⟨l, hl, hl', -⟩ := h.log
  refine ⟨h1, ⟨l, by rw [h2, hl], hl', ?_⟩, ?_⟩
  · intro r hr hp
    rcases h3 r hr with h | h | h <;> simp [h] at hp
  · intro r hr
    rcases h3 r hr with h | h | h <;> simp [h]

theorem stopped_step (fx : Fixed) (r₀ : Run) (l₀ : List Entry) (σ : Sys) (e : Event)
    (he : e.isStart = false) (h : Stopped r₀ l₀ σ) : Stopped r₀ l₀ (step fx σ e) := by
  have hok := h.ok
  cases e
  case start => simp [Event.isStart] at he
  case otherFail =>
    simp only [step]
    split
    · exact h.same (by simp [Sys.fail, hok]) (by simp [Sys.fail, commands, Entry.isCommand]) rfl
    · exact h
  case pchTask =>
    simp only [step, inPhase]
    split
    · split
      · simp only [pchTask, settle_ok, hok, Bool.not_false, if_true]
        exact h.move rfl rfl (by simp)
      · exact h
    · exact h
  case objTask =>
    simp only [step, inPhase]
    split
    · split
      · simp only [objTask, settle_ok, hok, Bool.not_false, if_true]
        exact h.move rfl rfl (by simp)
      · exact h
    · exact h
  case linkTask =>
    simp only [step]
    split
    · split
      · simp only [linkTask, settle_ok, hok, Bool.not_false, if_true]
        exact h.move rfl rfl (by simp)
      · exact h
    · exact h
  case pchExec ok junk =>
    simp only [step, inPhase]
    split
    · rename_i r hr
      split
      · rename_i hp
        obtain ⟨l, hl, hl', hl0⟩ := h.log
        have h0 : l = [] := hl0 r hr (.inl hp)
        have hr0 := (h.run r hr).1 hp
        rw [h0, List.append_nil] at hl
        simp only [pchExec]
        split
        · refine ⟨hok, ⟨[.pch true], by simp only [commands_append, hl]; rfl,
            by simpa [InProgress] using hr0, by simp⟩, by simp⟩
        · refine ⟨rfl, ⟨[.pch false], ?_, by simpa [InProgress] using hr0, by simp⟩, by simp⟩
          simp only [Sys.fail, commands_append, hl]; rfl
      · exact h
    · exact h
  case linkExec ok junk =>
    simp only [step, inPhase]
    split
    · rename_i r hr
      split
      · rename_i hp
        obtain ⟨l, hl, hl', hl0⟩ := h.log
        have h0 : l = [] := hl0 r hr (.inr hp)
        have hr0 := (h.run r hr).2.2 hp
        rw [h0, List.append_nil] at hl
        simp only [linkExec]
        split
        · refine ⟨hok, ⟨[.link true], by simp only [commands_append, hl]; rfl,
            by simpa [InProgress] using hr0, by simp⟩, by simp⟩
        · refine ⟨rfl, ⟨[.link false], ?_, by simpa [InProgress] using hr0, by simp⟩, by simp⟩
          simp only [Sys.fail, commands_append, hl]; rfl
      · exact h
    · exact h
  case exec k ok junk =>
    simp only [step, inPhase]
    split
    · rename_i r hr
      split
      · rename_i hp
        obtain ⟨l, hl, hl', hl0⟩ := h.log
        obtain ⟨hr0, hpe⟩ := (h.run r hr).2.1 hp
        simp only [execObj]
        split
        · exact h
        · rename_i i hk
          have hi : i ∈ r.pending := List.mem_of_getElem? hk
          have hip : ∀ b, ∀ e ∈ l ++ [.obj i.path b], InProgress r₀ e := by
            intro b e he
            rcases List.mem_append.1 he with he | he
            · exact hl' e he
            · rw [List.mem_singleton.1 he]; exact ⟨hr0, hpe i hi⟩
          have hrun : ∀ j ∈ r.pending.eraseIdx k, j.path ∈ paths r₀.pending := fun j hj =>
            hpe j (List.mem_of_mem_eraseIdx hj)
          split
          · refine ⟨hok, ⟨l ++ [.obj i.path true], ?_, hip true, by simp [hp]⟩, ?_⟩
            · simp only [commands_append, hl, List.append_assoc]; rfl
            · intro r' hr'
              simp only [Option.some.injEq] at hr'
              subst hr'
              exact ⟨by simp [hp], fun _ => ⟨hr0, hrun⟩, by simp [hp]⟩
          · refine ⟨rfl, ⟨l ++ [.obj i.path false], ?_, hip false, by simp [hp]⟩, ?_⟩
            · simp only [Sys.fail, commands_append, hl, List.append_assoc]; rfl
            · intro r' hr'
              simp only [Option.some.injEq] at hr'
              subst hr'
              exact ⟨by simp [hp], fun _ => ⟨hr0, hrun⟩, by simp [hp]⟩
      · exact h
    · exact h
  case add k =>
    simp only [step, inPhase]
    split
    · rename_i r hr
      split
      · rename_i hp
        obtain ⟨l, hl, hl', hl0⟩ := h.log
        simp only [addObj]
        split
        · exact h
        · refine ⟨hok, ⟨l, hl, hl', by simp [hp]⟩, ?_⟩
          intro r' hr'
          simp only [Option.some.injEq] at hr'
          subst hr'
          exact ⟨by simp [hp], (h.run r hr).2.1, by simp [hp]⟩
      · exact h
    · exact h
  case finish b =>
    simp only [step, inPhase]
    split
    · split
      · simp only [finishRun]
        split
        · split
          · exact h.move hok rfl (by simp)
          · exact h.move rfl (by simp [Sys.fail, commands, Entry.isCommand]) (by simp)
        · exact h.move hok rfl (by simp)
      · exact h
    · exact h
  case crash w =>
    simp only [step]
    split
    · simp only [crashRun]
      repeat' split
      all_goals exact h.move hok rfl (by simp)
    · exact h
  case dropState => simp only [step]; split <;> exact h.same rfl rfl rfl
  case look p v => simp only [step, lookAt]; split <;> exact h.same rfl rfl rfl
  all_goals exact h.same rfl rfl rfl

theorem stopped_steps (fx : Fixed) (r₀ : Run) (l₀ : List Entry) (evs : List Event) :
    ∀ σ, (∀ e ∈ evs, e.isStart = false) → Stopped r₀ l₀ σ → Stopped r₀ l₀ (steps fx σ evs) := by
  induction evs with
  | nil => intro σ _ h; exact h
  | cons e l ih =>
    intro σ he h
    exact ih _ (fun e' h' => he e' (List.mem_cons_of_mem _ h'))
      (stopped_step fx r₀ l₀ σ e (he e List.mem_cons_self) h)

/-- C09.  When the task state is FAILURE, for whatever reason and also because of another
target, only commands that were already handed to the executor may still run: no phase
of this target begins. -/
theorem C09_fail_stop (fx : Fixed) (pre evs : List Event) (r : Run)
    (hr : (steps fx Sys.init pre).run = some r) (hf : (steps fx Sys.init pre).ok = false)
    (hs : ∀ e ∈ evs, e.isStart = false) :
    ∃ l, commands (steps fx Sys.init (pre ++ evs)).log = commands (steps fx Sys.init pre).log ++ l ∧
      ∀ e ∈ l, InProgress r e := by
  rw [steps_append]
  have h0 : Stopped r (commands (steps fx Sys.init pre).log) (steps fx Sys.init pre) := by
    refine ⟨hf, ⟨[], by simp, by simp, by simp⟩, ?_⟩
    intro r' hr'
    rw [hr] at hr'
    cases hr'
    exact ⟨id, fun h => ⟨h, fun i hi => List.mem_map.2 ⟨i, hi, rfl⟩⟩, id⟩
  obtain ⟨l, h1, h2, -⟩ := (stopped_steps fx r _ evs _ hs h0).log
  exact ⟨l, h1, h2⟩

/-! ## C10, C58 -/

/-- C10.  A finished run reports SUCCESS exactly when its record contains no failed
command, no missing file, no failure to store and no failure elsewhere. -/
theorem C10_failure_reported (fx : Fixed) (evs : List Event) (d : Done)
    (hd : (steps fx Sys.init evs).done = some d) :
    d.ok = true ↔ ∀ e ∈ (steps fx Sys.init evs).log, e.failed = false := by
  have h := logInv_reach fx evs
  rw [h.done d hd, h.ok]
  simp

/-- C58.  Whatever happens, the task state of a run goes back to SUCCESS only with the
start of the next run. -/
theorem C58_failure_is_final (fx : Fixed) (pre evs : List Event)
    (hf : (steps fx Sys.init pre).ok = false) (hs : ∀ e ∈ evs, e.isStart = false) :
    (steps fx Sys.init (pre ++ evs)).ok = false := by
  rw [steps_append]
  generalize steps fx Sys.init pre = σ at hf
  induction evs generalizing σ with
  | nil => exact hf
  | cons e l ih =>
    refine ih (fun e' h' => hs e' (List.mem_cons_of_mem _ h')) (step fx σ e) ?_
    have he := hs e List.mem_cons_self
    cases e
    case start => simp [Event.isStart] at he
    all_goals simp only [step, inPhase, Sys.put, lookAt, pchTask, pchExec, objTask, execObj, addObj, linkTask, linkExec,
      finishRun, crashRun, Sys.fail]
    all_goals repeat' split
    all_goals first | exact hf | rfl

/-! ## C19 -/

/-- C19.  If the state cannot be stored, because a string in it is not UTF-8 or the
file cannot be opened, the run reports FAILURE, the target does not count as built, and
the old state file is still there. -/
theorem C19_store_failure_reported (fx : Fixed) (evs : List Event) (r : Run) (canOpen : Bool)
    (hr : (steps fx Sys.init evs).run = some r) (hp : r.phase = .fin) (hd : r.dirty = true)
    (hs : canOpen = false ∨ targetText r.toStore = none) :
    (steps fx Sys.init (evs ++ [.finish canOpen])).done = some ⟨r.cfg, false, false⟩ ∧
    (steps fx Sys.init (evs ++ [.finish canOpen])).ok = false ∧
    (steps fx Sys.init (evs ++ [.finish canOpen])).stateFile = (steps fx Sys.init evs).stateFile := by
  rw [steps_append]
  generalize steps fx Sys.init evs = σ at hr
  simp only [steps, List.foldl_cons, List.foldl_nil, step, inPhase, hr, hp, if_true, finishRun, hd,
    storeText]
  rcases hs with hs | hs
  · rw [hs]
    cases targetText r.toStore <;> simp [Sys.fail]
  · rw [hs]
    cases canOpen <;> simp [Sys.fail]

/-! ## The hypotheses are met -/

/-- A compile command fails while another one is still running: the other one ends, the
link command does not run. -/
def exFailing : List Event :=
  exFiles ++ [.start exCfg exOrder, .pchTask, .pchExec true none, .objTask, .exec 1 false none]

example : (steps exFixed Sys.init exFailing).ok = false ∧
    (steps exFixed Sys.init exFailing).run.isSome = true ∧
    (steps exFixed Sys.init (exFailing ++ [.exec 0 true none, .add 0, .linkTask, .linkExec true none,
      .finish true])).log =
      [.pch true, .obj b!"/p/src/util.c" false, .obj b!"/p/src/main.cpp" true] ∧
    (steps exFixed Sys.init (exFailing ++ [.exec 0 true none, .add 0, .linkTask, .linkExec true none,
      .finish true])).done = some ⟨exCfg, false, true⟩ := by decide +kernel

example : Entry.obj b!"/p/src/util.c" false ∈ (steps exFixed Sys.init exFailing).log := by
  decide +kernel

/-- A PCH command fails. -/
example : Entry.pch false ∈ (steps exFixed Sys.init (exFiles ++
    [.start exCfg exOrder, .pchTask, .pchExec false none, .objTask, .linkTask, .finish true])).log := by
  decide +kernel

/-- A run whose state cannot be stored, because a flag is not UTF-8. -/
def exBadFlag : TargetSchema := { exPlain with linkFlags := [[255]] }

example : ∃ r, (steps exFixed Sys.init (exFiles ++ [.start exBadFlag exOrder, .objTask,
      .exec 0 true none, .exec 0 true none, .add 0, .add 0, .linkTask, .linkExec true none])).run
      = some r ∧ r.phase = .fin ∧ r.dirty = true ∧ targetText r.toStore = none := by
  refine ⟨_, Option.eq_some_of_isSome (by decide +kernel), ?_⟩
  decide +kernel

/-- The state file does change at the end of a run. -/
example : (steps exFixed Sys.init (exFiles ++ .start exCfg exOrder :: exFull.dropLast ++
      [.finish true])).stateFile
    ≠ (steps exFixed Sys.init (exFiles ++ .start exCfg exOrder :: exFull.dropLast)).stateFile := by
  decide +kernel

end Verif.Target
