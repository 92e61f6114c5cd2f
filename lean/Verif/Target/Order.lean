import Verif.Target.Discipline

/-! # Order of commands and task state, for every history -/

namespace Verif.Target
open Verif Verif.Command Verif.Schema Verif.Json

/-- The entry is a command of this target. -/
def Entry.isCommand : Entry → Bool
  | .pch _ | .obj _ _ | .link _ => true
  | _ => false

/-- The commands of a run in the order in which they ended. -/
def commands (log : List Entry) : List Entry := log.filter Entry.isCommand

theorem commands_append (a b : List Entry) : commands (a ++ b) = commands a ++ commands b := by
  simp [commands]

def Pre (A : List Entry) : Prop := A = [] ∨ ∃ b, A = [.pch b]
def PreOk (A : List Entry) : Prop := A = [] ∨ A = [.pch true]
def Objs (B : List Entry) : Prop := ∀ e ∈ B, ∃ p b, e = .obj p b
def ObjsOk (B : List Entry) : Prop := ∀ e ∈ B, ∃ p, e = .obj p true

theorem PreOk.pre {A : List Entry} (h : PreOk A) : Pre A := by
  rcases h with h | h
  · exact .inl h
  · exact .inr ⟨true, h⟩

theorem ObjsOk.objs {B : List Entry} (h : ObjsOk B) : Objs B := fun e he => by
  obtain ⟨p, hp⟩ := h e he; exact ⟨p, true, hp⟩

/-- Commands of a run that has not ended its link task, or of one that has. -/
inductive Shape : Phase → List Entry → Prop
  | pch : Shape .pch []
  | pchRun : Shape .pchRun []
  | obj {A} (h : Pre A) : Shape .obj A
  | objRun {A B} (h : PreOk A) (h' : Objs B) : Shape .objRun (A ++ B)
  | link {A} (h : Pre A) : Shape .link A
  | linkRun {A B} (h : PreOk A) (h' : ObjsOk B) : Shape .linkRun (A ++ B)
  | fin1 {A} (h : Pre A) : Shape .fin A
  | fin2 {A B} (h : PreOk A) (h' : Objs B) : Shape .fin (A ++ B)
  | fin3 {A B} (h : PreOk A) (h' : ObjsOk B) (b : Bool) : Shape .fin (A ++ B ++ [.link b])

theorem Shape.fin {ph : Phase} {l : List Entry} (h : Shape ph l) : Shape .fin l := by
  cases h with
  | pch => exact .fin1 (.inl rfl)
  | pchRun => exact .fin1 (.inl rfl)
  | obj h => exact .fin1 h
  | objRun h h' => exact .fin2 h h'
  | link h => exact .fin1 h
  | linkRun h h' => exact .fin2 h h'.objs
  | fin1 h => exact .fin1 h
  | fin2 h h' => exact .fin2 h h'
  | fin3 h h' b => exact .fin3 h h' b

/-- Invariant of the log. -/
structure LogInv (σ : Sys) : Prop where
  ok : σ.ok = !σ.log.any Entry.failed
  run : ∀ r, σ.run = some r → Shape r.phase (commands σ.log)
  idle : Shape .fin (commands σ.log)
  done : ∀ d, σ.done = some d → d.ok = σ.ok

theorem LogInv.of_run {σ : Sys} {r : Run} (h1 : σ.ok = !σ.log.any Entry.failed)
    (h2 : σ.run = some r) (h3 : Shape r.phase (commands σ.log)) (h4 : σ.done = none) : LogInv σ :=
  ⟨h1, fun r' hr => by rw [h2] at hr; cases hr; exact h3, h3.fin, by simp [h4]⟩

theorem LogInv.of_idle {σ : Sys} (h1 : σ.ok = !σ.log.any Entry.failed)
    (h2 : σ.run = none) (h3 : Shape .fin (commands σ.log))
    (h4 : ∀ d, σ.done = some d → d.ok = σ.ok) : LogInv σ :=
  ⟨h1, fun r' hr => by simp [h2] at hr, h3, h4⟩

theorem allOk_of_ok {σ : Sys} (h : LogInv σ) (ho : σ.ok = true) :
    ∀ e ∈ commands σ.log, e.failed = false := by
  intro e he
  have := h.ok
  rw [ho] at this
  simp only [Bool.true_eq, Bool.not_eq_true', List.any_eq_false] at this
  simpa using this e (List.mem_filter.1 he).1

theorem preOk_of {A : List Entry} (h : Pre A) (ho : ∀ e ∈ A, e.failed = false) : PreOk A := by
  rcases h with h | ⟨b, h⟩
  · exact .inl h
  · have := ho (.pch b) (by simp [h])
    simp only [Entry.failed, Bool.not_eq_false'] at this
    exact .inr (by rw [h, this])

theorem objsOk_of {B : List Entry} (h : Objs B) (ho : ∀ e ∈ B, e.failed = false) : ObjsOk B := by
  intro e he
  obtain ⟨p, b, hp⟩ := h e he
  have := ho e he
  rw [hp] at this ⊢
  simp only [Entry.failed, Bool.not_eq_false'] at this
  exact ⟨p, by rw [this]⟩

/-- A build in progress has no outcome yet. -/
def NoDone (σ : Sys) : Prop := σ.run.isSome = true → σ.done = none

theorem noDone_step (fx : Fixed) (σ : Sys) (e : Event) (h : NoDone σ) : NoDone (step fx σ e) := by
  unfold NoDone at *
  cases e
  all_goals simp only [step, inPhase, startRun, Sys.put, lookAt, pchTask, pchExec, objTask, execObj, addObj, linkTask,
    linkExec, finishRun, crashRun, Sys.fail]
  all_goals repeat' split
  all_goals simp_all

theorem noDone_steps (fx : Fixed) (evs : List Event) : ∀ σ, NoDone σ → NoDone (steps fx σ evs) := by
  induction evs with
  | nil => intro σ h; exact h
  | cons e l ih => intro σ h; exact ih _ (noDone_step fx σ e h)

/-- Events that only touch files. -/
theorem LogInv.same {σ σ' : Sys} (h : LogInv σ) (h1 : σ'.ok = σ.ok) (h2 : σ'.log = σ.log)
    (h3 : σ'.run = σ.run) (h4 : σ'.done = σ.done) : LogInv σ' :=
  ⟨by rw [h1, h2]; exact h.ok, by rw [h3, h2]; exact h.run, by rw [h2]; exact h.idle,
    by rw [h4, h1]; exact h.done⟩

theorem shape_inv {ph : Phase} {l : List Entry} (h : Shape ph l) : match ph with
    | .pch => l = []
    | .pchRun => l = []
    | .obj => Pre l
    | .objRun => ∃ A B, PreOk A ∧ Objs B ∧ l = A ++ B
    | .link => Pre l
    | .linkRun => ∃ A B, PreOk A ∧ ObjsOk B ∧ l = A ++ B
    | .fin => Shape .fin l := by
  cases h with
  | pch => rfl
  | pchRun => rfl
  | obj h => exact h
  | objRun h h' => exact ⟨_, _, h, h', rfl⟩
  | link h => exact h
  | linkRun h h' => exact ⟨_, _, h, h', rfl⟩
  | fin1 h => exact .fin1 h
  | fin2 h h' => exact .fin2 h h'
  | fin3 h h' b => exact .fin3 h h' b

theorem logInv_step (fx : Fixed) (σ : Sys) (e : Event) (h : LogInv σ) (hn : NoDone σ) :
    LogInv (step fx σ e) := by
  cases e
  case otherFail =>
    simp only [step]
    split
    · rename_i hs
      obtain ⟨r, hr⟩ := Option.isSome_iff_exists.1 hs
      refine .of_run (r := r) (by simp [Sys.fail, Entry.failed]) hr ?_ (hn hs)
      have := h.run r hr
      simpa [Sys.fail, commands, Entry.isCommand] using this
    · exact h
  case start c o =>
    simp only [step, startRun]
    split
    · exact h
    · split
      · refine .of_run (r := _) (by simp) rfl ?_ rfl
        show Shape (if c.pchs ≠ [] then .pch else .obj) []
        split
        · exact .pch
        · exact .obj (.inl rfl)
      · exact h
  case pchTask =>
    simp only [step, inPhase]
    split
    · rename_i r hr
      split
      · rename_i hp
        have h : LogInv σ.settle := h.same rfl rfl rfl rfl
        have hn : NoDone σ.settle := hn
        have hr : σ.settle.run = some r := hr
        generalize σ.settle = σ at h hn hr ⊢
        have hs : commands σ.log = [] := by have := h.run r hr; rw [hp] at this; exact shape_inv this
        have hd := hn (by simp [hr])
        simp only [pchTask]
        split
        · exact .of_run h.ok rfl (by rw [hs]; exact .obj (.inl rfl)) hd
        · split
          · refine .of_run (by simp [Sys.fail, Entry.failed]) rfl ?_ hd
            simp only [Sys.fail, commands_append, hs]; exact .obj (.inl rfl)
          · split
            · refine .of_run (by simp [Sys.fail, Entry.failed]) rfl ?_ hd
              simp only [Sys.fail, commands_append, hs]; exact .obj (.inl rfl)
            · split
              · exact .of_run h.ok rfl (by rw [hs]; exact .pchRun) hd
              · exact .of_run h.ok rfl (by rw [hs]; exact .obj (.inl rfl)) hd
      · exact h
    · exact h
  case pchExec ok junk =>
    simp only [step, inPhase]
    split
    · rename_i r hr
      split
      · rename_i hp
        have hs : commands σ.log = [] := by have := h.run r hr; rw [hp] at this; exact shape_inv this
        have hd := hn (by simp [hr])
        simp only [pchExec]
        split
        · refine .of_run ?_ rfl ?_ hd
          · simp [Entry.failed, h.ok]
          · simp only [commands_append, hs]; exact .obj (.inr ⟨true, rfl⟩)
        · refine .of_run (by simp [Sys.fail, Entry.failed]) rfl ?_ hd
          simp only [Sys.fail, commands_append, hs]; exact .obj (.inr ⟨false, rfl⟩)
      · exact h
    · exact h
  case objTask =>
    simp only [step, inPhase]
    split
    · rename_i r hr
      split
      · rename_i hp
        have h : LogInv σ.settle := h.same rfl rfl rfl rfl
        have hn : NoDone σ.settle := hn
        have hr : σ.settle.run = some r := hr
        generalize σ.settle = σ at h hn hr ⊢
        have hs : Pre (commands σ.log) := by have := h.run r hr; rw [hp] at this; exact shape_inv this
        have hd := hn (by simp [hr])
        have hl : ∀ ph, Shape .link (commands (σ.fail (.missing ph)).log) := by
          intro ph
          simp only [Sys.fail, commands_append]
          rw [show commands [Entry.missing ph] = [] from rfl, List.append_nil]
          exact .link hs
        simp only [objTask]
        split
        · exact .of_run h.ok rfl (.link hs) hd
        · rename_i ho
          have hok : PreOk (commands σ.log) :=
            preOk_of hs (allOk_of_ok h (by simpa using ho))
          split
          · exact .of_run (by simp [Sys.fail, Entry.failed]) rfl (hl _) hd
          · split
            · exact .of_run (by simp [Sys.fail, Entry.failed]) rfl (hl _) hd
            · split
              · exact .of_run (by simp [Sys.fail, Entry.failed]) rfl (hl _) hd
              · have : Shape .objRun (commands σ.log) := by
                  rw [← List.append_nil (commands σ.log)]
                  exact .objRun hok (by simp [Objs])
                split
                · exact .of_run h.ok rfl this hd
                · exact .of_run h.ok rfl this hd
      · exact h
    · exact h
  case exec k ok junk =>
    simp only [step, inPhase]
    split
    · rename_i r hr
      split
      · rename_i hp
        have hs := h.run r hr
        rw [hp] at hs
        obtain ⟨A, B, hA, hB, hs⟩ := shape_inv hs
        have hd := hn (by simp [hr])
        simp only [execObj]
        split
        · exact h
        · rename_i i _
          have hB' : ∀ b, Objs (B ++ [.obj i.path b]) := by
            intro b e he
            rcases List.mem_append.1 he with he | he
            · exact hB e he
            · exact ⟨_, _, List.mem_singleton.1 he⟩
          split
          · refine .of_run ?_ rfl ?_ hd
            · simp [Entry.failed, h.ok]
            · simp only [commands_append, hs, hp, List.append_assoc]
              exact .objRun hA (hB' true)
          · refine .of_run (by simp [Sys.fail, Entry.failed]) rfl ?_ hd
            simp only [Sys.fail, commands_append, hs, hp, List.append_assoc]
            exact .objRun hA (hB' false)
      · exact h
    · exact h
  case add k =>
    simp only [step, inPhase]
    split
    · rename_i r hr
      split
      · rename_i hp
        simp only [addObj]
        split
        · exact h
        · refine .of_run h.ok rfl (h.run r hr) (hn (by simp [hr]))
      · exact h
    · exact h
  case linkTask =>
    simp only [step]
    split
    · rename_i r hr
      split
      · rename_i hp
        have h : LogInv σ.settle := h.same rfl rfl rfl rfl
        have hn : NoDone σ.settle := hn
        have hr : σ.settle.run = some r := hr
        generalize σ.settle = σ at h hn hr ⊢
        have hd := hn (by simp [hr])
        have hs := h.run r hr
        have hm : ∀ ph, Shape .fin (commands (σ.fail (.missing ph)).log) := by
          intro ph
          simp only [Sys.fail, commands_append]
          rw [show commands [Entry.missing ph] = [] from rfl, List.append_nil]
          exact hs.fin
        simp only [linkTask]
        split
        · exact .of_run h.ok rfl hs.fin hd
        · rename_i ho
          have hok := allOk_of_ok h (by simpa using ho)
          have hl : ∃ A B, PreOk A ∧ ObjsOk B ∧ commands σ.log = A ++ B := by
            rcases hp with hp | ⟨hp, -, -⟩
            · rw [hp] at hs
              exact ⟨_, [], preOk_of (shape_inv hs) hok, by simp [ObjsOk], by simp⟩
            · rw [hp] at hs
              obtain ⟨A, B, hA, hB, hs⟩ := shape_inv hs
              exact ⟨A, B, hA, objsOk_of hB fun e he => hok e (by simp [hs, he]), hs⟩
          split
          · exact .of_run (by simp [Sys.fail, Entry.failed]) rfl (hm _) hd
          · split
            · exact .of_run (by simp [Sys.fail, Entry.failed]) rfl (hm _) hd
            · split
              · obtain ⟨A, B, hA, hB, hl⟩ := hl
                exact .of_run h.ok rfl (by rw [hl]; exact .linkRun hA hB) hd
              · exact .of_run h.ok rfl hs.fin hd
      · exact h
    · exact h
  case linkExec ok junk =>
    simp only [step, inPhase]
    split
    · rename_i r hr
      split
      · rename_i hp
        have hs := h.run r hr
        rw [hp] at hs
        obtain ⟨A, B, hA, hB, hs⟩ := shape_inv hs
        have hd := hn (by simp [hr])
        simp only [linkExec]
        split
        · refine .of_run ?_ rfl ?_ hd
          · simp [Entry.failed, h.ok]
          · simp only [commands_append, hs]; exact .fin3 hA hB true
        · refine .of_run (by simp [Sys.fail, Entry.failed]) rfl ?_ hd
          simp only [Sys.fail, commands_append, hs]; exact .fin3 hA hB false
      · exact h
    · exact h
  case finish b =>
    simp only [step, inPhase]
    split
    · rename_i r hr
      split
      · simp only [finishRun]
        split
        · split
          · exact .of_idle h.ok rfl h.idle (by simp)
          · refine .of_idle (by simp [Sys.fail, Entry.failed]) rfl ?_ (by simp [Sys.fail])
            have := h.idle
            simpa [Sys.fail, commands, Entry.isCommand] using this
        · exact .of_idle h.ok rfl h.idle (by simp)
      · exact h
    · exact h
  case crash w =>
    simp only [step]
    split
    · rename_i r hr
      have hd := hn (by simp [hr])
      simp only [crashRun]
      repeat' split
      all_goals exact .of_idle h.ok rfl h.idle (by simp [hd])
    · exact h
  case dropState => simp only [step]; split <;> exact h.same rfl rfl rfl rfl
  case look p v => simp only [step, lookAt]; split <;> exact h.same rfl rfl rfl rfl
  all_goals exact h.same rfl rfl rfl rfl

theorem noDone_init : NoDone Sys.init := by simp [NoDone, Sys.init]
theorem logInv_init : LogInv Sys.init :=
  .of_idle rfl rfl (.fin1 (.inl rfl)) (by simp [Sys.init])

theorem logInv_steps (fx : Fixed) (evs : List Event) : ∀ σ, LogInv σ → NoDone σ →
    LogInv (steps fx σ evs) := by
  induction evs with
  | nil => intro σ h _; exact h
  | cons e l ih => intro σ h hn; exact ih _ (logInv_step fx σ e h hn) (noDone_step fx σ e hn)

theorem logInv_reach (fx : Fixed) (evs : List Event) : LogInv (steps fx Sys.init evs) :=
  logInv_steps fx evs _ logInv_init noDone_init

end Verif.Target
