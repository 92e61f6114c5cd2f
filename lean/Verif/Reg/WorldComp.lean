import Verif.Reg.WorldSpec
import Verif.Generator.Sound
import Verif.Target.Local

/-! # Facts about single builders -/

namespace Verif.Reg
open Verif Verif.Schema
open Verif.Target (Fixed BinArt objPath outputPath upd paths Clean)

/-! ## What steps leave alone -/

theorem t_frame (fx : Fixed) (σ : Target.Sys) (e : Target.Event) (h : e.outside = false) :
    (Target.step fx σ e).files = σ.files ∧ (Target.step fx σ e).used = σ.used := by
  cases e <;> simp only [Target.Event.outside, Bool.true_eq_false] at h
  all_goals simp only [Target.step, Target.inPhase, Target.Sys.put, Target.lookAt,
          Target.pchTask, Target.pchExec, Target.objTask,
    Target.execObj, Target.addObj, Target.linkTask, Target.linkExec, Target.finishRun,
    Target.crashRun, Target.startRun]
  all_goals repeat' split
  all_goals exact ⟨rfl, rfl⟩

theorem g_frame (σ : Generator.Sys) (e : Generator.Event)
    (h1 : ∀ p t, e ≠ .edit p t) (h2 : ∀ p, e ≠ .delete p) :
    (Generator.step σ e).files = σ.files ∧ (Generator.step σ e).used = σ.used := by
  cases e
  case edit p t => exact absurd rfl (h1 p t)
  case delete p => exact absurd rfl (h2 p)
  all_goals simp only [Generator.step, Generator.inRun, Generator.startRun, Generator.beginRun,
    Generator.taskRun, Generator.callRun, Generator.finishRun, Generator.crashRun, Generator.lookAt]
  all_goals repeat' split
  all_goals exact ⟨rfl, rfl⟩

def Ev.leaves : Ev → Bool
  | .t e => !e.outside || match e with | .dropState => true | _ => false
  | .g (.edit _ _) | .g (.delete _) => false
  | _ => true

theorem addUsed_ne {u : Str → List Nat} {p q : Str} {x : Option Nat} (h : q ≠ p) :
    addUsed u p x q = u q := by
  cases x with
  | none => rfl
  | some t => simp only [addUsed, upd, if_neg h]

theorem task_leaves {e : Ev} (h : e.isTask = true) : e.leaves = true := by
  cases e with
  | t e => cases e <;> simp_all [Ev.isTask, Target.Event.progress, Ev.leaves, Target.Event.outside]
  | g e => cases e <;> simp_all [Ev.isTask, Generator.Event.progress, Ev.leaves]

theorem step_files (c : Comp) (e : Ev) (h : e.leaves = true) :
    (c.step e).files = c.files ∧ (c.step e).used = c.used := by
  cases c with
  | target fx σ =>
    cases e with
    | t e =>
      cases e <;> simp only [Ev.leaves, Target.Event.outside, Bool.not_true, Bool.not_false,
        Bool.or_self, Bool.false_eq_true] at h
      case dropState =>
        simp only [Comp.step, Target.step, Comp.files, Comp.used]
        split <;> exact ⟨rfl, rfl⟩
      all_goals exact t_frame fx σ _ rfl
    | g e => exact ⟨rfl, rfl⟩
  | gen σ =>
    cases e with
    | t e => exact ⟨rfl, rfl⟩
    | g e =>
      refine g_frame σ e ?_ ?_
      · rintro p t rfl; simp [Ev.leaves] at h
      · rintro p rfl; simp [Ev.leaves] at h

theorem start_files (c : Comp) (s : Setup) :
    (c.start s).files = c.files ∧ (c.start s).used = c.used := by
  cases s <;> exact step_files _ _ rfl

theorem fail_files (c : Comp) : c.fail.files = c.files ∧ c.fail.used = c.used := by
  have h1 := step_files c (.t .otherFail) rfl
  have h2 := step_files (c.step (.t .otherFail)) (.g .otherFail) rfl
  exact ⟨h2.1.trans h1.1, h2.2.trans h1.2⟩

theorem dropState_files (c : Comp) : c.dropState.files = c.files ∧ c.dropState.used = c.used := by
  have h1 := step_files c (.t .dropState) rfl
  have h2 := step_files (c.step (.t .dropState)) (.g .dropState) rfl
  exact ⟨h2.1.trans h1.1, h2.2.trans h1.2⟩

theorem kill_files (c : Comp) (o : List Str) (w : Option Nat) :
    (c.kill o w).files = c.files ∧ (c.kill o w).used = c.used := by
  have h1 := step_files c (.t (.crash w)) rfl
  have h2 := step_files (c.step (.t (.crash w))) (.g (.crash o w)) rfl
  exact ⟨h2.1.trans h1.1, h2.2.trans h1.2⟩

/-- How a write changes a view. -/
theorem write_files (c : Comp) (p : Str) (x : Option Nat) :
    (c.write p x).files = upd c.files p x ∧
    (c.write p x).used = addUsed c.used p x := by
  cases x with
  | none => cases c <;> exact ⟨rfl, rfl⟩
  | some t => cases c <;> exact ⟨rfl, rfl⟩

theorem write_running (c : Comp) (p : Str) (x : Option Nat) :
    (c.write p x).running = c.running ∧ (c.write p x).ok = c.ok ∧ (c.write p x).bin = c.bin := by
  cases x <;> cases c <;>
    simp only [Comp.write, Comp.step, Comp.running, Comp.ok, Comp.bin, Target.step, Generator.step,
      Target.Sys.put, Generator.Sys.put, and_self]

theorem fail_running (c : Comp) : c.fail.running = c.running ∧ c.fail.bin = c.bin ∧
    (c.running = true → c.fail.ok = false) := by
  cases c with
  | target fx σ =>
    simp only [Comp.fail, Comp.step, Target.step, Comp.running, Comp.ok, Comp.bin]
    split
    · exact ⟨rfl, rfl, fun _ => rfl⟩
    · rename_i h; exact ⟨rfl, rfl, fun h' => absurd h' h⟩
  | gen σ =>
    simp only [Comp.fail, Comp.step, Generator.step, Comp.running, Comp.ok, Comp.bin]
    split
    · exact ⟨rfl, trivial, fun _ => rfl⟩
    · rename_i h; exact ⟨rfl, trivial, fun h' => absurd h' h⟩

theorem fail_idle (c : Comp) (h : c.running = false) : c.fail = c := by
  cases c with
  | target fx σ =>
    simp only [Comp.running] at h
    simp [Comp.fail, Comp.step, Target.step, h]
  | gen σ =>
    simp only [Comp.running] at h
    simp [Comp.fail, Comp.step, Generator.step, h]

theorem kill_running (c : Comp) (o : List Str) (w : Option Nat) : (c.kill o w).running = false := by
  cases c with
  | target fx σ =>
    simp only [Comp.kill, Comp.step, Target.step, Comp.running]
    split
    · simp only [Target.crashRun]
      repeat' split
      all_goals rfl
    · rename_i h; simp [h]
  | gen σ =>
    simp only [Comp.kill, Comp.step, Generator.step, Comp.running, Generator.inRun]
    split
    · simp only [Generator.crashRun]
      repeat' split
      all_goals rfl
    · rename_i h; simp [h]

theorem kill_idle (c : Comp) (o : List Str) (w : Option Nat) (h : c.running = false) :
    c.kill o w = c := by
  cases c with
  | target fx σ =>
    simp only [Comp.running, Option.isSome_eq_false_iff, Option.isNone_iff_eq_none] at h
    simp [Comp.kill, Comp.step, Target.step, h]
  | gen σ =>
    simp only [Comp.running, Option.isSome_eq_false_iff, Option.isNone_iff_eq_none] at h
    simp [Comp.kill, Comp.step, Generator.step, Generator.inRun, h]

theorem dropState_running (c : Comp) (h : c.running = false) : c.dropState.running = false := by
  cases c with
  | target fx σ =>
    simp only [Comp.running] at h
    simp only [Comp.dropState, Comp.step, Target.step, Comp.running]
    split <;> exact h
  | gen σ =>
    simp only [Comp.running] at h
    simp only [Comp.dropState, Comp.step, Generator.step, Comp.running]
    split <;> exact h

/-- What a command has read so far is not visible from outside. -/
theorem look_cases (c : Comp) {e : Ev} (h : e.isLook = true) :
    c.step e = c ∨
    (∃ fx σ v, c = .target fx σ ∧ c.step e = .target fx { σ with view := v }) ∨
    ∃ σ v, c = .gen σ ∧ c.step e = .gen { σ with view := v } := by
  cases c with
  | target fx σ =>
    cases e with
    | g e => exact .inl rfl
    | t e =>
      cases e <;> simp only [Ev.isLook, Bool.false_eq_true] at h
      simp only [Comp.step, Target.step, Target.lookAt]
      split
      · exact .inr (.inl ⟨fx, σ, _, rfl, rfl⟩)
      · exact .inl rfl
  | gen σ =>
    cases e with
    | t e => exact .inl rfl
    | g e =>
      cases e <;> simp only [Ev.isLook, Bool.false_eq_true] at h
      simp only [Comp.step, Generator.step, Generator.inRun]
      split
      · simp only [Generator.lookAt]
        split
        · exact .inr (.inr ⟨σ, _, rfl, rfl⟩)
        · exact .inl rfl
      · exact .inl rfl

theorem look_frame (c : Comp) {e : Ev} (h : e.isLook = true) :
    (c.step e).running = c.running ∧ (c.step e).ok = c.ok ∧ (c.step e).bin = c.bin ∧
    (c.step e).files = c.files ∧ (c.step e).used = c.used := by
  rcases look_cases c h with he | ⟨fx, σ, v, rfl, he⟩ | ⟨σ, v, rfl, he⟩ <;> rw [he] <;>
    exact ⟨rfl, rfl, rfl, rfl, rfl⟩

/-- An idle builder makes no steps. -/
theorem task_idle (c : Comp) (e : Ev) (he : e.isTask = true) (h : c.running = false) :
    c.step e = c := by
  cases c with
  | target fx σ =>
    simp only [Comp.running, Option.isSome_eq_false_iff, Option.isNone_iff_eq_none] at h
    cases e with
    | g e => rfl
    | t e =>
      cases e <;> simp only [Ev.isTask, Target.Event.progress, Bool.false_eq_true] at he <;>
        simp [Comp.step, Target.step, Target.inPhase, h]
  | gen σ =>
    simp only [Comp.running, Option.isSome_eq_false_iff, Option.isNone_iff_eq_none] at h
    cases e with
    | t e => rfl
    | g e =>
      cases e <;> simp only [Ev.isTask, Generator.Event.progress, Bool.false_eq_true] at he <;>
        simp [Comp.step, Generator.step, Generator.inRun, h]

end Verif.Reg
