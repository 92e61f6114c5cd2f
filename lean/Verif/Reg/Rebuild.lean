import Verif.Reg.RebuildSpec
import Verif.Target.Replay
import Verif.Generator.Rebuild

/-! # Builds that follow a build: facts about single builders and processes -/

namespace Verif.Reg
open Verif Verif.Schema
open Verif.Target (Fixed BinArt objPath outputPath upd paths AllCurrent)

/-- The builder runs `s`, it started with what is stored in the first builder, and none of its
inputs changed since its tasks began. -/
inductive Quietly : Comp → Setup → Bool → Comp → Prop
  | target {fx : Fixed} {κ σ : Target.Sys} {c : TargetSchema} {o : List Str} {b : Bool} :
      Target.Replay fx κ c o b σ → Quietly (.target fx κ) (.target c o) b (.target fx σ)
  | gen {κ σ : Generator.Sys} {c : Generator.Cfg} {b : Bool} :
      Generator.Replay κ c b σ → Quietly (.gen κ) (.gen c) b (.gen σ)

/-- With the files `f` nothing is to be done for `s`. -/
def Recorded (f : Str → Option Nat) : Setup → Comp → Prop
  | .target c _, .target _ σ => ∃ x, loadTargetFile σ.stateFile = some x ∧ AllCurrent f x c
  | .gen c, .gen σ => Generator.Settled f (loadGenFile σ.stateFile) c
  | _, _ => False

theorem Quietly.start {c : Comp} {s : Setup} (h : c.running = false)
    (h1 : (c.start s).running = true) : Quietly c s false (c.start s) := by
  cases c with
  | target fx σ =>
    simp only [Comp.running, Option.isSome_eq_false_iff, Option.isNone_iff_eq_none] at h
    cases s with
    | gen c => simp [Comp.start, Comp.step, Comp.running, h] at h1
    | target c o => exact .target (Target.Replay.start h h1)
  | gen σ =>
    simp only [Comp.running, Option.isSome_eq_false_iff, Option.isNone_iff_eq_none] at h
    cases s with
    | target c o => simp [Comp.start, Comp.step, Comp.running, h] at h1
    | gen c =>
      refine .gen (Generator.Replay.start h ?_)
      revert h1
      simp only [Comp.start, Comp.step, Comp.running, Generator.step, Generator.startRun, h]
      split
      · rename_i hn; exact fun _ => hn
      · simp [h]

theorem Quietly.begin {κ c : Comp} {s : Setup} {b : Bool} (h : Quietly κ s b c) :
    Quietly κ s true c := by
  cases h with
  | target h => exact .target h.begin
  | gen h => exact .gen h.begin

theorem Quietly.task {κ c : Comp} {s : Setup} {e : Ev} (h : Quietly κ s true c)
    (he : e.isTask = true ∨ e.isLook = true) : Quietly κ s true (c.step e) := by
  cases h with
  | target h =>
    cases e with
    | g e => exact .target h
    | t e =>
      refine .target (h.task ?_ (.inl rfl))
      rcases he with he | he
      · cases e <;> simp_all [Ev.isTask, Target.Event.progress, Target.Event.own]
      · cases e <;> simp_all [Ev.isLook, Target.Event.own]
  | gen h =>
    cases e with
    | t e => exact .gen h
    | g e =>
      refine .gen (h.task ?_ (.inl rfl))
      rcases he with he | he
      · cases e <;> simp_all [Ev.isTask, Generator.Event.progress, Generator.Event.outside]
      · cases e <;> simp_all [Ev.isLook, Generator.Event.outside]

theorem Quietly.fail {κ c : Comp} {s : Setup} {b : Bool} (h : Quietly κ s b c) :
    Quietly κ s b c.fail := by
  cases h with
  | target h => exact .target (h.task rfl (.inr rfl))
  | gen h => exact .gen (h.task rfl (.inr rfl))

theorem Quietly.write {κ c : Comp} {s : Setup} {b : Bool} {p : Str} (h : Quietly κ s b c)
    (x : Option Nat) (hp : b = false ∨ p ∉ s.inputs) : Quietly κ s b (c.write p x) := by
  cases h with
  | target h =>
    cases x with
    | none => exact .target (h.write (p := p) (.inr rfl) hp)
    | some t => exact .target (h.write (p := p) (.inl ⟨t, rfl⟩) hp)
  | gen h =>
    cases x with
    | none => exact .gen (h.write (p := p) (.inr rfl) hp)
    | some t => exact .gen (h.write (p := p) (.inl ⟨t, rfl⟩) hp)

theorem Quietly.recorded {κ c : Comp} {s : Setup} {b : Bool} (h : Quietly κ s b c) (hs : Regular s)
    (hr : c.running = false) (hok : c.ok = true) : Recorded c.files s c := by
  cases h with
  | target h =>
    simp only [Comp.running, Option.isSome_eq_false_iff, Option.isNone_iff_eq_none] at hr
    exact h.current hs hr hok
  | gen h =>
    simp only [Comp.running, Option.isSome_eq_false_iff, Option.isNone_iff_eq_none] at hr
    exact h.settled hs hr hok

theorem mem_inputs {c : TargetSchema} {p : Str} : p ∈ Target.tracked c ↔
    p ∈ paths c.sources ++ paths c.headers ++ paths c.pchs ++ paths c.libs ++ paths c.compileDeps
      ++ paths c.linkDeps := by
  simp only [Target.mem_tracked, List.mem_append]
  constructor
  · rintro (h | h | h | h | h | h) <;> simp [h]
  · rintro (((((h | h) | h) | h) | h) | h) <;> simp [h]

theorem Quietly.needed {κ c : Comp} {s : Setup} {b : Bool} {f : Str → Option Nat}
    (h : Quietly κ s b c) (hs : Regular s) (hk : Recorded f s κ) (he : Executed c) :
    ∃ p ∈ s.inputs, c.files p ≠ f p := by
  cases h with
  | @target fx κ σ c o b h =>
    obtain ⟨x, hx, hc⟩ := hk
    obtain ⟨h1, h2, h3⟩ := h.needed hs hx hc
    rcases he with ⟨b, he⟩ | ⟨p, b, he⟩ | ⟨b, he⟩
    · obtain ⟨p, hp, hne⟩ := h1 b he
      refine ⟨p, ?_, hne⟩
      simp only [List.mem_append] at hp
      rcases hp with hp | hp <;> simp [Setup.inputs, hp]
    · have hp0 : p ∈ paths c.sources := by
        obtain ⟨σ₁, mid, s', v', k1, k2, k3⟩ := h.quietRun
        have hm : p ∈ Target.compiledSources
            (Target.commands (σ.withFiles σ.files σ.used true s' v').log) := by
          refine List.mem_filterMap.2 ⟨.obj p b, ?_, rfl⟩
          simp only [Target.commands, List.mem_filter]
          exact ⟨he, rfl⟩
        exact ((k3.sofar hs).obj p hm).1
      obtain ⟨q, hq, hne⟩ := h2 p b he
      refine ⟨q, ?_, hne⟩
      simp only [List.mem_cons, List.mem_append] at hq
      rcases hq with rfl | (hq | hq) | hq
      · simp [Setup.inputs, hp0]
      all_goals simp [Setup.inputs, hq]
    · obtain ⟨p, hp, hne⟩ := h3 b he
      exact ⟨p, mem_inputs.1 hp, hne⟩
  | gen h =>
    obtain ⟨id, b, he⟩ := he
    obtain ⟨i, hi, p, hp, hne⟩ := h.needed hk (id := id)
      (by simp only [Generator.calledIds, List.mem_filterMap]; exact ⟨_, he, rfl⟩)
    exact ⟨p, Generator.inputs_mem hi hp, hne⟩

theorem Quietly.null {κ c : Comp} {s : Setup} {b : Bool} (h : Quietly κ s b c) (hs : Regular s)
    (hk : Recorded c.files s κ) : SameStored c κ ∧ ¬ OwnFailure c ∧
      ∀ order w, SameStored (c.kill order w) κ := by
  cases h with
  | target h =>
    obtain ⟨x, hx, hc⟩ := hk
    obtain ⟨-, h1, h2⟩ := h.null hs hx hc
    refine ⟨⟨h1.state, h1.objs, h1.pch, h1.bin⟩, ?_, fun _ w => ?_⟩
    · rintro ⟨e, he, -, hne⟩; exact hne (h2 e he)
    · obtain ⟨k1, k2, k3, k4⟩ := h.killed hs hx hc w
      exact ⟨k1, k2, k3, k4⟩
  | gen h =>
    obtain ⟨-, h1, h2, -⟩ := h.null hk
    refine ⟨⟨h1.state, h1.last⟩, ?_, fun o w => ?_⟩
    · rintro ⟨e, he, hf, hne⟩; exact hne (h2 e he hf)
    · obtain ⟨k1, k2⟩ := h.killed hk o w
      exact ⟨k1, k2⟩

/-! ## What was executed -/

theorem Working.executes {c : Comp} (h : Working c) : ∃ e : Ev, e.isTask = true ∧ Executed (c.step e) := by
  cases c with
  | target fx σ =>
    obtain ⟨r, hr, h | ⟨h, hp⟩ | h⟩ := h
    · refine ⟨.t (.pchExec true none), rfl, .inl ⟨true, ?_⟩⟩
      simp [Target.step, Target.inPhase, hr, h, Target.pchExec]
    · cases hpe : r.pending with
      | nil => exact absurd hpe hp
      | cons i l =>
        refine ⟨.t (.exec 0 true none), rfl, .inr (.inl ⟨i.path, true, ?_⟩)⟩
        simp [Target.step, Target.inPhase, hr, h, Target.execObj, hpe]
    · refine ⟨.t (.linkExec true none), rfl, .inr (.inr ⟨true, ?_⟩)⟩
      simp [Target.step, Target.inPhase, hr, h, Target.linkExec]
  | gen σ =>
    obtain ⟨r, id, hr, hid, hc⟩ := h
    obtain ⟨i, hi⟩ := Option.isSome_iff_exists.1 (Generator.find_isSome.2 hid)
    refine ⟨.g (.call id true), rfl, id, true, ?_⟩
    simp [Generator.step, Generator.inRun, hr, Generator.callRun, hi, hc]

/-- Whoever writes has executed something. -/
theorem mayWrite_executed {c : Comp} {e : Ev} {p : Str} (h : p ∈ mayWrite c e) :
    Executed (c.step e) := by
  cases c with
  | target fx σ =>
    cases e with
    | g e => simp [mayWrite] at h
    | t e =>
      cases hr : σ.run with
      | none => cases e <;> simp [mayWrite, hr] at h
      | some r =>
        cases e <;> simp only [mayWrite, hr, List.not_mem_nil] at h
        · rename_i ok junk
          split at h
          · rename_i hp
            refine .inl ⟨ok, ?_⟩
            cases ok <;> simp [Target.step, Target.inPhase, hr, hp, Target.pchExec, Target.Sys.fail]
          · simp at h
        · rename_i k ok junk
          split at h
          · rename_i hp
            split at h
            · rename_i i hi
              refine .inr (.inl ⟨i.path, ok, ?_⟩)
              cases ok <;> simp [Target.step, Target.inPhase, hr, hp, Target.execObj, hi, Target.Sys.fail]
            · simp at h
          · simp at h
        · rename_i ok junk
          split at h
          · rename_i hp
            refine .inr (.inr ⟨ok, ?_⟩)
            cases ok <;> simp [Target.step, Target.inPhase, hr, hp, Target.linkExec, Target.Sys.fail]
          · simp at h
  | gen σ =>
    cases e with
    | t e => simp [mayWrite] at h
    | g e =>
      cases hr : σ.run with
      | none => cases e <;> simp [mayWrite, hr] at h
      | some r =>
        cases e <;> simp only [mayWrite, hr, List.not_mem_nil] at h
        rename_i id ok
        split at h
        · rename_i i hi hc
          refine ⟨id, ok, ?_⟩
          cases ok <;> simp [Generator.step, Generator.inRun, hr, Generator.callRun, hi, hc]
        · simp at h

theorem Executed.task {c : Comp} {e : Ev} (h : Executed c) (he : e.isTask = true) :
    Executed (c.step e) := by
  cases c with
  | target fx σ =>
    cases e with
    | g e => exact h
    | t e =>
      have hlog : ∃ l, (Target.step fx σ e).log = σ.log ++ l := by
        cases e <;> simp only [Ev.isTask, Target.Event.progress, Bool.false_eq_true] at he <;>
          simp only [Target.step, Target.inPhase, Target.pchTask, Target.pchExec, Target.objTask,
            Target.execObj, Target.addObj, Target.linkTask, Target.linkExec, Target.finishRun]
        all_goals repeat' split
        all_goals first
          | exact ⟨[], (List.append_nil _).symm⟩
          | exact ⟨_, rfl⟩
      obtain ⟨l, hl⟩ := hlog
      have hm : ∀ x, x ∈ σ.log → x ∈ (Target.step fx σ e).log := fun x hx => by
        rw [hl]; exact List.mem_append_left _ hx
      rcases h with ⟨b, h⟩ | ⟨p, b, h⟩ | ⟨b, h⟩
      · exact .inl ⟨b, hm _ h⟩
      · exact .inr (.inl ⟨p, b, hm _ h⟩)
      · exact .inr (.inr ⟨b, hm _ h⟩)
  | gen σ =>
    cases e with
    | t e => exact h
    | g e =>
      have hlog : ∃ l, (Generator.step σ e).log = σ.log ++ l := by
        cases e <;> simp only [Ev.isTask, Generator.Event.progress, Bool.false_eq_true] at he <;>
          simp only [Generator.step, Generator.inRun, Generator.beginRun, Generator.taskRun,
            Generator.callRun, Generator.finishRun]
        all_goals repeat' split
        all_goals first
          | exact ⟨[], (List.append_nil _).symm⟩
          | exact ⟨_, rfl⟩
      obtain ⟨l, hl⟩ := hlog
      obtain ⟨id, b, h⟩ := h
      exact ⟨id, b, by rw [hl]; exact List.mem_append_left _ h⟩

theorem Executed.write {c : Comp} {p : Str} {x : Option Nat} : Executed (c.write p x) ↔ Executed c := by
  cases x <;> cases c <;> exact Iff.rfl

theorem Executed.look {c : Comp} {e : Ev} (he : e.isLook = true) : Executed (c.step e) ↔ Executed c := by
  rcases look_cases c he with he | ⟨fx, σ, v, rfl, he⟩ | ⟨σ, v, rfl, he⟩ <;> rw [he] <;> exact Iff.rfl

theorem Executed.fail {c : Comp} (h : Executed c) : Executed c.fail := by
  cases c with
  | target fx σ =>
    simp only [Comp.fail, Comp.step, Target.step]
    split
    · have hm : ∀ x, x ∈ σ.log → x ∈ (σ.fail .other).log := fun x hx => List.mem_append_left _ hx
      rcases h with ⟨b, h⟩ | ⟨p, b, h⟩ | ⟨b, h⟩
      · exact .inl ⟨b, hm _ h⟩
      · exact .inr (.inl ⟨p, b, hm _ h⟩)
      · exact .inr (.inr ⟨b, hm _ h⟩)
    · exact h
  | gen σ =>
    simp only [Comp.fail, Comp.step, Generator.step]
    split
    · obtain ⟨id, b, h⟩ := h
      exact ⟨id, b, List.mem_append_left _ h⟩
    · exact h

/-- A step after which the task state is FAILURE has put the reason into the log. -/
theorem OwnFailure.of_ok {c : Comp} {e : Ev} (he : e.isTask = true) (hok : c.ok = true)
    (h : (c.step e).ok = false) : OwnFailure (c.step e) := by
  cases c with
  | target fx σ =>
    cases e with
    | g e => simp only [Comp.step] at h; rw [hok] at h; simp at h
    | t e =>
      simp only [Comp.ok] at hok
      revert h
      cases e <;> simp only [Ev.isTask, Target.Event.progress, Bool.false_eq_true] at he <;>
        simp only [Comp.step, Target.step, Target.inPhase, Target.pchTask, Target.pchExec,
          Target.objTask, Target.execObj, Target.addObj, Target.linkTask, Target.linkExec,
          Target.finishRun, Comp.ok]
      all_goals repeat' split
      all_goals intro h
      all_goals first
        | exact absurd (Eq.trans hok.symm h) (by decide)
        | exact ⟨_, List.mem_append_right _ (List.mem_singleton.2 rfl), rfl, by simp⟩
  | gen σ =>
    cases e with
    | t e => simp only [Comp.step] at h; rw [hok] at h; simp at h
    | g e =>
      simp only [Comp.ok] at hok
      revert h
      cases e <;> simp only [Ev.isTask, Generator.Event.progress, Bool.false_eq_true] at he <;>
        simp only [Comp.step, Generator.step, Generator.inRun, Generator.beginRun, Generator.taskRun,
          Generator.callRun, Generator.finishRun, Comp.ok]
      all_goals repeat' split
      all_goals intro h
      all_goals first
        | exact absurd (Eq.trans hok.symm h) (by decide)
        | exact ⟨_, List.mem_append_right _ (List.mem_singleton.2 rfl), rfl, by simp⟩

theorem Quietly.outputs {κ c : Comp} {s : Setup} {b : Bool} {e : Ev} {p : Str} (h : Quietly κ s b c)
    (hp : p ∈ mayWrite c e) : p ∈ Reg.outputs c s := by
  cases h with
  | @target fx κ σ c o b h =>
    obtain ⟨h1, h2⟩ := h.cfgIs
    cases e with
    | g e => simp [mayWrite] at hp
    | t e =>
      cases hr : σ.run with
      | none => cases e <;> simp [mayWrite, hr] at hp
      | some x =>
        cases e <;> simp only [mayWrite, hr, List.not_mem_nil] at hp
        · split at hp
          · simp [Reg.outputs, hp]
          · simp at hp
        · split at hp
          · split at hp
            · rename_i i hi
              simp only [List.mem_singleton] at hp
              have := (h2 x hr).2 i (List.mem_of_getElem? hi)
              rw [h1 x hr] at this
              simp only [Reg.outputs, List.mem_append, List.mem_map]
              exact .inl (.inr ⟨_, this, hp.symm⟩)
            · simp at hp
          · simp at hp
        · split at hp
          · simp [Reg.outputs, hp]
          · simp at hp
  | @gen κ σ c b h =>
    have h1 := h.cfgIs
    cases e with
    | t e => simp [mayWrite] at hp
    | g e =>
      cases hr : σ.run with
      | none => cases e <;> simp [mayWrite, hr] at hp
      | some x =>
        cases e <;> simp only [mayWrite, hr, List.not_mem_nil] at hp
        split at hp
        · rename_i i hi _
          rw [h1 x hr] at hi
          simp only [Reg.outputs, List.mem_flatMap]
          exact ⟨_, Generator.find_mem hi, hp⟩
        · simp at hp

end Verif.Reg
