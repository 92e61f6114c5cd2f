import Verif.Reg.WorldBase

/-! # Failures in other builders -/

namespace Verif.Reg
open Verif Verif.Schema
open Verif.Target (Fixed BinArt objPath outputPath upd paths Clean)

/-- A task of the builder itself failed in the present run. -/
def OwnFailure : Comp → Prop
  | .target _ σ => ∃ x ∈ σ.log, x.failed = true ∧ x ≠ .other
  | .gen σ => ∃ x ∈ σ.log, x.failed = true ∧ x ≠ .other

/-- The builder executed a command or a callback in the present run. -/
def Executed : Comp → Prop
  | .target _ σ => (∃ b, Target.Entry.pch b ∈ σ.log) ∨ (∃ p b, Target.Entry.obj p b ∈ σ.log) ∨
      ∃ b, Target.Entry.link b ∈ σ.log
  | .gen σ => ∃ id b, Generator.Entry.called id b ∈ σ.log

/-- Nothing was executed and nothing will be. -/
def Halted : Comp → Prop
  | .target _ σ => Target.commands σ.log = [] ∧ ∀ r, σ.run = some r → σ.ok = false ∧
      r.phase ≠ .pchRun ∧ r.phase ≠ .linkRun ∧ r.pending = []
  | .gen σ => Generator.calledIds σ.log = [] ∧ ∀ r, σ.run = some r → σ.ok = false ∧
      ∀ id, r.status id ≠ .calling

theorem Initial.halted {c : Comp} (h : Initial c) (hok : c.ok = false) : Halted c := by
  cases c with
  | target fx σ =>
    obtain ⟨h1, r, hr, h2, h3⟩ := h
    refine ⟨h1, fun r' hr' => ?_⟩
    rw [hr] at hr'
    simp only [Option.some.injEq] at hr'
    subst hr'
    refine ⟨hok, ?_, ?_, h2⟩ <;> (rw [h3]; split <;> simp)
  | gen σ =>
    obtain ⟨h1, r, hr, h2, h3⟩ := h
    refine ⟨h1, fun r' hr' => ?_⟩
    rw [hr] at hr'
    simp only [Option.some.injEq] at hr'
    subst hr'
    exact ⟨hok, fun id => by rw [h3 id]; simp⟩

theorem Halted.not_executed {c : Comp} (h : Halted c) : ¬ Executed c := by
  cases c with
  | target fx σ =>
    obtain ⟨h1, -⟩ := h
    have key : ∀ e ∈ σ.log, e.isCommand = true → False := by
      intro e he hc
      have : e ∈ Target.commands σ.log := by simp [Target.commands, he, hc]
      rw [h1] at this; simp at this
    rintro (⟨b, h⟩ | ⟨p, b, h⟩ | ⟨b, h⟩) <;> exact key _ h rfl
  | gen σ =>
    obtain ⟨h1, -⟩ := h
    rintro ⟨id, b, h⟩
    have : id ∈ Generator.calledIds σ.log := by
      simp only [Generator.calledIds, List.mem_filterMap]
      exact ⟨_, h, rfl⟩
    rw [h1] at this; simp at this

theorem Halted.write {c : Comp} {p : Str} {x : Option Nat} (h : Halted c) : Halted (c.write p x) := by
  cases x <;> cases c <;> exact h

theorem OwnFailure.of_write {c : Comp} {p : Str} {x : Option Nat} (h : OwnFailure (c.write p x)) :
    OwnFailure c := by
  revert h
  cases x <;> cases c <;> exact id

theorem Halted.look {c : Comp} {e : Ev} (h : Halted c) (he : e.isLook = true) :
    Halted (c.step e) := by
  rcases look_cases c he with he | ⟨fx, σ, v, rfl, he⟩ | ⟨σ, v, rfl, he⟩ <;> rw [he] <;> exact h

theorem OwnFailure.of_look {c : Comp} {e : Ev} (he : e.isLook = true)
    (h : OwnFailure (c.step e)) : OwnFailure c := by
  revert h
  rcases look_cases c he with he | ⟨fx, σ, v, rfl, he⟩ | ⟨σ, v, rfl, he⟩ <;> rw [he] <;> exact id

theorem Halted.fail {c : Comp} (h : Halted c) : Halted c.fail := by
  cases c with
  | target fx σ =>
    obtain ⟨h1, h2⟩ := h
    simp only [Comp.fail, Comp.step, Target.step]
    split
    · refine ⟨?_, fun r hr => ⟨rfl, (h2 r hr).2⟩⟩
      rw [Target.Sys.fail, Target.commands, List.filter_append, ← Target.commands, h1]
      rfl
    · exact ⟨h1, h2⟩
  | gen σ =>
    obtain ⟨h1, h2⟩ := h
    simp only [Comp.fail, Comp.step, Generator.step]
    split
    · refine ⟨?_, fun r hr => ⟨rfl, (h2 r hr).2⟩⟩
      rw [Generator.Sys.fail, Generator.calledIds_append, h1]
      rfl
    · exact ⟨h1, h2⟩

theorem OwnFailure.of_fail {c : Comp} (h : OwnFailure c.fail) : OwnFailure c := by
  revert h
  cases c with
  | target fx σ =>
    simp only [Comp.fail, Comp.step, Target.step]
    split
    · rintro ⟨x, hx, h1, h2⟩
      simp only [Target.Sys.fail, List.mem_append, List.mem_singleton] at hx
      exact ⟨x, hx.resolve_right h2, h1, h2⟩
    · exact id
  | gen σ =>
    simp only [Comp.fail, Comp.step, Generator.step]
    split
    · rintro ⟨x, hx, h1, h2⟩
      simp only [Generator.Sys.fail, List.mem_append, List.mem_singleton] at hx
      exact ⟨x, hx.resolve_right h2, h1, h2⟩
    · exact id

theorem Halted.task {c : Comp} {e : Ev} (h : Halted c) (he : e.isTask = true) : Halted (c.step e) := by
  cases c with
  | target fx σ =>
    obtain ⟨h1, h2⟩ := h
    cases e with
    | g e => exact ⟨h1, h2⟩
    | t e =>
      cases hr : σ.run with
      | none =>
        have : Target.step fx σ e = σ := by
          cases e <;> simp only [Ev.isTask, Target.Event.progress, Bool.false_eq_true] at he <;>
            simp [Target.step, Target.inPhase, hr]
        simp only [Comp.step, this]; exact ⟨h1, h2⟩
      | some r =>
        obtain ⟨g1, g2, g3, g4⟩ := h2 r hr
        have hsame : Halted (.target fx σ) := ⟨h1, h2⟩
        cases e <;> simp only [Ev.isTask, Target.Event.progress, Bool.false_eq_true] at he <;>
          simp only [Comp.step, Target.step, Target.inPhase, hr]
        · split
          · simp only [Target.pchTask, Target.settle_ok, g1, Bool.not_false, if_true]
            refine ⟨h1, fun r' hr' => ?_⟩
            simp only [Option.some.injEq] at hr'; subst hr'
            exact ⟨rfl, by simp, by simp, g4⟩
          · exact hsame
        · rw [if_neg g2]; exact hsame
        · split
          · simp only [Target.objTask, Target.settle_ok, g1, Bool.not_false, if_true]
            refine ⟨h1, fun r' hr' => ?_⟩
            simp only [Option.some.injEq] at hr'; subst hr'
            exact ⟨rfl, by simp, by simp, g4⟩
          · exact hsame
        · split
          · simp only [Target.execObj, g4, List.getElem?_nil]
            exact hsame
          · exact hsame
        · split
          · simp only [Target.addObj]
            split
            · exact hsame
            · refine ⟨h1, fun r' hr' => ?_⟩
              simp only [Option.some.injEq] at hr'; subst hr'
              exact ⟨g1, g2, g3, g4⟩
          · exact hsame
        · split
          · simp only [Target.linkTask, Target.settle_ok, g1, Bool.not_false, if_true]
            refine ⟨h1, fun r' hr' => ?_⟩
            simp only [Option.some.injEq] at hr'; subst hr'
            exact ⟨rfl, by simp, by simp, g4⟩
          · exact hsame
        · rw [if_neg g3]; exact hsame
        · split
          · simp only [Target.finishRun]
            repeat' split
            · exact ⟨h1, by simp⟩
            · refine ⟨?_, by simp⟩
              simp only [Target.Sys.fail]
              rw [Target.commands, List.filter_append, ← Target.commands, h1]
              rfl
            · exact ⟨h1, by simp⟩
          · exact hsame
  | gen σ =>
    obtain ⟨h1, h2⟩ := h
    cases e with
    | t e => exact ⟨h1, h2⟩
    | g e =>
      cases hr : σ.run with
      | none =>
        have : Generator.step σ e = σ := by
          cases e <;> simp only [Ev.isTask, Generator.Event.progress, Bool.false_eq_true] at he <;>
            simp [Generator.step, Generator.inRun, hr]
        simp only [Comp.step, this]; exact ⟨h1, h2⟩
      | some r =>
        obtain ⟨g1, g2⟩ := h2 r hr
        have hsame : Halted (.gen σ) := ⟨h1, h2⟩
        have happ : ∀ x, (∀ id b, x ≠ Generator.Entry.called id b) →
            Generator.calledIds (σ.log ++ [x]) = [] := by
          intro x hx
          rw [Generator.calledIds_append, h1]
          cases x with
          | called id b => exact absurd rfl (hx id b)
          | _ => rfl
        cases e <;> simp only [Ev.isTask, Generator.Event.progress, Bool.false_eq_true] at he <;>
          simp only [Comp.step, Generator.step, Generator.inRun, hr]
        · simp only [Generator.beginRun]
          repeat' split
          · exact hsame
          · exact ⟨h1, by simp⟩
          · rename_i hok; simp [g1] at hok
        · rename_i id
          simp only [Generator.taskRun]
          split
          · rw [if_pos (by rw [g1]; rfl)]
            refine ⟨happ _ (by simp), fun r' hr' => ?_⟩
            simp only [Option.some.injEq] at hr'; subst hr'
            refine ⟨g1, fun id' => ?_⟩
            simp only [Generator.Run.set, upd]
            split
            · simp
            · exact g2 id'
          · exact hsame
        · rename_i id ok
          simp only [Generator.callRun]
          split
          · rename_i hc; exact absurd hc (g2 id)
          · exact hsame
        · split
          · simp only [Generator.finishRun]
            repeat' split
            · exact ⟨happ _ (by simp), by simp⟩
            · exact ⟨h1, by simp⟩
            · exact ⟨happ _ (by simp), by simp⟩
            · exact ⟨h1, by simp⟩
          · exact hsame

theorem OwnFailure.of_task {c : Comp} {e : Ev} (he : e.isTask = true) (h : OwnFailure (c.step e)) :
    OwnFailure c ∨ (c.step e).ok = false := by
  cases c with
  | target fx σ =>
    cases e with
    | g e => exact .inl h
    | t e =>
      revert h
      have happ : ∀ {σ' : Target.Sys} (x : Target.Entry), x.failed = false → σ'.log = σ.log ++ [x] →
          OwnFailure (.target fx σ') → OwnFailure (.target fx σ) := by
        rintro σ' x hx he ⟨y, hy, h1, h2⟩
        rw [he, List.mem_append, List.mem_singleton] at hy
        rcases hy with hy | hy
        · exact ⟨y, hy, h1, h2⟩
        · rw [hy, hx] at h1; simp at h1
      cases e <;> simp only [Ev.isTask, Target.Event.progress, Bool.false_eq_true] at he <;>
        simp only [Comp.step, Target.step, Target.inPhase, Target.Sys.put, Target.lookAt,
          Target.pchTask, Target.pchExec, Target.objTask,
          Target.execObj, Target.addObj, Target.linkTask, Target.linkExec, Target.finishRun, Comp.ok]
      all_goals repeat' split
      all_goals intro h
      all_goals first
        | exact .inl h
        | exact .inr rfl
        | exact .inl (happ _ rfl rfl h)
  | gen σ =>
    cases e with
    | t e => exact .inl h
    | g e =>
      revert h
      have happ : ∀ {σ' : Generator.Sys} (x : Generator.Entry), x.failed = false →
          σ'.log = σ.log ++ [x] → OwnFailure (.gen σ') → OwnFailure (.gen σ) := by
        rintro σ' x hx he ⟨y, hy, h1, h2⟩
        rw [he, List.mem_append, List.mem_singleton] at hy
        rcases hy with hy | hy
        · exact ⟨y, hy, h1, h2⟩
        · rw [hy, hx] at h1; simp at h1
      cases e <;> simp only [Ev.isTask, Generator.Event.progress, Bool.false_eq_true] at he <;>
        simp only [Comp.step, Generator.step, Generator.inRun, Generator.beginRun, Generator.taskRun,
          Generator.callRun, Generator.finishRun, Comp.ok]
      all_goals repeat' split
      all_goals intro h
      all_goals first
        | exact .inl h
        | exact .inr rfl
        | exact .inl (happ _ rfl rfl h)

theorem start_clean_log {c : Comp} {s : Setup} (h : c.running = false)
    (h1 : (c.start s).running = true) : ¬ OwnFailure (c.start s) := by
  cases c with
  | target fx σ =>
    simp only [Comp.running, Option.isSome_eq_false_iff, Option.isNone_iff_eq_none] at h
    cases s with
    | gen c => simp [Comp.start, Comp.step, Comp.running, h] at h1
    | target c o =>
      revert h1
      simp only [Comp.start, Comp.step, Comp.running, Target.step, Target.startRun, h]
      split
      · rintro - ⟨x, hx, -⟩; simp at hx
      · simp [h]
  | gen σ =>
    simp only [Comp.running, Option.isSome_eq_false_iff, Option.isNone_iff_eq_none] at h
    cases s with
    | target c o => simp [Comp.start, Comp.step, Comp.running, h] at h1
    | gen c =>
      revert h1
      simp only [Comp.start, Comp.step, Comp.running, Generator.step, Generator.startRun, h]
      split
      · rintro - ⟨x, hx, -⟩; simp at hx
      · simp [h]

/-- Everything that depends on a failed builder is halted. -/
structure FInv (w : World) : Prop where
  base : BInv w
  bad : w.active = true → ∀ a, a ∈ w.graph.ids → OwnFailure (w.comps a) → w.ok = false
  halt : w.active = true → ∀ a, a ∈ w.graph.ids → OwnFailure (w.comps a) →
    ∀ b, b ∈ w.graph.ids → Reaches w.graph.edges a b → Halted (w.comps b)

theorem BInv.finished_of_reaches {w : World} (h : BInv w) (ha : w.active = true) {a b : Str}
    (hr : Reaches w.graph.edges a b) (hb : b ∈ w.begun) : w.finished a = true := by
  induction hr with
  | edge he => exact h.order ha _ hb _ he
  | step he hr ih =>
    have := ih hb
    simp only [World.finished, Bool.and_eq_true, decide_eq_true_eq] at this
    exact h.order ha _ this.1 _ he

theorem write_fInv {w : World} {p : Str} {x : Option Nat} (h : FInv w) : FInv (w.write p x) where
  base := write_bInv h.base
  bad := fun ha a hi hf => h.bad ha a hi hf.of_write
  halt := fun ha a hi hf b hb hr => (h.halt ha a hi hf.of_write b hb hr).write

theorem stepped_fInv {w : World} {id : Str} {e : Ev} {ws : Writes} (h : FInv w)
    (ha : w.active = true) (hb : id ∈ w.begun) (hr : (w.comps id).running = true)
    (he : e.isTask = true) : FInv (w.stepped id e ws) := by
  have hB := h.base
  refine ⟨stepped_bInv hB ha hb hr he, ?_, ?_⟩
  · intro _ a hi hf
    simp only [World.stepped] at hi hf ⊢
    split at hf
    · rename_i e'
      subst e'
      rcases hf.of_task he with h1 | h1
      · rw [h.bad ha _ hi h1]; rfl
      · rw [h1]; simp
    · split at hf
      · rw [h.bad ha _ hi hf.of_fail]; rfl
      · rw [h.bad ha _ hi hf]; rfl
  · intro _ a hi hf b hbi hab
    -- a was already failed, or it is the builder that fails now
    have hcase : OwnFailure (w.comps a) ∨ (a = id ∧ ((w.comps id).step e).ok = false) := by
      simp only [World.stepped] at hf
      split at hf
      · rename_i e'
        subst e'
        rcases hf.of_task he with h1 | h1
        · exact .inl h1
        · exact .inr ⟨rfl, h1⟩
      · split at hf
        · exact .inl hf.of_fail
        · exact .inl hf
    rcases hcase with h1 | ⟨rfl, h1⟩
    · have hh := h.halt ha a hi h1 b hbi hab
      simp only [World.stepped]
      split
      · rename_i e'; rw [e'] at hh; exact hh.task he
      · split
        · exact hh.fail
        · exact hh
    · have hnb : b ∉ w.begun := by
        intro hbb
        have := hB.finished_of_reaches ha hab hbb
        simp only [World.finished, Bool.and_eq_true, Bool.not_eq_true'] at this
        rw [hr] at this
        simp at this
      have hne : b ≠ a := by rintro rfl; exact hnb hb
      have hin := hB.waiting ha b hbi hnb
      simp only [World.stepped, if_neg hne, h1, Bool.not_false, Bool.and_true]
      split
      · exact (fail_initial hin).halted ((fail_running _).2.2 hin.running)
      · rename_i hok
        refine hin.halted ?_
        rw [hB.agree ha b hin.running]
        simpa using hok

theorem fInv_step {w : World} (h : FInv w) (e : WEvent) : FInv (w.step e) := by
  have hbase := bInv_step h.base e
  have hcalm : ∀ {w' : World}, FInv w' → FInv { w' with calm := false } := fun h' =>
    ⟨⟨h'.base.views, h'.base.idle, h'.base.out, h'.base.sub, h'.base.nodup, h'.base.order,
      h'.base.agree, h'.base.waiting⟩, h'.bad, h'.halt⟩
  cases e with
  | edit p t =>
    exact hcalm (write_fInv h)
  | delete p => exact hcalm (write_fInv h)
  | dropState id =>
    revert hbase
    simp only [World.step]
    split
    · intro _; exact h
    · rename_i ha
      intro hbase
      exact ⟨hbase, fun h' => absurd h' ha, fun h' => absurd h' ha⟩
  | launch g s =>
    revert hbase
    simp only [World.step]
    split
    · rename_i hl
      simp only [Bool.and_eq_true, Bool.not_eq_true', List.all_eq_true] at hl
      obtain ⟨ha, hl⟩ := hl
      intro hbase
      have hno : ∀ a, a ∈ g.ids →
          ¬ OwnFailure (if a ∈ g.ids then (w.comps a).start (s a) else w.comps a) := by
        intro a hi
        rw [if_pos hi]
        exact start_clean_log (h.base.idle ha a) (hl a hi)
      exact ⟨hbase, fun _ a hi hf => absurd hf (hno a hi), fun _ a hi hf => absurd hf (hno a hi)⟩
    · intro _; exact h
  | «begin» id =>
    revert hbase
    simp only [World.step]
    split
    · intro hbase; exact ⟨hbase, h.bad, h.halt⟩
    · intro _; exact h
  | task id e ws =>
    simp only [World.step]
    split
    · rename_i hg
      simp only [Bool.and_eq_true, decide_eq_true_eq] at hg
      obtain ⟨⟨⟨⟨ha, hb⟩, hr⟩, he⟩, hl⟩ := hg
      obtain ⟨h1, h2⟩ := legal_spec hl
      rw [task_eq]
      exact writes_induction (P := FInv) (ok := fun _ => True) (fun w p x hw _ _ => write_fInv hw)
        ws _ (stepped_fInv h ha hb hr he) h1 fun x hx => ⟨trivial, (h2 x hx).2⟩
    · exact h
  | look id e =>
    revert hbase
    simp only [World.step]
    split
    · rename_i hg
      simp only [Bool.and_eq_true, decide_eq_true_eq] at hg
      have he := hg.2
      have hf : ∀ a, OwnFailure (upd w.comps id ((w.comps id).step e) a) →
          OwnFailure (w.comps a) := by
        intro a
        simp only [upd]
        split
        · rename_i e'; subst e'; exact fun h => h.of_look he
        · exact fun h => h
      intro hbase
      refine ⟨hbase, fun ha a hi h' => h.bad ha a hi (hf a h'), fun ha a hi h' b hb hr => ?_⟩
      have hh := h.halt ha a hi (hf a h') b hb hr
      simp only [upd]
      split
      · rename_i e'; subst e'; exact hh.look he
      · exact hh
    · intro _; exact h
  | join =>
    revert hbase
    simp only [World.step]
    split
    · intro hbase; exact ⟨hbase, by simp, by simp⟩
    · intro _; exact h
  | kill order written =>
    revert hbase
    simp only [World.step]
    split
    · intro hbase; exact ⟨hbase, by simp, by simp⟩
    · intro _; exact h

theorem fInv_init (kinds : Str → Kind) : FInv (World.init kinds) :=
  ⟨bInv_init kinds, by simp [World.init], by simp [World.init]⟩

theorem fInv_steps : ∀ (evs : List WEvent) (w : World), FInv w → FInv (w.steps evs) := by
  intro evs
  induction evs with
  | nil => intro w h; exact h
  | cons e l ih => intro w h; exact ih _ (fInv_step h e)

end Verif.Reg
