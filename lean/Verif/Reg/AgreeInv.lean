import Verif.Reg.AgreeNeeds
import Verif.Reg.OutcomeInv

/-! # Builds under different schedules: one process -/

namespace Verif.Reg
open Verif Verif.Schema Verif.Json
open Verif.Target (Fixed BinArt objPath outputPath upd paths)

/-! ## Commands of a builder -/

theorem Grows.did {c c' : Comp} (h : Grows c c') {x : Cmd} {b : Bool} (hd : Carried c x b) : Carried c' x b := by
  cases h with
  | target h => cases x <;> first | exact h _ hd | exact hd.elim
  | gen h => cases x <;> first | exact h _ hd | exact hd.elim

theorem Carried.of_fail {c : Comp} {x : Cmd} {b : Bool} (h : Carried c.fail x b) : Carried c x b := by
  cases c with
  | target fx σ =>
    revert h
    simp only [Comp.fail, Comp.step, Target.step]
    split
    · cases x <;> simp only [Carried, Target.Sys.fail, List.mem_append, List.mem_singleton] <;>
        simp
    · exact id
  | gen σ =>
    revert h
    simp only [Comp.fail, Comp.step, Generator.step]
    split
    · cases x <;> simp only [Carried, Generator.Sys.fail, List.mem_append, List.mem_singleton] <;>
        simp
    · exact id

/-- What a step has executed was executed before, or is the command that ends with it. -/
theorem Carried.of_task {c : Comp} {e : Ev} {x : Cmd} {b : Bool} (he : e.isTask = true)
    (h : Carried (c.step e) x b) : Carried c x b ∨ cmdOf c e = some (x, b) := by
  cases c with
  | target fx σ =>
    cases e with
    | g e => exact .inl h
    | t e =>
      revert h
      cases e <;> simp only [Ev.isTask, Target.Event.progress, Bool.false_eq_true] at he <;>
        simp only [Comp.step, Target.step, Target.inPhase, Target.pchTask, Target.pchExec, Target.objTask,
          Target.execObj, Target.addObj, Target.linkTask, Target.linkExec, Target.finishRun, cmdOf]
      all_goals cases hr : σ.run
      all_goals simp only
      all_goals repeat' split
      all_goals cases x
      all_goals first
        | exact .inl
        | (intro h
           rcases List.mem_append.1 h with h | h
           · exact .inl h
           · refine .inr ?_
             simp only [List.mem_singleton] at h
             simp_all)
  | gen σ =>
    cases e with
    | t e => exact .inl h
    | g e =>
      revert h
      cases e <;> simp only [Ev.isTask, Generator.Event.progress, Bool.false_eq_true] at he <;>
        simp only [Comp.step, Generator.step, Generator.inRun, Generator.beginRun, Generator.taskRun,
          Generator.callRun, Generator.finishRun, cmdOf]
      all_goals cases hr : σ.run
      all_goals simp only
      all_goals repeat' split
      all_goals cases x
      all_goals first
        | exact .inl
        | (intro h
           rcases List.mem_append.1 h with h | h
           · exact .inl h
           · refine .inr ?_
             simp only [List.mem_singleton] at h
             simp_all)

theorem did_cmd {c : Comp} {e : Ev} {x : Cmd} {b : Bool} (h : cmdOf c e = some (x, b)) :
    Carried (c.step e) x b := by
  cases c with
  | target fx σ =>
    cases e with
    | g e => simp [cmdOf] at h
    | t e =>
      revert h
      cases e <;> simp only [cmdOf, reduceCtorEq, false_implies] <;>
        simp only [Comp.step, Target.step, Target.inPhase, Target.pchExec,
          Target.execObj, Target.linkExec, Target.Sys.fail]
      all_goals cases hr : σ.run
      all_goals simp only [reduceCtorEq, false_implies]
      all_goals repeat' split
      all_goals cases x
      all_goals simp_all [Carried]
  | gen σ =>
    cases e with
    | t e => simp [cmdOf] at h
    | g e =>
      revert h
      cases e <;> simp only [cmdOf, reduceCtorEq, false_implies] <;>
        simp only [Comp.step, Generator.step, Generator.inRun, Generator.callRun]
      all_goals cases hr : σ.run
      all_goals simp only [reduceCtorEq, false_implies]
      all_goals repeat' split
      all_goals cases x
      all_goals simp_all [Carried]

/-- Only commands write files. -/
theorem mayWrite_cmd {c : Comp} {e : Ev} {p : Str} (h : p ∈ mayWrite c e) : ∃ x b, cmdOf c e = some (x, b) := by
  revert h
  cases c with
  | target fx σ =>
    cases e with
    | g e => simp [mayWrite]
    | t e =>
      cases e <;> simp only [mayWrite, cmdOf, List.not_mem_nil, false_implies]
      all_goals cases hr : σ.run
      all_goals simp only [List.not_mem_nil, false_implies]
      all_goals repeat' split
      all_goals simp_all
  | gen σ =>
    cases e with
    | t e => simp [mayWrite]
    | g e =>
      cases e <;> simp only [mayWrite, cmdOf, List.not_mem_nil, false_implies]
      all_goals cases hr : σ.run
      all_goals simp only [List.not_mem_nil, false_implies]
      all_goals repeat' split
      all_goals simp_all

/-- The task state never becomes SUCCESS again. -/
theorem ok_of_task {c : Comp} {e : Ev} (he : e.isTask = true) (h : (c.step e).ok = true) : c.ok = true := by
  cases c with
  | target fx σ =>
    cases e with
    | g e => exact h
    | t e =>
      revert h
      cases e <;> simp only [Ev.isTask, Target.Event.progress, Bool.false_eq_true] at he <;>
        simp only [Comp.step, Target.step, Target.inPhase, Target.pchTask, Target.pchExec, Target.objTask,
          Target.execObj, Target.addObj, Target.linkTask, Target.linkExec, Target.finishRun]
      all_goals repeat' split
      all_goals first
        | exact id
        | (intro h; simp [Comp.ok, Target.Sys.fail, Generator.Sys.fail] at h)
  | gen σ =>
    cases e with
    | t e => exact h
    | g e =>
      revert h
      cases e <;> simp only [Ev.isTask, Generator.Event.progress, Bool.false_eq_true] at he <;>
        simp only [Comp.step, Generator.step, Generator.inRun, Generator.beginRun, Generator.taskRun,
          Generator.callRun, Generator.finishRun, Generator.Sys.fail]
      all_goals repeat' split
      all_goals first
        | exact id
        | (intro h; simp [Comp.ok, Target.Sys.fail, Generator.Sys.fail] at h)

theorem Carried.executed {c : Comp} {x : Cmd} {b : Bool} (h : Carried c x b) : Executed c := by
  cases c <;> cases x <;> first | exact h.elim | skip
  · exact .inl ⟨b, h⟩
  · exact .inr (.inl ⟨_, b, h⟩)
  · exact .inr (.inr ⟨b, h⟩)
  · exact ⟨_, b, h⟩

theorem did_own {c : Comp} {x : Cmd} (h : Carried c x false) : OwnFailure c := by
  cases c <;> cases x <;> first | exact h.elim | exact ⟨_, h, rfl, by simp⟩

theorem faulty_did {c : Comp} (h : Faulty c) : (∃ x, Carried c x false) ∨ Unstored c := by
  cases c with
  | target fx σ =>
    rcases h with h | ⟨p, h⟩ | h | h
    · exact .inl ⟨.pch, h⟩
    · exact .inl ⟨.obj p, h⟩
    · exact .inl ⟨.link, h⟩
    · exact .inr h
  | gen σ =>
    rcases h with ⟨id, h⟩ | h
    · exact .inl ⟨.call id, h⟩
    · exact .inr h

/-! ## What is kept -/

theorem kept_comp {P : Comp → Prop} (hw : ∀ c p x, P c → P (Comp.write c p x))
    (hl : ∀ c e, c.running = true → e.isLook = true → P c → P (Comp.step c e))
    (hf : ∀ c, P c → P (Comp.fail c))
    (ht : ∀ c e, c.running = true → e.isTask = true → P c → P (Comp.step c e))
    {w : World} {e : WEvent} (he : e.inside = true) {j : Str} (h : P (w.comps j)) :
    P ((w.step e).comps j) := by
  have hws : ∀ (ws : Writes) (w : World), P (w.comps j) → P ((w.writes ws).comps j) := by
    intro ws
    induction ws with
    | nil => intro w h; exact h
    | cons x l ih => intro w h; exact ih (w.write x.1 x.2) (hw _ x.1 x.2 h)
  cases e <;> simp only [WEvent.inside, Bool.false_eq_true] at he
  case «begin» id => simp only [World.step]; split <;> exact h
  case task id e ws =>
    simp only [World.step]
    split
    · rename_i hg
      simp only [Bool.and_eq_true, decide_eq_true_eq] at hg
      obtain ⟨⟨⟨⟨-, -⟩, hr⟩, het⟩, -⟩ := hg
      rw [task_eq]
      refine hws ws _ ?_
      simp only [World.stepped]
      split
      · rename_i e'; subst e'; exact ht _ _ hr het h
      · split
        · exact hf _ h
        · exact h
    · exact h
  case look id e =>
    simp only [World.step]
    split
    · rename_i hg
      simp only [Bool.and_eq_true, decide_eq_true_eq] at hg
      simp only [upd]
      split
      · rename_i e'; subst e'; exact hl _ _ hg.1.2 hg.2 h
      · exact h
    · exact h

theorem fail_ok {c : Comp} (h : c.ok = false) : c.fail.ok = false := by
  cases hr : c.running with
  | true => exact (fail_running c).2.2 hr
  | false => rw [fail_idle _ hr]; exact h

theorem begun_step {w : World} {e : WEvent} (he : e.inside = true) : ∀ j ∈ w.begun, j ∈ (w.step e).begun := by
  cases e <;> simp only [WEvent.inside, Bool.false_eq_true] at he
  case «begin» id =>
    simp only [World.step]
    split
    · exact fun j hj => List.mem_append_left _ hj
    · exact fun j hj => hj
  case task id e ws =>
    simp only [World.step]
    split
    · rw [task_eq, (writes_frame ws _).2.2.2.1]; exact fun j hj => hj
    · exact fun j hj => hj
  case look id e => simp only [World.step]; split <;> exact fun j hj => hj

theorem ended_step {w : World} {e : WEvent} (he : e.inside = true) {j : Str} (h : Ended w j) :
    Ended (w.step e) j := by
  obtain ⟨h1, h2⟩ := h
  simp only [World.finished, Bool.and_eq_true, decide_eq_true_eq, Bool.not_eq_true'] at h1
  have := kept_comp (P := fun c => c.running = false ∧ c.ok = true)
    (fun c p x h => by obtain ⟨k1, k2, -⟩ := write_running c p x; exact ⟨k1.trans h.1, k2.trans h.2⟩)
    (fun c e hr _ h => by rw [h.1] at hr; simp at hr)
    (fun c h => by rw [fail_idle _ h.1]; exact h)
    (fun c e hr _ h => by rw [h.1] at hr; simp at hr) he (w := w) (j := j) ⟨h1.2, h2⟩
  refine ⟨?_, this.2⟩
  simp only [World.finished, Bool.and_eq_true, decide_eq_true_eq, Bool.not_eq_true']
  exact ⟨begun_step he j h1.1, this.1⟩

theorem halted_step {w : World} {e : WEvent} (he : e.inside = true) {j : Str}
    (h : Halted (w.comps j) ∧ (w.comps j).ok = false) :
    Halted ((w.step e).comps j) ∧ ((w.step e).comps j).ok = false := by
  refine kept_comp (P := fun c => Halted c ∧ c.ok = false)
    (fun c p x h => ⟨h.1.write, (write_running c p x).2.1.trans h.2⟩)
    (fun c e _ hl h => ⟨h.1.look hl, (look_frame c hl).2.1.trans h.2⟩)
    (fun c h => ⟨h.1.fail, fail_ok h.2⟩)
    (fun c e _ ht h => ⟨h.1.task ht, ?_⟩) he h
  cases hk : (c.step e).ok with
  | false => rfl
  | true => have := ok_of_task ht hk; rw [h.2] at this; simp at this

/-- A builder whose tasks were scheduled will do nothing, or those on which it depends have ended without
a failure. -/
def Settled (w : World) : Prop := ∀ j ∈ w.begun, (Halted (w.comps j) ∧ (w.comps j).ok = false) ∨
  ∀ a, Reaches w.graph.edges a j → Ended w a

theorem settled_step {κ : Str → Comp} {w : World} {e : WEvent} (hp : PInv κ w) (h : Settled w)
    (he : e.inside = true) : Settled (w.step e) := by
  obtain ⟨h1, h2, -⟩ := pInv_step hp he
  have hold : ∀ j ∈ w.begun, (Halted ((w.step e).comps j) ∧ ((w.step e).comps j).ok = false) ∨
      ∀ a, Reaches w.graph.edges a j → Ended (w.step e) a := by
    intro j hj
    rcases h j hj with h | h
    · exact .inl (halted_step he h)
    · exact .inr fun a ha => ended_step he (h a ha)
  intro j hj
  rw [h2]
  by_cases hb : j ∈ w.begun
  · exact hold j hb
  · -- the builder begins now
    have hc : (w.step e).comps = w.comps ∧ (w.step e).ok = w.ok := by
      cases e <;> simp only [WEvent.inside, Bool.false_eq_true] at he
      case «begin» id => simp only [World.step]; split <;> exact ⟨rfl, rfl⟩
      case task id e ws =>
        exfalso
        revert hj
        simp only [World.step]
        split
        · rw [task_eq, (writes_frame ws _).2.2.2.1]; exact hb
        · exact hb
      case look id e =>
        exfalso
        revert hj
        simp only [World.step]
        split <;> exact hb
    have hid := h1.base.sub j hj
    rw [h2] at hid
    have hin := hp.base.waiting hp.active j hid hb
    cases hok : w.ok with
    | false =>
      have hk : (w.comps j).ok = false := (hp.base.agree hp.active j hin.running).trans hok
      rw [hc.1]
      exact .inl ⟨hin.halted hk, hk⟩
    | true =>
      refine .inr fun a ha => ?_
      have hf := h1.base.finished_of_reaches h1.active (by rw [h2]; exact ha) hj
      refine ⟨hf, ?_⟩
      have haid : a ∈ (w.step e).graph.ids := by
        simp only [World.finished, Bool.and_eq_true, decide_eq_true_eq] at hf
        exact h1.base.sub a hf.1
      exact h1.good (hc.2.trans hok) a haid

/-- The task state is SUCCESS, or a builder has failed after those on which it depends have ended. -/
def Blamed (w : World) : Prop := w.ok = true ∨
  ∃ j ∈ w.graph.ids, OwnFailure (w.comps j) ∧ ∀ a, Reaches w.graph.edges a j → Ended w a

theorem blamed_step {κ : Str → Comp} {w : World} {e : WEvent} (hp : PInv κ w) (hs : Settled w) (h : Blamed w)
    (he : e.inside = true) : Blamed (w.step e) := by
  obtain ⟨h1, h2, -⟩ := pInv_step hp he
  rcases h with h | ⟨j, hj, ho, ha⟩
  · cases hok : (w.step e).ok with
    | true => exact .inl hok
    | false =>
      obtain ⟨j, hj, hb, ho⟩ := failed_step hp he h hok
      refine .inr ⟨j, by rw [h2]; exact hj, ho, fun a ha => ?_⟩
      rw [h2] at ha
      rcases hs j hb with ⟨-, hk⟩ | hk
      · rw [hp.good h j hj] at hk; simp at hk
      · exact ended_step he (hk a ha)
  · refine .inr ⟨j, by rw [h2]; exact hj, (grows_step w he j).own ho, fun a ha' => ?_⟩
    rw [h2] at ha'
    exact ended_step he (ha a ha')

/-! ## Files -/

/-- What has become of the files since `w₀`, when the commands behave like `B`. -/
structure Trail (B : Behaviour) (w₀ w : World) : Prop where
  used : ∀ p, ∀ t ∈ w₀.used p, t ∈ w.used p
  outcome : ∀ a ∈ w.graph.ids, ∀ x b, Carried (w.comps a) x b → b = B.ok a x
  own : ∀ a ∈ w.graph.ids, ∀ x, Carried (w.comps a) x true → ∀ p ∈ B.writes a x,
    p ∈ outputs (w.comps a) (w.setup a)
  fresh : ∀ p, (∃ a ∈ w.graph.ids, ∃ x, Carried (w.comps a) x true ∧ p ∈ B.writes a x) →
    (∃ t, w.files p = some t ∧ t ∉ w₀.used p) ∨
    ∃ a ∈ w.graph.ids, ∃ x, Carried (w.comps a) x false ∧ p ∈ outputs (w.comps a) (w.setup a)
  kept : ∀ p, w.files p = w₀.files p ∨
    (∃ a ∈ w.graph.ids, ∃ x, Carried (w.comps a) x true ∧ p ∈ B.writes a x) ∨
    ∃ a ∈ w.graph.ids, ∃ x, Carried (w.comps a) x false ∧ p ∈ outputs (w.comps a) (w.setup a)

/-- What is written has the new stamp. -/
theorem writes_fresh {p : Str} {u : List Nat} : ∀ (ws : Writes) (w : World), (ws.map (·.1)).Nodup →
    (∀ x ∈ ws, x.2.isSome = true) → (∀ x ∈ ws, ∀ t, x.1 = p → x.2 = some t → t ∉ u) →
    p ∈ ws.map (·.1) → ∃ t, (w.writes ws).files p = some t ∧ t ∉ u := by
  intro ws
  induction ws with
  | nil => intro w _ _ _ h; simp at h
  | cons x l ih =>
    intro w hn hs hu hp
    simp only [List.map_cons, List.nodup_cons] at hn
    by_cases hx : p ∈ l.map (·.1)
    · exact ih (w.write x.1 x.2) hn.2 (fun y hy => hs y (by simp [hy])) (fun y hy => hu y (by simp [hy])) hx
    · simp only [List.map_cons, List.mem_cons] at hp
      have hp := hp.resolve_right hx
      obtain ⟨t, ht⟩ := Option.isSome_iff_exists.1 (hs x (by simp))
      refine ⟨t, ?_, hu x (by simp) t hp.symm ht⟩
      have := (writes_used l (w.write x.1 x.2) p hx).2
      have h2 : (w.writes (x :: l)).files p = ((w.write x.1 x.2).writes l).files p := rfl
      rw [h2, this]
      simp [World.write, upd, hp, ht]

theorem writes_grow_used {p : Str} {t : Nat} : ∀ (ws : Writes) (w : World), t ∈ w.used p →
    t ∈ (w.writes ws).used p := by
  intro ws
  induction ws with
  | nil => intro w h; exact h
  | cons x l ih =>
    intro w h
    refine ih (w.write x.1 x.2) ?_
    simp only [World.write]
    cases x.2 with
    | none => exact h
    | some s =>
      simp only [addUsed, upd]
      split
      · rename_i e; subst e; exact List.mem_cons_of_mem _ h
      · exact h

theorem trail_step {B : Behaviour} {κ : Str → Comp} {w₀ w : World} {e : WEvent} (hp : PInv κ w)
    (h : Trail B w₀ w) (he : e.inside = true) (hB : Acts B w e) : Trail B w₀ (w.step e) := by
  cases e <;> simp only [WEvent.inside, Bool.false_eq_true] at he
  case «begin» id =>
    simp only [World.step]
    split <;> exact ⟨h.used, h.outcome, h.own, h.fresh, h.kept⟩
  case look id e =>
    have hD : ∀ a x b, Carried (((w.step (.look id e)).comps) a) x b ↔ Carried (w.comps a) x b := by
      intro a x b
      simp only [World.step]
      split
      · rename_i hg
        simp only [Bool.and_eq_true, decide_eq_true_eq] at hg
        simp only [upd]
        split
        · rename_i e'
          subst e'
          exact ⟨(grows_look _ hg.2).2.did, (grows_look _ hg.2).1.did⟩
        · exact Iff.rfl
      · exact Iff.rfl
    have hF : (w.step (.look id e)).files = w.files ∧ (w.step (.look id e)).used = w.used ∧
        (w.step (.look id e)).graph = w.graph ∧ (w.step (.look id e)).setup = w.setup := by
      simp only [World.step]; split <;> exact ⟨rfl, rfl, rfl, rfl⟩
    obtain ⟨f1, f2, f3, f4⟩ := hF
    constructor
    · rw [f2]; exact h.used
    · rw [f3]; intro a ha x b hd; exact h.outcome a ha x b ((hD a x b).1 hd)
    · rw [f3, f4]; intro a ha x hd; rw [outputs_event]; exact h.own a ha x ((hD a x _).1 hd)
    · rw [f3, f4, f1]; simp only [hD, outputs_event]; exact h.fresh
    · rw [f3, f4, f1]; simp only [hD, outputs_event]; exact h.kept
  case task id e ws =>
    by_cases hg : (w.active && id ∈ w.begun && (w.comps id).running && e.isTask
        && legal (w.comps id) e w.used ws) = true
    · have hstep : w.step (.task id e ws) = (w.stepped id e ws).writes ws := by
        simp only [World.step, if_pos hg]; exact task_eq w id e ws
      have hout := outputs_event w (.task id e ws)
      simp only [Bool.and_eq_true, decide_eq_true_eq] at hg
      obtain ⟨⟨⟨⟨-, hb⟩, hr⟩, het⟩, hl⟩ := hg
      obtain ⟨l1, l2⟩ := legal_spec hl
      have hid := hp.base.sub id hb
      -- what has been executed now
      have hnew : ∀ a x b, Carried ((w.step (.task id e ws)).comps a) x b →
          Carried (w.comps a) x b ∨ (a = id ∧ cmdOf (w.comps id) e = some (x, b)) := by
        intro a x b hd
        rw [hstep] at hd
        have hd := (writes_grows (j := a) ws (w.stepped id e ws)).2.did hd
        simp only [World.stepped] at hd
        split at hd
        · rename_i e'
          rcases hd.of_task het with hd | hd
          · rw [e']; exact .inl hd
          · exact .inr ⟨e', hd⟩
        · split at hd
          · exact .inl hd.of_fail
          · exact .inl hd
      have hold : ∀ a x b, Carried (w.comps a) x b → Carried ((w.step (.task id e ws)).comps a) x b := fun a x b =>
        (grows_step w (e := .task id e ws) rfl a).did
      have hcmd : ∀ x b, cmdOf (w.comps id) e = some (x, b) →
          Carried ((w.step (.task id e ws)).comps id) x b := by
        intro x b hc
        rw [hstep]
        refine (writes_grows (j := id) ws (w.stepped id e ws)).1.did ?_
        simp only [World.stepped, if_true]
        exact did_cmd hc
      have hF : (w.step (.task id e ws)).graph = w.graph ∧ (w.step (.task id e ws)).setup = w.setup := by
        rw [hstep]
        have := writes_frame ws (w.stepped id e ws)
        exact ⟨this.2.1, this.2.2.1⟩
      obtain ⟨f3, f4⟩ := hF
      have hoth : ∀ q, q ∉ ws.map (·.1) → (w.step (.task id e ws)).files q = w.files q := by
        intro q hq; rw [hstep]; exact (writes_used ws (w.stepped id e ws) q hq).2
      have hact : ∀ x b, cmdOf (w.comps id) e = some (x, b) → b = B.ok id x ∧
          (b = true → (∀ y ∈ ws, y.2.isSome = true) ∧ ∀ p, p ∈ ws.map (·.1) ↔ p ∈ B.writes id x) :=
        fun x b hc => hB x b hb hl hc
      have hwo : ∀ p ∈ ws.map (·.1), p ∈ outputs (w.comps id) (w.setup id) := by
        intro p hp'
        obtain ⟨y, hy, rfl⟩ := List.mem_map.1 hp'
        exact (hp.quiet id hid).outputs (l2 y hy).1
      have hfresh : ∀ x, cmdOf (w.comps id) e = some (x, true) → ∀ p ∈ ws.map (·.1),
          ∃ t, (w.step (.task id e ws)).files p = some t ∧ t ∉ w₀.used p := by
        intro x hc p hp'
        rw [hstep]
        refine writes_fresh ws _ l1 ((hact x true hc).2 rfl).1 (fun y hy t hy' ht hu => ?_) hp'
        have := (l2 y hy).2 t ht
        rw [hy'] at this
        exact this (h.used p t hu)
      constructor
      · intro p t ht; rw [hstep]; exact writes_grow_used ws _ (h.used p t ht)
      · rw [f3]
        intro a ha x b hd
        rcases hnew a x b hd with hd | ⟨rfl, hc⟩
        · exact h.outcome a ha x b hd
        · exact (hact x b hc).1
      · rw [f3, f4]
        intro a ha x hd p hpw
        rw [hout]
        rcases hnew a x true hd with hd | ⟨rfl, hc⟩
        · exact h.own a ha x hd p hpw
        · exact hwo p ((((hact x true hc).2 rfl).2 p).2 hpw)
      · rw [f3, f4]
        rintro p ⟨a, ha, x, hd, hpw⟩
        simp only [hout]
        by_cases hpws : p ∈ ws.map (·.1)
        · obtain ⟨y, hy, rfl⟩ := List.mem_map.1 hpws
          obtain ⟨x', b', hc⟩ := mayWrite_cmd (l2 y hy).1
          cases b' with
          | true => exact .inl (hfresh x' hc _ hpws)
          | false => exact .inr ⟨id, hid, x', hcmd x' false hc, hwo _ hpws⟩
        · have hd' : Carried (w.comps a) x true := by
            rcases hnew a x true hd with hd | ⟨rfl, hc⟩
            · exact hd
            · exact absurd ((((hact x true hc).2 rfl).2 p).2 hpw) hpws
          rcases h.fresh p ⟨a, ha, x, hd', hpw⟩ with ⟨t, ht, hu⟩ | ⟨a', ha', x', hd', ho⟩
          · exact .inl ⟨t, by rw [hoth p hpws]; exact ht, hu⟩
          · exact .inr ⟨a', ha', x', hold _ _ _ hd', ho⟩
      · rw [f3, f4]
        intro p
        simp only [hout]
        by_cases hpws : p ∈ ws.map (·.1)
        · obtain ⟨y, hy, rfl⟩ := List.mem_map.1 hpws
          obtain ⟨x', b', hc⟩ := mayWrite_cmd (l2 y hy).1
          cases b' with
          | true =>
            exact .inr (.inl ⟨id, hid, x', hcmd x' true hc, (((hact x' true hc).2 rfl).2 _).1 hpws⟩)
          | false => exact .inr (.inr ⟨id, hid, x', hcmd x' false hc, hwo _ hpws⟩)
        · rw [hoth p hpws]
          rcases h.kept p with hk | ⟨a', ha', x', hd', ho⟩ | ⟨a', ha', x', hd', ho⟩
          · exact .inl hk
          · exact .inr (.inl ⟨a', ha', x', hold _ _ _ hd', ho⟩)
          · exact .inr (.inr ⟨a', ha', x', hold _ _ _ hd', ho⟩)
    · have : w.step (.task id e ws) = w := by
        simp only [World.step]; exact if_neg hg
      rw [this]; exact h

theorem settled_steps {κ : Str → Comp} : ∀ (mid : List WEvent) (w : World), PInv κ w → Settled w → Blamed w →
    (∀ e ∈ mid, e.inside = true) → Settled (w.steps mid) ∧ Blamed (w.steps mid) := by
  intro mid
  induction mid with
  | nil => intro w _ h1 h2 _; exact ⟨h1, h2⟩
  | cons e l ih =>
    intro w hp h1 h2 he
    have hi := he e (by simp)
    exact ih (w.step e) (pInv_step hp hi).1 (settled_step hp h1 hi) (blamed_step hp h1 h2 hi)
      fun x hx => he x (by simp [hx])

theorem trail_steps {B : Behaviour} {κ : Str → Comp} {w₀ : World} : ∀ (mid : List WEvent) (w : World), PInv κ w →
    Trail B w₀ w → (∀ e ∈ mid, e.inside = true) → Follows B w mid → Trail B w₀ (w.steps mid) := by
  intro mid
  induction mid with
  | nil => intro w _ h _ _; exact h
  | cons e l ih =>
    intro w hp h he hB
    have hi := he e (by simp)
    exact ih (w.step e) (pInv_step hp hi).1 (trail_step hp h hi hB.1) (fun x hx => he x (by simp [hx])) hB.2

end Verif.Reg
