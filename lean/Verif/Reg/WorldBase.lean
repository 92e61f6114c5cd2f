import Verif.Reg.WorldComp
import Verif.Target.OrderProps

/-! # Scheduling: facts that hold in every history -/

namespace Verif.Reg
open Verif Verif.Schema
open Verif.Target (Fixed BinArt objPath outputPath upd paths Clean)

/-- The tasks of the builder have not begun. -/
def Initial : Comp → Prop
  | .target _ σ => Target.commands σ.log = [] ∧ ∃ r, σ.run = some r ∧ r.pending = [] ∧
      r.phase = if r.cfg.pchs ≠ [] then .pch else .obj
  | .gen σ => Generator.calledIds σ.log = [] ∧ ∃ r, σ.run = some r ∧ r.began = false ∧
      ∀ id, r.status id = .waiting

theorem Initial.running {c : Comp} (h : Initial c) : c.running = true := by
  cases c with
  | target fx σ => obtain ⟨-, r, hr, -⟩ := h; simp [Comp.running, hr]
  | gen σ => obtain ⟨-, r, hr, -⟩ := h; simp [Comp.running, hr]

theorem start_initial {c : Comp} {s : Setup} (h : c.running = false)
    (h1 : (c.start s).running = true) : Initial (c.start s) ∧ (c.start s).ok = true := by
  cases c with
  | target fx σ =>
    simp only [Comp.running, Option.isSome_eq_false_iff, Option.isNone_iff_eq_none] at h
    cases s with
    | gen c => simp [Comp.start, Comp.step, Comp.running, h] at h1
    | target c o =>
      revert h1
      simp only [Comp.start, Comp.step, Comp.running, Target.step, Target.startRun, h]
      split
      · intro _
        exact ⟨⟨rfl, _, rfl, rfl, rfl⟩, rfl⟩
      · simp [h]
  | gen σ =>
    simp only [Comp.running, Option.isSome_eq_false_iff, Option.isNone_iff_eq_none] at h
    cases s with
    | target c o => simp [Comp.start, Comp.step, Comp.running, h] at h1
    | gen c =>
      revert h1
      simp only [Comp.start, Comp.step, Comp.running, Generator.step, Generator.startRun, h]
      split
      · intro _
        exact ⟨⟨rfl, _, rfl, rfl, fun _ => rfl⟩, rfl⟩
      · simp [h]

theorem fail_initial {c : Comp} (h : Initial c) : Initial c.fail := by
  cases c with
  | target fx σ =>
    obtain ⟨h1, r, hr, h2⟩ := h
    simp only [Comp.fail, Comp.step, Target.step, hr, Option.isSome_some, if_true, Initial,
      Target.Sys.fail]
    exact ⟨by rw [Target.commands, List.filter_append, ← Target.commands, h1]; rfl, r, rfl, h2⟩
  | gen σ =>
    obtain ⟨h1, r, hr, h2⟩ := h
    simp only [Comp.fail, Comp.step, Generator.step, hr, Option.isSome_some, if_true, Initial,
      Generator.Sys.fail]
    exact ⟨by rw [Generator.calledIds_append, h1]; rfl, r, rfl, h2⟩

theorem write_initial {c : Comp} {p : Str} {x : Option Nat} (h : Initial c) :
    Initial (c.write p x) := by
  cases x <;> cases c <;> exact h

theorem look_initial {c : Comp} {e : Ev} (he : e.isLook = true) (h : Initial c) :
    Initial (c.step e) := by
  rcases look_cases c he with he | ⟨fx, σ, v, rfl, he⟩ | ⟨σ, v, rfl, he⟩ <;> rw [he] <;> exact h

structure BInv (w : World) : Prop where
  views : ∀ j, (w.comps j).files = w.files ∧ (w.comps j).used = w.used
  idle : w.active = false → ∀ j, (w.comps j).running = false
  out : ∀ j, j ∉ w.graph.ids → (w.comps j).running = false
  sub : ∀ b ∈ w.begun, b ∈ w.graph.ids
  nodup : w.begun.Nodup
  order : w.active = true → ∀ b ∈ w.begun, ∀ a, (a, b) ∈ w.graph.edges → w.finished a = true
  agree : w.active = true → ∀ j, (w.comps j).running = true → (w.comps j).ok = w.ok
  waiting : w.active = true → ∀ j ∈ w.graph.ids, j ∉ w.begun → Initial (w.comps j)

theorem bInv_init (kinds : Str → Kind) : BInv (World.init kinds) where
  views := by intro j; simp only [World.init]; cases kinds j <;> exact ⟨rfl, rfl⟩
  idle := by intro _ j; simp only [World.init]; cases kinds j <;> rfl
  out := by intro j _; simp only [World.init]; cases kinds j <;> rfl
  sub := by simp [World.init]
  nodup := by simp [World.init]
  order := by simp [World.init]
  agree := by simp [World.init]
  waiting := by simp [World.init]

theorem write_bInv {w : World} {p : Str} {x : Option Nat} (h : BInv w) : BInv (w.write p x) := by
  have hr : ∀ j, ((w.write p x).comps j).running = (w.comps j).running := fun j =>
    (write_running _ p x).1
  have hfin : ∀ a, (w.write p x).finished a = w.finished a := by
    intro a
    simp only [World.finished, hr]
    rfl
  refine ⟨?_, ?_, ?_, h.sub, h.nodup, ?_, ?_, ?_⟩
  · intro j
    obtain ⟨h1, h2⟩ := h.views j
    obtain ⟨h3, h4⟩ := write_files (w.comps j) p x
    refine ⟨?_, ?_⟩
    · simp only [World.write]; rw [h3, h1]
    · simp only [World.write]; rw [h4, h2]
  · intro ha j; rw [hr]; exact h.idle ha j
  · intro j hj; rw [hr]; exact h.out j hj
  · intro ha b hb a hab; rw [hfin]; exact h.order ha b hb a hab
  · intro ha j hj
    rw [hr] at hj
    exact ((write_running _ p x).2.1).trans (h.agree ha j hj)
  · intro ha j hj hb; exact write_initial (h.waiting ha j hj hb)

/-- Parts of the world that writes leave alone. -/
theorem writes_frame : ∀ (ws : Writes) (w : World),
    (w.writes ws).active = w.active ∧ (w.writes ws).graph = w.graph ∧
    (w.writes ws).setup = w.setup ∧ (w.writes ws).begun = w.begun ∧ (w.writes ws).ok = w.ok ∧
    (w.writes ws).calm = w.calm ∧ (w.writes ws).content = w.content ∧
    (w.writes ws).result = w.result ∧ (w.writes ws).after = w.after := by
  intro ws
  induction ws with
  | nil => intro w; exact ⟨rfl, rfl, rfl, rfl, rfl, rfl, rfl, rfl, rfl⟩
  | cons x l ih => intro w; exact ih (w.write x.1 x.2)

theorem writes_used : ∀ (ws : Writes) (w : World) (q : Str), q ∉ ws.map (·.1) →
    (w.writes ws).used q = w.used q ∧ (w.writes ws).files q = w.files q := by
  intro ws
  induction ws with
  | nil => intros; exact ⟨rfl, rfl⟩
  | cons x l ih =>
    intro w q hq
    simp only [List.map_cons, List.mem_cons, not_or] at hq
    obtain ⟨h1, h2⟩ := ih (w.write x.1 x.2) q hq.2
    refine ⟨h1.trans ?_, h2.trans ?_⟩
    · exact addUsed_ne hq.1
    · simp only [World.write, upd, if_neg hq.1]

/-- Induction over writes of new versions of distinct files. -/
theorem writes_induction {P : World → Prop} {ok : Str → Prop}
    (hP : ∀ w p x, P w → ok p → (∀ t, x = some t → t ∉ w.used p) → P (w.write p x)) :
    ∀ (ws : Writes) (w : World), P w → (ws.map (·.1)).Nodup →
    (∀ x ∈ ws, ok x.1 ∧ ∀ t, x.2 = some t → t ∉ w.used x.1) → P (w.writes ws) := by
  intro ws
  induction ws with
  | nil => intro w h _ _; exact h
  | cons x l ih =>
    intro w h hn hx
    simp only [List.map_cons, List.nodup_cons] at hn
    obtain ⟨h1, h2⟩ := hx x (by simp)
    refine ih (w.write x.1 x.2) (hP w x.1 x.2 h h1 h2) hn.2 fun y hy => ?_
    obtain ⟨h3, h4⟩ := hx y (by simp [hy])
    refine ⟨h3, fun t ht => ?_⟩
    have hne : y.1 ≠ x.1 := by
      intro e
      exact hn.1 (e ▸ List.mem_map_of_mem (f := (·.1)) hy)
    have : (w.write x.1 x.2).used y.1 = w.used y.1 := addUsed_ne hne
    rw [this]
    exact h4 t ht

theorem legal_spec {c : Comp} {e : Ev} {used : Str → List Nat} {ws : Writes}
    (h : legal c e used ws = true) : (ws.map (·.1)).Nodup ∧
    ∀ x ∈ ws, x.1 ∈ mayWrite c e ∧ ∀ t, x.2 = some t → t ∉ used x.1 := by
  simp only [legal, Bool.and_eq_true, List.all_eq_true, decide_eq_true_eq] at h
  obtain ⟨⟨⟨h1, h2⟩, h3⟩, -⟩ := h
  refine ⟨h2, fun x hx => ⟨h1 x hx, fun t ht => ?_⟩⟩
  have := h3 x hx
  rw [ht] at this
  simpa using this

/-- The world between a step of `id` and its writes. -/
def World.stepped (w : World) (id : Str) (e : Ev) (ws : Writes) : World :=
  { w with
    comps := fun j =>
      if j = id then (w.comps id).step e
      else if w.ok && !((w.comps id).step e).ok then (w.comps j).fail else w.comps j
    ok := w.ok && ((w.comps id).step e).ok
    content := record w.content ((w.comps id).step e) e ws }

theorem task_eq (w : World) (id : Str) (e : Ev) (ws : Writes) :
    w.task id e ws = (w.stepped id e ws).writes ws := rfl

theorem stepped_bInv {w : World} {id : Str} {e : Ev} {ws : Writes} (h : BInv w)
    (ha : w.active = true) (hb : id ∈ w.begun) (hr : (w.comps id).running = true)
    (he : e.isTask = true) : BInv (w.stepped id e ws) := by
  have hother : ∀ j, j ≠ id → ((w.stepped id e ws).comps j).running = (w.comps j).running := by
    intro j hj
    simp only [World.stepped, if_neg hj]
    split
    · exact (fail_running _).1
    · rfl
  have hfin : ∀ a, w.finished a = true → (w.stepped id e ws).finished a = true := by
    intro a hf
    simp only [World.finished, Bool.and_eq_true, Bool.not_eq_true'] at hf ⊢
    refine ⟨hf.1, ?_⟩
    by_cases haid : a = id
    · rw [haid] at hf; rw [hr] at hf; simp at hf
    · rw [hother a haid]; exact hf.2
  refine ⟨?_, ?_, ?_, h.sub, h.nodup, ?_, ?_, ?_⟩
  · intro j
    simp only [World.stepped]
    split
    · obtain ⟨h1, h2⟩ := step_files (w.comps id) e (task_leaves he)
      exact ⟨h1.trans (h.views id).1, h2.trans (h.views id).2⟩
    · split
      · obtain ⟨h1, h2⟩ := fail_files (w.comps j)
        exact ⟨h1.trans (h.views j).1, h2.trans (h.views j).2⟩
      · exact h.views j
  · intro hna; simp [World.stepped, ha] at hna
  · intro j hj
    have hne : j ≠ id := by rintro rfl; exact hj (h.sub _ hb)
    rw [hother j hne]; exact h.out j hj
  · intro _ b hbb a hab; exact hfin a (h.order ha b hbb a hab)
  · intro _ j hj
    by_cases hjid : j = id
    · subst hjid
      have hw := h.agree ha j hr
      simp only [World.stepped, if_true]
      cases hok : w.ok with
      | true => simp
      | false =>
        rw [hok] at hw
        -- the task state never returns to SUCCESS
        revert hw
        cases hc : w.comps j with
        | target fx σ =>
          cases e with
          | g e => intro hw; exact hw
          | t e =>
            intro hw
            simp only [Comp.ok, Comp.step, Bool.false_and] at hw ⊢
            cases e <;> simp only [Ev.isTask, Target.Event.progress, Bool.false_eq_true] at he <;>
              simp only [Target.step, Target.inPhase, Target.Sys.put, Target.lookAt,
          Target.pchTask, Target.pchExec, Target.objTask,
                Target.execObj, Target.addObj, Target.linkTask, Target.linkExec, Target.finishRun]
            all_goals repeat' split
            all_goals first | exact hw | rfl
        | gen σ =>
          cases e with
          | t e => intro hw; exact hw
          | g e =>
            intro hw
            simp only [Comp.ok, Comp.step, Bool.false_and] at hw ⊢
            cases e <;> simp only [Ev.isTask, Generator.Event.progress, Bool.false_eq_true] at he <;>
              simp only [Generator.step, Generator.inRun, Generator.beginRun, Generator.taskRun,
                Generator.callRun, Generator.finishRun]
            all_goals repeat' split
            all_goals first | exact hw | rfl
    · rw [hother j hjid] at hj
      have hw := h.agree ha j hj
      simp only [World.stepped, if_neg hjid]
      split
      · rename_i hf
        simp only [Bool.and_eq_true, Bool.not_eq_true'] at hf
        rw [(fail_running _).2.2 hj, hf.2, Bool.and_false]
      · rename_i hf
        rw [hw]
        cases hok : w.ok with
        | false => rfl
        | true =>
          rw [hok] at hf
          simp only [Bool.true_and, Bool.not_eq_true', Bool.not_eq_false] at hf
          rw [hf]; rfl
  · intro _ j hj hbb
    have hne : j ≠ id := by rintro rfl; exact hbb hb
    simp only [World.stepped, if_neg hne]
    split
    · exact fail_initial (h.waiting ha j hj hbb)
    · exact h.waiting ha j hj hbb

theorem bInv_step {w : World} (h : BInv w) (e : WEvent) : BInv (w.step e) := by
  have hcalm : ∀ {w' : World}, BInv w' → BInv { w' with calm := false } := fun h' =>
    ⟨h'.views, h'.idle, h'.out, h'.sub, h'.nodup, h'.order, h'.agree, h'.waiting⟩
  cases e with
  | edit p t =>
    exact hcalm (write_bInv h)
  | delete p => exact hcalm (write_bInv h)
  | dropState id =>
    simp only [World.step]
    split
    · exact h
    · rename_i ha
      simp only [Bool.not_eq_true] at ha
      have hrun : ∀ j, (upd w.comps id (w.comps id).dropState j).running = (w.comps j).running := by
        intro j
        simp only [upd]
        split
        · rename_i e; rw [e, h.idle ha id]; exact dropState_running _ (h.idle ha id)
        · rfl
      refine ⟨?_, ?_, ?_, h.sub, h.nodup, ?_, ?_, ?_⟩
      · intro j
        simp only [upd]
        split
        · obtain ⟨h1, h2⟩ := dropState_files (w.comps id)
          exact ⟨h1.trans (h.views id).1, h2.trans (h.views id).2⟩
        · exact h.views j
      · intro _ j; exact (hrun j).trans (h.idle ha j)
      · intro j hj; exact (hrun j).trans (h.out j hj)
      all_goals (intro ha'; exact absurd ha' (by simp [ha]))
  | launch g s =>
    simp only [World.step]
    split
    · rename_i hl
      simp only [Bool.and_eq_true, Bool.not_eq_true', List.all_eq_true] at hl
      obtain ⟨ha, hl⟩ := hl
      refine ⟨?_, ?_, ?_, by simp, by simp, by simp, ?_, ?_⟩
      · intro j
        simp only
        split
        · obtain ⟨h1, h2⟩ := start_files (w.comps j) (s j)
          exact ⟨h1.trans (h.views j).1, h2.trans (h.views j).2⟩
        · exact h.views j
      · simp
      · intro j hj
        simp only at hj
        simp only [if_neg hj]
        exact h.idle ha j
      · intro _ j hj
        simp only at hj ⊢
        split
        · rename_i hm; exact (start_initial (h.idle ha j) (hl j hm)).2
        · rename_i hm; rw [if_neg hm, h.idle ha j] at hj; simp at hj
      · intro _ j hj _
        simp only at hj ⊢
        rw [if_pos hj]
        exact (start_initial (h.idle ha j) (hl j hj)).1
    · exact h
  | «begin» id =>
    simp only [World.step]
    split
    · rename_i hb
      simp only [Bool.and_eq_true, World.ready, decide_eq_true_eq, List.all_eq_true] at hb
      obtain ⟨ha, ⟨hid, hnb⟩, hdeps⟩ := hb
      have hfin : ∀ a, w.finished a = true →
          World.finished { w with begun := w.begun ++ [id] } a = true := by
        intro a hf
        simp only [World.finished, Bool.and_eq_true, decide_eq_true_eq] at hf ⊢
        exact ⟨List.mem_append_left _ hf.1, hf.2⟩
      refine ⟨h.views, h.idle, h.out, ?_, ?_, ?_, h.agree, ?_⟩
      · intro b hb
        rcases List.mem_append.1 hb with hb | hb
        · exact h.sub b hb
        · simp only [List.mem_singleton] at hb; rw [hb]; exact hid
      · simp only [List.nodup_append, h.nodup, true_and]
        refine ⟨by simp, ?_⟩
        intro x hx y hy e
        simp only [List.mem_singleton] at hy
        rw [e, hy] at hx
        exact hnb hx
      · intro _ b hb a hab
        rcases List.mem_append.1 hb with hb | hb
        · exact hfin a (h.order ha b hb a hab)
        · simp only [List.mem_singleton] at hb
          rw [hb] at hab
          refine hfin a (hdeps a ?_)
          simp only [Graph.dependents, List.mem_map, List.mem_filter, decide_eq_true_eq]
          exact ⟨(a, id), ⟨hab, rfl⟩, rfl⟩
      · intro _ j hj hjb
        exact h.waiting ha j hj fun hm => hjb (List.mem_append_left _ hm)
    · exact h
  | task id e ws =>
    simp only [World.step]
    split
    · rename_i hg
      simp only [Bool.and_eq_true, decide_eq_true_eq] at hg
      obtain ⟨⟨⟨⟨ha, hb⟩, hr⟩, he⟩, hl⟩ := hg
      obtain ⟨h1, h2⟩ := legal_spec hl
      rw [task_eq]
      exact writes_induction (P := BInv) (ok := fun _ => True) (fun w p x hw _ _ => write_bInv hw)
        ws _ (stepped_bInv h ha hb hr he) h1 fun x hx => ⟨trivial, (h2 x hx).2⟩
    · exact h
  | look id e =>
    simp only [World.step]
    split
    · rename_i hg
      simp only [Bool.and_eq_true, decide_eq_true_eq] at hg
      obtain ⟨⟨⟨ha, hb⟩, hr⟩, he⟩ := hg
      have hc : ∀ j, (upd w.comps id ((w.comps id).step e) j).running = (w.comps j).running ∧
          (upd w.comps id ((w.comps id).step e) j).ok = (w.comps j).ok ∧
          (upd w.comps id ((w.comps id).step e) j).files = (w.comps j).files ∧
          (upd w.comps id ((w.comps id).step e) j).used = (w.comps j).used := by
        intro j
        simp only [upd]
        split
        · rename_i e'; subst e'
          obtain ⟨h1, h2, -, h3, h4⟩ := look_frame (w.comps j) he
          exact ⟨h1, h2, h3, h4⟩
        · exact ⟨rfl, rfl, rfl, rfl⟩
      have hfin : ∀ a, World.finished { w with comps := upd w.comps id ((w.comps id).step e) } a =
          w.finished a := by
        intro a; simp only [World.finished, (hc a).1]
      refine ⟨fun j => ?_, fun h' => ?_, fun j hj => ?_, h.sub, h.nodup, fun _ b hb a hab => ?_,
        fun _ j hj => ?_, fun _ j hj hb => ?_⟩
      · exact ⟨(hc j).2.2.1.trans (h.views j).1, (hc j).2.2.2.trans (h.views j).2⟩
      · simp only [ha, Bool.true_eq_false] at h'
      · exact (hc j).1.trans (h.out j hj)
      · rw [hfin]; exact h.order ha b hb a hab
      · exact (hc j).2.1.trans (h.agree ha j ((hc j).1 ▸ hj))
      · simp only [upd]
        split
        · rename_i e'; subst e'; exact look_initial he (h.waiting ha _ hj hb)
        · exact h.waiting ha j hj hb
    · exact h
  | join =>
    simp only [World.step]
    split
    · refine ⟨?_, ?_, ?_, h.sub, h.nodup, by simp, by simp, by simp⟩
      · intro j
        simp only
        split
        · obtain ⟨h1, h2⟩ := kill_files (w.comps j) [] none
          exact ⟨h1.trans (h.views j).1, h2.trans (h.views j).2⟩
        · exact h.views j
      · intro _ j
        simp only
        split
        · exact kill_running _ _ _
        · rename_i hj; exact h.out j hj
      · intro j hj
        simp only at hj
        simp only [if_neg hj]
        exact h.out j hj
    · exact h
  | kill order written =>
    simp only [World.step]
    split
    · refine ⟨?_, ?_, ?_, h.sub, h.nodup, by simp, by simp, by simp⟩
      · intro j
        simp only
        split
        · obtain ⟨h1, h2⟩ := kill_files (w.comps j) (order j) (written j)
          exact ⟨h1.trans (h.views j).1, h2.trans (h.views j).2⟩
        · exact h.views j
      · intro _ j
        simp only
        split
        · exact kill_running _ _ _
        · rename_i hj; exact h.out j hj
      · intro j hj
        simp only at hj
        simp only [if_neg hj]
        exact h.out j hj
    · exact h

theorem bInv_steps : ∀ (evs : List WEvent) (w : World), BInv w → BInv (w.steps evs) := by
  intro evs
  induction evs with
  | nil => intro w h; exact h
  | cons e l ih => intro w h; exact ih _ (bInv_step h e)

end Verif.Reg
