import Verif.Reg.Rebuild

/-! # Builds that follow a build: one process -/

namespace Verif.Reg
open Verif Verif.Schema
open Verif.Target (Fixed BinArt objPath outputPath upd paths AllCurrent)

theorem Declared.congr {w w' : World} {g : Graph} {s : Str → Setup} (h : Declared w g s)
    (ho : ∀ a t, outputs (w'.comps a) t = outputs (w.comps a) t) : Declared w' g s := by
  intro a ha b hb p hp
  rw [ho] at hp
  exact h a ha b hb p hp

theorem outputs_writes {a : Str} {t : Setup} : ∀ (ws : Writes) (w : World),
    outputs ((w.writes ws).comps a) t = outputs (w.comps a) t := by
  intro ws
  induction ws with
  | nil => intro w; rfl
  | cons x l ih => intro w; exact (ih (w.write x.1 x.2)).trans (outputs_write _ _ _ _)

/-- What a builder may write depends on its kind only. -/
theorem outputs_event (w : World) (e : WEvent) (a : Str) (t : Setup) :
    outputs ((w.step e).comps a) t = outputs (w.comps a) t := by
  have h2 : ∀ (c : Comp) (e e' : Ev), outputs ((c.step e).step e') t = outputs c t := fun c e e' =>
    (outputs_step _ _ _).trans (outputs_step _ _ _)
  cases e with
  | edit p x => exact outputs_write (w.comps a) p (some x) t
  | delete p => exact outputs_write (w.comps a) p none t
  | dropState id =>
    simp only [World.step]
    split
    · rfl
    · simp only [upd]
      split
      · rename_i e'; rw [e']; exact h2 _ _ _
      · rfl
  | launch g s =>
    simp only [World.step]
    split
    · simp only
      split
      · exact outputs_start _ _ _
      · rfl
    · rfl
  | «begin» id => simp only [World.step]; split <;> rfl
  | task id e ws =>
    simp only [World.step]
    split
    · rw [task_eq, outputs_writes]
      simp only [World.stepped]
      split
      · rename_i e'; rw [e']; exact outputs_step _ _ _
      · split
        · exact outputs_fail _ _
        · rfl
    · rfl
  | look id e =>
    simp only [World.step]
    split
    · simp only [upd]
      split
      · rename_i e'; rw [e']; exact outputs_step _ _ _
      · rfl
    · rfl
  | join =>
    simp only [World.step]
    split
    · simp only
      split
      · exact h2 _ _ _
      · rfl
    · rfl
  | kill order written =>
    simp only [World.step]
    split
    · simp only
      split
      · exact h2 _ _ _
      · rfl
    · rfl

theorem outputs_events (a : Str) (t : Setup) : ∀ (evs : List WEvent) (w : World),
    outputs ((w.steps evs).comps a) t = outputs (w.comps a) t := by
  intro evs
  induction evs with
  | nil => intro w; rfl
  | cons e l ih => intro w; exact (ih (w.step e)).trans (outputs_event w e a t)

/-- A process that is left alone; its builders started with what is stored in `κ`. -/
structure PInv (κ : Str → Comp) (w : World) : Prop where
  base : BInv w
  active : w.active = true
  valid : Valid w.graph
  acyclic : Acyclic w.graph.edges
  declared : Declared w w.graph w.setup
  quiet : ∀ j ∈ w.graph.ids, Quietly (κ j) (w.setup j) (decide (j ∈ w.begun)) (w.comps j)
  good : w.ok = true → ∀ j ∈ w.graph.ids, (w.comps j).ok = true
  result : w.result = none

theorem pInv_launch {w : World} {g : Graph} {s : Str → Setup} (h : BInv w) (hp : Plan w g s)
    (hi : w.active = false) (ha : (w.step (.launch g s)).active = true) :
    PInv w.comps (w.step (.launch g s)) ∧ (w.step (.launch g s)).graph = g ∧
      (w.step (.launch g s)).setup = s ∧ (w.step (.launch g s)).files = w.files ∧
      (w.step (.launch g s)).used = w.used ∧ (w.step (.launch g s)).begun = [] ∧
      (w.step (.launch g s)).ok = true ∧
      ∀ j, (w.step (.launch g s)).comps j = if j ∈ g.ids then (w.comps j).start (s j) else w.comps j := by
  have hB := bInv_step h (.launch g s)
  revert ha hB
  simp only [World.step]
  split
  · rename_i hl
    simp only [Bool.and_eq_true, Bool.not_eq_true', List.all_eq_true] at hl
    obtain ⟨-, hl⟩ := hl
    intro ha hB
    refine ⟨⟨hB, rfl, hp.valid, hp.acyclic, hp.declared.congr fun a t => ?_, fun j hj => ?_,
      fun _ j hj => ?_, rfl⟩, rfl, rfl, rfl, rfl, rfl, rfl, fun _ => rfl⟩
    · simp only
      split
      · exact outputs_start _ _ _
      · rfl
    · simp only at hj ⊢
      rw [if_pos hj]
      simp only [List.not_mem_nil, decide_false]
      exact .start (h.idle hi j) (hl j hj)
    · simp only at hj ⊢
      rw [if_pos hj]
      exact (start_initial (h.idle hi j) (hl j hj)).2
  · intro ha; rw [hi] at ha; simp at ha

theorem write_pInv {κ : Str → Comp} {w : World} {p : Str} {x : Option Nat} (h : PInv κ w)
    (hp : ∀ j ∈ w.graph.ids, j ∈ w.begun → p ∉ (w.setup j).inputs) : PInv κ (w.write p x) where
  base := write_bInv h.base
  active := h.active
  valid := h.valid
  acyclic := h.acyclic
  declared := h.declared.congr fun a t => outputs_write _ _ _ _
  quiet := fun j hj => by
    refine (h.quiet j hj).write x ?_
    by_cases hb : j ∈ w.begun
    · exact .inr (hp j hj hb)
    · exact .inl (by simpa using hb)
  good := fun hok j hj => (write_running _ p x).2.1.trans (h.good hok j hj)
  result := h.result

theorem stepped_pInv {κ : Str → Comp} {w : World} {id : Str} {e : Ev} {ws : Writes} (h : PInv κ w)
    (hb : id ∈ w.begun) (hr : (w.comps id).running = true) (he : e.isTask = true) :
    PInv κ (w.stepped id e ws) where
  base := stepped_bInv h.base h.active hb hr he
  active := h.active
  valid := h.valid
  acyclic := h.acyclic
  declared := h.declared.congr fun a t => by
    simp only [World.stepped]
    split
    · rename_i e'; rw [e']; exact outputs_step _ _ _
    · split
      · exact outputs_fail _ _
      · rfl
  quiet := fun j hj => by
    have hq := h.quiet j hj
    have key : Quietly (κ j) (w.setup j) (decide (j ∈ w.begun)) ((w.stepped id e ws).comps j) := by
      simp only [World.stepped]
      split
      · rename_i e'
        subst e'
        rw [decide_eq_true hb] at hq ⊢
        exact hq.task (.inl he)
      · split
        · exact hq.fail
        · exact hq
    exact key
  good := fun hok j hj => by
    simp only [World.stepped, Bool.and_eq_true] at hok ⊢
    rw [hok.1, hok.2]
    simp only [Bool.not_true, Bool.and_false, Bool.false_eq_true, if_false]
    split
    · exact hok.2
    · exact h.good hok.1 j hj
  result := h.result

/-- What a process that is left alone writes is no input of a builder that has begun. -/
theorem PInv.written {κ : Str → Comp} {w : World} {id : Str} {e : Ev} {p : Str} (h : PInv κ w)
    (hb : id ∈ w.begun) (hr : (w.comps id).running = true) (hp : p ∈ mayWrite (w.comps id) e) :
    ∀ j ∈ w.graph.ids, j ∈ w.begun → p ∉ (w.setup j).inputs := by
  intro j hj hjb hpi
  have hid := h.base.sub id hb
  have := h.base.finished_of_reaches h.active
    (h.declared id hid j hj p ((h.quiet id hid).outputs hp) hpi) hjb
  simp only [World.finished, Bool.and_eq_true, Bool.not_eq_true'] at this
  rw [hr] at this
  simp at this

theorem pInv_step {κ : Str → Comp} {w : World} {e : WEvent} (h : PInv κ w) (he : e.inside = true) :
    PInv κ (w.step e) ∧ (w.step e).graph = w.graph ∧ (w.step e).setup = w.setup := by
  cases e <;> simp only [WEvent.inside, Bool.false_eq_true] at he
  case «begin» id =>
    have hB := bInv_step h.base (.begin id)
    revert hB
    simp only [World.step]
    split
    · intro hB
      refine ⟨⟨hB, h.active, h.valid, h.acyclic, h.declared, fun j hj => ?_, h.good, h.result⟩, rfl, rfl⟩
      have hq := h.quiet j hj
      by_cases hb : j ∈ w.begun
      · rw [decide_eq_true hb] at hq
        rw [decide_eq_true (List.mem_append_left _ hb)]
        exact hq
      · by_cases hi : j = id
        · rw [decide_eq_true (List.mem_append_right _ (by simp [hi]))]
          exact hq.begin
        · rw [decide_eq_false hb] at hq
          rw [decide_eq_false (by simp [hb, hi])]
          exact hq
    · exact fun _ => ⟨h, rfl, rfl⟩
  case task id e ws =>
    simp only [World.step]
    split
    · rename_i hg
      simp only [Bool.and_eq_true, decide_eq_true_eq] at hg
      obtain ⟨⟨⟨⟨ha, hb⟩, hr⟩, het⟩, hl⟩ := hg
      obtain ⟨h1, h2⟩ := legal_spec hl
      rw [task_eq]
      have hfr := writes_frame ws (w.stepped id e ws)
      refine ⟨?_, hfr.2.1, hfr.2.2.1⟩
      have := writes_induction
        (P := fun w' => PInv κ w' ∧ w'.begun = w.begun ∧ w'.graph = w.graph ∧ w'.setup = w.setup)
        (ok := fun p => ∀ j ∈ w.graph.ids, j ∈ w.begun → p ∉ (w.setup j).inputs)
        (fun w' p x hw hp _ => ⟨write_pInv hw.1 (by rw [hw.2.1, hw.2.2.1, hw.2.2.2]; exact hp),
          hw.2.1, hw.2.2.1, hw.2.2.2⟩)
        ws (w.stepped id e ws) ⟨stepped_pInv h hb hr het, rfl, rfl, rfl⟩ h1
        (fun x hx => ⟨h.written hb hr (h2 x hx).1, (h2 x hx).2⟩)
      exact this.1
    · exact ⟨h, rfl, rfl⟩
  case look id e =>
    have hB := bInv_step h.base (.look id e)
    revert hB
    simp only [World.step]
    split
    · rename_i hg
      simp only [Bool.and_eq_true, decide_eq_true_eq] at hg
      obtain ⟨⟨⟨ha, hb⟩, hr⟩, hel⟩ := hg
      intro hB
      refine ⟨⟨hB, h.active, h.valid, h.acyclic, h.declared.congr fun a t => ?_, fun j hj => ?_,
        fun hok j hj => ?_, h.result⟩, rfl, rfl⟩
      · simp only [upd]
        split
        · rename_i e'; rw [e']; exact outputs_step _ _ _
        · rfl
      · have hq := h.quiet j hj
        simp only [upd]
        split
        · rename_i e'
          subst e'
          rw [decide_eq_true hb] at hq ⊢
          exact hq.task (.inr hel)
        · exact hq
      · simp only [upd]
        split
        · rename_i e'
          subst e'
          exact (look_frame _ hel).2.1.trans (h.good hok j hj)
        · exact h.good hok j hj
    · exact fun _ => ⟨h, rfl, rfl⟩

theorem pInv_steps {κ : Str → Comp} : ∀ (mid : List WEvent) (w : World), PInv κ w →
    (∀ e ∈ mid, e.inside = true) →
    PInv κ (w.steps mid) ∧ (w.steps mid).graph = w.graph ∧ (w.steps mid).setup = w.setup := by
  intro mid
  induction mid with
  | nil => intro w h _; exact ⟨h, rfl, rfl⟩
  | cons e l ih =>
    intro w h he
    obtain ⟨h1, h2, h3⟩ := pInv_step h (he e (by simp))
    obtain ⟨h4, h5, h6⟩ := ih (w.step e) h1 fun x hx => he x (by simp [hx])
    exact ⟨h4, h5.trans h2, h6.trans h3⟩

/-! ## What a process executes and writes -/

theorem writes_executed {j : Str} : ∀ (ws : Writes) (w : World),
    Executed ((w.writes ws).comps j) ↔ Executed (w.comps j) := by
  intro ws
  induction ws with
  | nil => intro w; exact Iff.rfl
  | cons x l ih => intro w; exact (ih (w.write x.1 x.2)).trans Executed.write

theorem executed_step {w : World} {e : WEvent} {j : Str} (he : e.inside = true)
    (h : Executed (w.comps j)) : Executed ((w.step e).comps j) := by
  cases e <;> simp only [WEvent.inside, Bool.false_eq_true] at he
  case «begin» id => simp only [World.step]; split <;> exact h
  case task id e ws =>
    simp only [World.step]
    split
    · rename_i hg
      simp only [Bool.and_eq_true, decide_eq_true_eq] at hg
      obtain ⟨⟨-, het⟩, -⟩ := hg
      rw [task_eq, writes_executed]
      simp only [World.stepped]
      split
      · rename_i e'; subst e'; exact h.task het
      · split
        · exact h.fail
        · exact h
    · exact h
  case look id e =>
    simp only [World.step]
    split
    · rename_i hg
      simp only [Bool.and_eq_true, decide_eq_true_eq] at hg
      simp only [upd]
      split
      · rename_i e'; subst e'; exact (Executed.look hg.2).2 h
      · exact h
    · exact h

theorem executed_steps {j : Str} : ∀ (mid : List WEvent) (w : World), (∀ e ∈ mid, e.inside = true) →
    Executed (w.comps j) → Executed ((w.steps mid).comps j) := by
  intro mid
  induction mid with
  | nil => intro w _ h; exact h
  | cons e l ih =>
    intro w he h
    exact ih (w.step e) (fun x hx => he x (by simp [hx])) (executed_step (he e (by simp)) h)

/-- Whenever a file changes, a builder that has it among its outputs executes something. -/
theorem changed_step {κ : Str → Comp} {w : World} {e : WEvent} {p : Str} (h : PInv κ w)
    (he : e.inside = true) (hp : (w.step e).files p ≠ w.files p) :
    ∃ a ∈ w.graph.ids, Executed ((w.step e).comps a) ∧ p ∈ outputs (w.comps a) (w.setup a) := by
  cases e <;> simp only [WEvent.inside, Bool.false_eq_true] at he
  case «begin» id =>
    simp only [World.step] at hp
    split at hp <;> exact absurd rfl hp
  case task id e ws =>
    revert hp
    simp only [World.step]
    split
    · rename_i hg
      simp only [Bool.and_eq_true, decide_eq_true_eq] at hg
      obtain ⟨⟨⟨⟨ha, hb⟩, hr⟩, het⟩, hl⟩ := hg
      obtain ⟨-, h2⟩ := legal_spec hl
      rw [task_eq]
      intro hp
      have hm : p ∈ ws.map (·.1) := Classical.byContradiction fun hm =>
        hp (writes_used ws (w.stepped id e ws) p hm).2
      obtain ⟨x, hx, rfl⟩ := List.mem_map.1 hm
      have hw := (h2 x hx).1
      have hid := h.base.sub id hb
      refine ⟨id, hid, ?_, (h.quiet id hid).outputs hw⟩
      rw [writes_executed]
      simp only [World.stepped, if_true]
      exact mayWrite_executed hw
    · exact fun hp => absurd rfl hp
  case look id e =>
    simp only [World.step] at hp
    split at hp <;> exact absurd rfl hp

theorem changed_steps {κ : Str → Comp} {p : Str} : ∀ (mid : List WEvent) (w : World), PInv κ w →
    (∀ e ∈ mid, e.inside = true) → (w.steps mid).files p ≠ w.files p →
    ∃ a ∈ w.graph.ids, Executed ((w.steps mid).comps a) ∧ p ∈ outputs (w.comps a) (w.setup a) := by
  intro mid
  induction mid with
  | nil => intro w _ _ h; exact absurd rfl h
  | cons e l ih =>
    intro w h he hp
    obtain ⟨h1, h2, h3⟩ := pInv_step h (he e (by simp))
    have hl : ∀ x ∈ l, x.inside = true := fun x hx => he x (by simp [hx])
    by_cases hs : (w.step e).files p = w.files p
    · obtain ⟨a, ha, hx, ho⟩ := ih (w.step e) h1 hl (by rw [hs]; exact hp)
      rw [h2] at ha
      rw [h3, outputs_event] at ho
      exact ⟨a, ha, hx, ho⟩
    · obtain ⟨a, ha, hx, ho⟩ := changed_step h (he e (by simp)) hs
      exact ⟨a, ha, executed_steps l _ hl hx, ho⟩

end Verif.Reg
