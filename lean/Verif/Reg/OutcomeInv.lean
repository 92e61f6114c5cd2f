import Verif.Reg.Outcome

/-! # When a build succeeds: processes -/

namespace Verif.Reg
open Verif Verif.Schema
open Verif.Target (Fixed BinArt objPath outputPath upd paths Clean)

theorem writes_grows {j : Str} : ∀ (ws : Writes) (w : World),
    Grows (w.comps j) ((w.writes ws).comps j) ∧ Grows ((w.writes ws).comps j) (w.comps j) := by
  intro ws
  induction ws with
  | nil => intro w; exact ⟨.refl _, .refl _⟩
  | cons x l ih =>
    intro w
    have := ih (w.write x.1 x.2)
    exact ⟨(grows_write _ x.1 x.2).trans this.1, this.2.trans (write_grows _ x.1 x.2)⟩

/-- Nothing that exists is removed, and what is written exists. -/
theorem writes_exist {p : Str} : ∀ (ws : Writes) (w : World), (∀ x ∈ ws, x.2.isSome = true) →
    ((∃ t, w.files p = some t) ∨ ∃ t, (p, some t) ∈ ws) → ∃ t, (w.writes ws).files p = some t := by
  intro ws
  induction ws with
  | nil => rintro w - (h | ⟨t, h⟩); exact h; simp at h
  | cons x l ih =>
    intro w hs h
    refine ih (w.write x.1 x.2) (fun y hy => hs y (by simp [hy])) ?_
    by_cases hp : p = x.1
    · obtain ⟨t, ht⟩ := Option.isSome_iff_exists.1 (hs x (by simp))
      exact .inl ⟨t, by simp [World.write, upd, hp, ht]⟩
    · rcases h with ⟨t, h⟩ | ⟨t, h⟩
      · exact .inl ⟨t, by simp [World.write, upd, hp, h]⟩
      · rcases List.mem_cons.1 h with h | h
        · exact absurd (congrArg (·.1) h) hp
        · exact .inr ⟨t, h⟩

theorem grows_step (w : World) {e : WEvent} (he : e.inside = true) (j : Str) :
    Grows (w.comps j) ((w.step e).comps j) := by
  cases e <;> simp only [WEvent.inside, Bool.false_eq_true] at he
  case «begin» id => simp only [World.step]; split <;> exact .refl _
  case task id e ws =>
    simp only [World.step]
    split
    · rename_i hg
      simp only [Bool.and_eq_true, decide_eq_true_eq] at hg
      obtain ⟨⟨-, het⟩, -⟩ := hg
      rw [task_eq]
      refine Grows.trans ?_ (writes_grows ws (w.stepped id e ws)).1
      simp only [World.stepped]
      split
      · rename_i e'; subst e'; exact grows_task _ het
      · split
        · exact grows_fail _
        · exact .refl _
    · exact .refl _
  case look id e =>
    simp only [World.step]
    split
    · rename_i hg
      simp only [Bool.and_eq_true, decide_eq_true_eq] at hg
      simp only [upd]
      split
      · rename_i e'; subst e'; exact (grows_look _ hg.2).1
      · exact .refl _
    · exact .refl _

/-- When the task state becomes FAILURE, a builder has failed itself. -/
theorem failed_step {κ : Str → Comp} {w : World} {e : WEvent} (h : PInv κ w) (he : e.inside = true)
    (hok : w.ok = true) (hf : (w.step e).ok = false) :
    ∃ j ∈ w.graph.ids, j ∈ w.begun ∧ OwnFailure ((w.step e).comps j) := by
  cases e <;> simp only [WEvent.inside, Bool.false_eq_true] at he
  case «begin» id =>
    revert hf
    simp only [World.step]
    split <;> (intro hf; rw [hok] at hf; simp at hf)
  case task id e ws =>
    revert hf
    simp only [World.step]
    split
    · rename_i hg
      simp only [Bool.and_eq_true, decide_eq_true_eq] at hg
      obtain ⟨⟨⟨⟨ha, hb⟩, hr⟩, het⟩, hl⟩ := hg
      rw [task_eq, (writes_frame ws (w.stepped id e ws)).2.2.2.2.1]
      intro hf
      have hid := h.base.sub id hb
      have hc : ((w.comps id).step e).ok = false := by
        simpa only [World.stepped, hok, Bool.true_and] using hf
      refine ⟨id, hid, hb, (writes_grows ws (w.stepped id e ws)).1.own ?_⟩
      simp only [World.stepped, if_true]
      exact own_of_task het (h.good hok id hid) hc
    · intro hf; rw [hok] at hf; simp at hf
  case look id e =>
    revert hf
    simp only [World.step]
    split <;> (intro hf; rw [hok] at hf; simp at hf)

theorem own_steps {κ : Str → Comp} : ∀ (mid : List WEvent) (w : World), PInv κ w →
    (∀ e ∈ mid, e.inside = true) → (w.ok = true ∨ ∃ j ∈ w.graph.ids, OwnFailure (w.comps j)) →
    (w.steps mid).ok = true ∨ ∃ j ∈ w.graph.ids, OwnFailure ((w.steps mid).comps j) := by
  intro mid
  induction mid with
  | nil => intro w _ _ h; exact h
  | cons e l ih =>
    intro w hp he h
    obtain ⟨h1, h2, -⟩ := pInv_step hp (he e (by simp))
    have := ih (w.step e) h1 (fun x hx => he x (by simp [hx])) ?_
    · rw [h2] at this; exact this
    · rw [h2]
      cases hf : (w.step e).ok with
      | true => exact .inl rfl
      | false =>
        refine .inr ?_
        rcases h with h | ⟨j, hj, h⟩
        · obtain ⟨j, hj, -, h⟩ := failed_step hp (he e (by simp)) h hf
          exact ⟨j, hj, h⟩
        · exact ⟨j, hj, (grows_step w (he e (by simp)) j).own h⟩

/-! ## Builds in which everything is provided -/

structure OInv (w₀ w : World) : Prop where
  kept : ∀ p t, w₀.files p = some t → ∃ t', w.files p = some t'
  made : ∀ a ∈ w.graph.ids, ∀ p, Has (w.comps a) (w.setup a) p → ∃ t, w.files p = some t
  sound : w.ok = true ∨ ∃ j ∈ w.graph.ids, Faulty (w.comps j)

/-- Files and yields after a step. -/
theorem exists_step {w₀ w : World} {e : WEvent} (h : OInv w₀ w) (he : e.inside = true)
    (hth : Thorough w.setup e) :
    (∀ p t, w.files p = some t → ∃ t', (w.step e).files p = some t') ∧
    ∀ a ∈ w.graph.ids, ∀ p, Has ((w.step e).comps a) (w.setup a) p → ∃ t, (w.step e).files p = some t := by
  cases e <;> simp only [WEvent.inside, Bool.false_eq_true] at he
  case «begin» id =>
    simp only [World.step]
    split <;> exact ⟨fun p t hp => ⟨t, hp⟩, h.made⟩
  case task id e ws =>
    simp only [World.step]
    split
    · rename_i hg
      simp only [Bool.and_eq_true, decide_eq_true_eq] at hg
      obtain ⟨⟨⟨⟨ha, hb⟩, hr⟩, het⟩, hl⟩ := hg
      obtain ⟨h1, h2⟩ := hth
      rw [task_eq]
      refine ⟨fun p t hp => writes_exist ws _ h1 (.inl ⟨t, hp⟩), fun a hai p hp => ?_⟩
      have hp' := (writes_grows (j := a) ws (w.stepped id e ws)).2.has hp
      refine writes_exist ws _ h1 ?_
      simp only [World.stepped] at hp'
      split at hp'
      · rename_i e'
        subst e'
        rcases has_task het hl h2 hp' with hp' | hp'
        · exact .inl (h.made a hai p hp')
        · exact .inr hp'
      · split at hp'
        · exact .inl (h.made a hai p hp'.of_fail)
        · exact .inl (h.made a hai p hp')
    · exact ⟨fun p t hp => ⟨t, hp⟩, h.made⟩
  case look id e =>
    simp only [World.step]
    split
    · rename_i hg
      simp only [Bool.and_eq_true, decide_eq_true_eq] at hg
      refine ⟨fun p t hp => ⟨t, hp⟩, fun a hai p hp => ?_⟩
      simp only [upd] at hp
      split at hp
      · rename_i e'
        subst e'
        exact h.made a hai p ((grows_look _ hg.2).2.has hp)
      · exact h.made a hai p hp
    · exact ⟨fun p t hp => ⟨t, hp⟩, h.made⟩

theorem yields_outputs {c : Comp} {s : Setup} {p : Str} (h : p ∈ yields c s) : p ∈ outputs c s := by
  cases c <;> cases s <;> simp only [yields, List.not_mem_nil] at h
  · simp only [outputs, List.mem_append]
    refine .inr ?_
    rw [List.mem_singleton.1 h]
    simp [linkFiles]
  · exact h

theorem oInv_step {w₀ w : World} {e : WEvent} (hp : PInv w₀.comps w) (h : OInv w₀ w)
    (hprov : Provided w₀ w.graph w.setup) (hout : ∀ a t, outputs (w.comps a) t = outputs (w₀.comps a) t)
    (hreg : ∀ j ∈ w.graph.ids, Regular (w.setup j)) (hacc : ∀ j ∈ w.graph.ids, Accepts (w₀.comps j) (w.setup j))
    (he : e.inside = true) (hth : Thorough w.setup e) : OInv w₀ (w.step e) := by
  obtain ⟨h1, h2, h3⟩ := pInv_step hp he
  obtain ⟨k1, k2⟩ := exists_step h he hth
  have kept : ∀ p t, w₀.files p = some t → ∃ t', (w.step e).files p = some t' := by
    intro p t hp
    obtain ⟨t', ht'⟩ := h.kept p t hp
    exact k1 p t' ht'
  refine ⟨kept, ?_, ?_⟩
  · rw [h2, h3]; exact k2
  rw [h2]
  have hsound := h.sound
  refine Or.elim hsound (fun hok => ?_) fun ⟨j, hj, hf⟩ => .inr ⟨j, hj, (grows_step w he j).faulty hf⟩
  cases hf : (w.step e).ok with
  | true => exact .inl rfl
  | false =>
    refine .inr ?_
    obtain ⟨j, hj, hb, ho⟩ := failed_step hp he hok hf
    refine ⟨j, hj, Classical.byContradiction fun hnf => ?_⟩
    have hq := h1.quiet j (by rw [h2]; exact hj)
    rw [h3] at hq
    obtain ⟨p, hpi, hpn⟩ := hq.absent (hacc j hj) ho hnf
    rw [(h1.base.views j).1] at hpn
    rcases hprov j hj p hpi with ⟨t, ht⟩ | ⟨a, ha, hu, hpr⟩
    · obtain ⟨t', ht'⟩ := kept p t ht
      rw [hpn] at ht'; simp at ht'
    · have hr : Reaches w.graph.edges a j :=
        hp.declared a ha j hj p (by rw [hout]; exact yields_outputs hpr) hpi
      have hfin := hp.base.finished_of_reaches hp.active hr hb
      simp only [World.finished, Bool.and_eq_true, Bool.not_eq_true'] at hfin
      have hd := (hp.quiet a ha).delivered (hreg a ha) hfin.2 (hp.good hok a ha) hu p hpr
      obtain ⟨t, ht⟩ := k2 a ha p ((grows_step w he a).has hd)
      rw [hpn] at ht; simp at ht

theorem oInv_steps {w₀ : World} : ∀ (mid : List WEvent) (w : World), PInv w₀.comps w → OInv w₀ w →
    Provided w₀ w.graph w.setup → (∀ a t, outputs (w.comps a) t = outputs (w₀.comps a) t) →
    (∀ j ∈ w.graph.ids, Regular (w.setup j)) → (∀ j ∈ w.graph.ids, Accepts (w₀.comps j) (w.setup j)) →
    (∀ e ∈ mid, e.inside = true) → (∀ e ∈ mid, Thorough w.setup e) → OInv w₀ (w.steps mid) := by
  intro mid
  induction mid with
  | nil => intro w _ h _ _ _ _ _ _; exact h
  | cons e l ih =>
    intro w hp h hprov hout hreg hacc he hth
    obtain ⟨h1, h2, h3⟩ := pInv_step hp (he e (by simp))
    refine ih (w.step e) h1 (oInv_step hp h hprov hout hreg hacc (he e (by simp)) (hth e (by simp))) ?_ ?_ ?_ ?_
      (fun x hx => he x (by simp [hx])) ?_
    · rw [h2, h3]; exact hprov
    · intro a t; rw [outputs_event]; exact hout a t
    · rw [h2, h3]; exact hreg
    · rw [h2, h3]; exact hacc
    · rw [h3]; exact fun x hx => hth x (by simp [hx])

theorem join_over {w : World} (ha : w.active = true) (hj : (w.step .join).active = false) :
    w.over = true ∧ (w.step .join).result = some w.ok := by
  revert hj
  simp only [World.step]
  split
  · rename_i hg
    simp only [Bool.and_eq_true] at hg
    exact fun _ => ⟨hg.2, rfl⟩
  · intro hj; rw [ha] at hj; simp at hj

end Verif.Reg
