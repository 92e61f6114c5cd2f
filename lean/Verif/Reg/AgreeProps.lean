import Verif.Reg.AgreeInv
import Verif.Reg.Again

/-! # Builds under different schedules: comparing two builds -/

namespace Verif.Reg
open Verif Verif.Schema Verif.Json
open Verif.Target (Fixed BinArt objPath outputPath upd paths)

/-- What is known about a build of the script up to `w'`. -/
structure Facts (B : Behaviour) (w : World) (g : Graph) (s : Str → Setup) (w' : World) : Prop where
  pinv : PInv w.comps w'
  graph : w'.graph = g
  setup : w'.setup = s
  settled : Settled w'
  blamed : Blamed w'
  trail : Trail B w w'

theorem RunsScript.facts {B : Behaviour} {w w' : World} {g : Graph} {s : Str → Setup} {mid : List WEvent}
    (hB : BInv w) (h : RunsScript w g s mid w') (hf : Follows B (w.step (.launch g s)) mid) :
    Facts B w g s w' := by
  obtain ⟨k1, k2, k3, k4, k5, k6, k7, k8⟩ := pInv_launch hB h.plan h.idle h.launched
  have hnone : ∀ a ∈ g.ids, ∀ x b, ¬ Carried ((w.step (.launch g s)).comps a) x b := by
    intro a ha x b hd
    have hin := k1.base.waiting k1.active a (by rw [k2]; exact ha) (by rw [k6]; simp)
    exact ((fail_initial hin).halted ((fail_running _).2.2 hin.running)).not_executed
      ((grows_fail _).did hd).executed
  have ht : Trail B w (w.step (.launch g s)) := by
    refine ⟨fun p t ht => by rw [k5]; exact ht, ?_, ?_, ?_, fun p => .inl (by rw [k4])⟩
    · rw [k2]; exact fun a ha x b hd => absurd hd (hnone a ha x b)
    · rw [k2]; exact fun a ha x hd => absurd hd (hnone a ha x true)
    · rw [k2]; rintro p ⟨a, ha, x, hd, -⟩; exact absurd hd (hnone a ha x true)
  obtain ⟨h1, h2, h3⟩ := pInv_steps mid _ k1 h.inside
  obtain ⟨h4, h5⟩ := settled_steps mid _ k1 (by intro j hj; rw [k6] at hj; simp at hj) (.inl k7) h.inside
  have h6 := trail_steps mid _ k1 ht h.inside hf
  rw [h.result] at h1 h2 h3 h4 h5 h6
  exact ⟨h1, h2.trans k2, h3.trans k3, h4, h5, h6⟩

section
variable {B : Behaviour} {w wA wB : World} {g : Graph} {s : Str → Setup}

theorem Facts.quiet (h : Facts B w g s wA) {j : Str} (hj : j ∈ g.ids) :
    Quietly (w.comps j) (s j) (decide (j ∈ wA.begun)) (wA.comps j) := by
  have := h.pinv.quiet j (by rw [h.graph]; exact hj)
  rw [h.setup] at this; exact this

theorem Ended.mem (h : Facts B w g s wA) {j : Str} (he : Ended wA j) : j ∈ g.ids := by
  obtain ⟨h1, -⟩ := he
  simp only [World.finished, Bool.and_eq_true, decide_eq_true_eq] at h1
  rw [← h.graph]
  exact h.pinv.base.sub j h1.1

theorem Ended.clean (h : Facts B w g s wA) (hreg : ∀ j ∈ g.ids, Regular (s j)) {j : Str} (he : Ended wA j) :
    ¬ OwnFailure (wA.comps j) := by
  have hj := he.mem h
  obtain ⟨h1, h2⟩ := he
  simp only [World.finished, Bool.and_eq_true, decide_eq_true_eq, Bool.not_eq_true'] at h1
  exact ((h.quiet hj).present (hreg j hj) h1.2 h2).2

theorem Ended.below (h : Facts B w g s wA) {j : Str} (he : Ended wA j) :
    ∀ a, Reaches g.edges a j → Ended wA a := by
  obtain ⟨h1, h2⟩ := he
  simp only [World.finished, Bool.and_eq_true, decide_eq_true_eq, Bool.not_eq_true'] at h1
  rcases h.settled j h1.1 with ⟨-, h3⟩ | h3
  · rw [h2] at h3; simp at h3
  · rw [h.graph] at h3; exact h3

theorem Facts.below (h : Facts B w g s wA) {j : Str} (hj : j ∈ g.ids) {x : Cmd} {b : Bool}
    (hd : Carried (wA.comps j) x b) : ∀ a, Reaches g.edges a j → Ended wA a := by
  by_cases hb : j ∈ wA.begun
  · rcases h.settled j hb with ⟨h3, -⟩ | h3
    · exact absurd hd.executed h3.not_executed
    · rw [h.graph] at h3; exact h3
  · exfalso
    have hin := h.pinv.base.waiting h.pinv.active j (by rw [h.graph]; exact hj) hb
    exact ((fail_initial hin).halted ((fail_running _).2.2 hin.running)).not_executed
      ((grows_fail _).did hd).executed

/-- What the builders below have executed is the same in both builds, so the inputs agree. -/
theorem Facts.alike (hA : Facts B w g s wA) (hB : Facts B w g s wB) (hreg : ∀ j ∈ g.ids, Regular (s j))
    {j : Str} (hj : j ∈ g.ids) (eA : ∀ a, Reaches g.edges a j → Ended wA a)
    (eB : ∀ a, Reaches g.edges a j → Ended wB a)
    (same : ∀ a, Reaches g.edges a j → ∀ x, Carried (wA.comps a) x true ↔ Carried (wB.comps a) x true) :
    ∀ p ∈ (s j).inputs, Alike w.used wA.files wB.files p := by
  intro p hp
  have hdecl : ∀ {w'}, Facts B w g s w' → ∀ a ∈ g.ids, p ∈ outputs (w'.comps a) (s a) → Reaches g.edges a j := by
    intro w' h a ha ho
    have := h.pinv.declared
    rw [h.graph, h.setup] at this
    exact this a ha j hj p ho hp
  have hfail : ∀ {w'}, Facts B w g s w' → (∀ a, Reaches g.edges a j → Ended w' a) →
      ¬ ∃ a ∈ w'.graph.ids, ∃ x, Carried (w'.comps a) x false ∧ p ∈ outputs (w'.comps a) (w'.setup a) := by
    rintro w' h he ⟨a, ha, x, hd, ho⟩
    rw [h.graph] at ha
    rw [h.setup] at ho
    exact (he a (hdecl h a ha ho)).clean h hreg (did_own hd)
  have key : ∀ {w' w''}, Facts B w g s w' → Facts B w g s w'' → (∀ a, Reaches g.edges a j → Ended w' a) →
      (∀ a, Reaches g.edges a j → Ended w'' a) →
      (∀ a, Reaches g.edges a j → ∀ x, Carried (w'.comps a) x true → Carried (w''.comps a) x true) →
      (∃ a ∈ g.ids, ∃ x, Carried (w'.comps a) x true ∧ p ∈ B.writes a x) →
      (∃ t, w'.files p = some t ∧ t ∉ w.used p) ∧ ∃ t, w''.files p = some t ∧ t ∉ w.used p := by
    rintro w' w'' h h' he he' hs ⟨a, ha, x, hd, hw⟩
    have ho := h.trail.own a (by rw [h.graph]; exact ha) x hd p hw
    rw [h.setup] at ho
    have hd' := hs a (hdecl h a ha ho) x hd
    have h1 := h.trail.fresh p ⟨a, by rw [h.graph]; exact ha, x, hd, hw⟩
    have h2 := h'.trail.fresh p ⟨a, by rw [h'.graph]; exact ha, x, hd', hw⟩
    exact ⟨h1.resolve_right (hfail h he), h2.resolve_right (hfail h' he')⟩
  rcases hA.trail.kept p with h1 | h1 | h1
  · rcases hB.trail.kept p with h2 | h2 | h2
    · exact .inl (h1.trans h2.symm)
    · rw [hB.graph] at h2
      obtain ⟨k1, k2⟩ := key hB hA eB eA (fun a ha x => (same a ha x).2) h2
      exact .inr ⟨k2, k1⟩
    · exact absurd h2 (hfail hB eB)
  · rw [hA.graph] at h1
    exact .inr (key hA hB eA eB (fun a ha x => (same a ha x).1) h1)
  · exact absurd h1 (hfail hA eA)

theorem Facts.does (h : Facts B w g s wA) (hreg : ∀ j ∈ g.ids, Regular (s j)) {j : Str} (he : Ended wA j)
    {x : Cmd} (hn : Needs wA.files (w.comps j) (s j) x) : Carried (wA.comps j) x true := by
  have hj := he.mem h
  obtain ⟨h1, h2⟩ := he
  simp only [World.finished, Bool.and_eq_true, decide_eq_true_eq, Bool.not_eq_true'] at h1
  refine (h.quiet hj).does (hreg j hj) h1.2 h2 ?_
  rw [(h.pinv.base.views j).1]; exact hn

theorem Facts.needs (h : Facts B w g s wA) (hreg : ∀ j ∈ g.ids, Regular (s j)) {j : Str} (hj : j ∈ g.ids)
    {x : Cmd} {b : Bool} (hd : Carried (wA.comps j) x b) : Needs wA.files (w.comps j) (s j) x := by
  have := (h.quiet hj).needs (hreg j hj) hd
  rw [(h.pinv.base.views j).1] at this; exact this

/-- All that a build has executed is executed by one in which all builders end without a failure. -/
theorem Facts.compare (hA : Facts B w g s wA) (hB : Facts B w g s wB) (hreg : ∀ j ∈ g.ids, Regular (s j))
    (hdat : ∀ j ∈ g.ids, DatedState w.used (w.comps j)) (hall : ∀ j ∈ g.ids, Ended wA j) {j : Str}
    (hj : j ∈ g.ids) : (∀ x b, Carried (wB.comps j) x b → Carried (wA.comps j) x true) ∧
      (Ended wB j → ∀ x, Carried (wA.comps j) x true → Carried (wB.comps j) x true) := by
  have hac : Acyclic g.edges := by have := hA.pinv.acyclic; rw [hA.graph] at this; exact this
  obtain ⟨m, hm⟩ := weights g.edges hac
  generalize hn : total m g.ids - m j = n
  induction n using Nat.strongRecOn generalizing j with
  | ind n ih =>
    have hsame : (∀ a, Reaches g.edges a j → Ended wB a) → ∀ a, Reaches g.edges a j → ∀ x,
        Carried (wA.comps a) x true ↔ Carried (wB.comps a) x true := by
      intro he a ha x
      have haid := (he a ha).mem hB
      have l1 := lighter hm ha
      have l2 := le_total (w := m) haid
      obtain ⟨k1, k2⟩ := ih _ (by omega) haid rfl
      exact ⟨k2 (he a ha) x, k1 x true⟩
    have eA : ∀ a, Reaches g.edges a j → Ended wA a := (hall j hj).below hA
    have hal : (∀ a, Reaches g.edges a j → Ended wB a) → ∀ p ∈ (s j).inputs,
        Alike w.used wA.files wB.files p := fun he => hA.alike hB hreg hj eA he (hsame he)
    constructor
    · intro x b hd
      have hn := hB.needs hreg hj hd
      exact hA.does hreg (hall j hj)
        (hn.alike (hdat j hj) fun p hp => (hal (hB.below hj hd) p hp).symm)
    · intro he x hd
      exact hB.does hreg he ((hA.needs hreg hj hd).alike (hdat j hj) (hal (he.below hB)))

theorem Facts.over_ended (hA : Facts B w g s wA) (hj : (wA.step .join).active = false)
    (hok : (wA.step .join).result = some true) : ∀ j ∈ g.ids, Ended wA j := by
  obtain ⟨ho, hres⟩ := join_over hA.pinv.active hj
  rw [hres, Option.some.injEq] at hok
  intro j hj
  exact ⟨over_finished hA.pinv.valid hA.pinv.acyclic ho j (by rw [hA.graph]; exact hj),
    hA.pinv.good hok j (by rw [hA.graph]; exact hj)⟩

theorem Facts.succeeds (hA : Facts B w g s wA) (hB : Facts B w g s wB) (hreg : ∀ j ∈ g.ids, Regular (s j))
    (hdat : ∀ j ∈ g.ids, DatedState w.used (w.comps j)) (hacc : ∀ j ∈ g.ids, Accepts (w.comps j) (s j))
    (hall : ∀ j ∈ g.ids, Ended wA j) (hst : ∀ j ∈ g.ids, ¬ Unstored (wB.comps j)) : wB.ok = true := by
  rcases hB.blamed with h | ⟨j, hj, ho, he⟩
  · exact h
  · exfalso
    rw [hB.graph] at hj he
    have cmp : ∀ {a}, a ∈ g.ids → _ := fun {a} ha => hA.compare hB hreg hdat hall (j := a) ha
    have hnf : ¬ Faulty (wB.comps j) := by
      intro hf
      rcases faulty_did hf with ⟨x, hd⟩ | hf
      · have h1 := hB.trail.outcome j (by rw [hB.graph]; exact hj) x false hd
        have h2 := hA.trail.outcome j (by rw [hA.graph]; exact hj) x true ((cmp hj).1 x false hd)
        rw [← h1] at h2; simp at h2
      · exact hst j hj hf
    obtain ⟨p, hp, hn⟩ := (hB.quiet hj).absent (hacc j hj) ho hnf
    rw [(hB.pinv.base.views j).1] at hn
    have hal := hA.alike hB hreg hj ((hall j hj).below hA) he
      (fun a ha x => ⟨(cmp ((he a ha).mem hB)).2 (he a ha) x, (cmp ((he a ha).mem hB)).1 x true⟩) p hp
    obtain ⟨h1, h2⟩ := hall j hj
    simp only [World.finished, Bool.and_eq_true, decide_eq_true_eq, Bool.not_eq_true'] at h1
    obtain ⟨t, ht⟩ := ((hA.quiet hj).present (hreg j hj) h1.2 h2).1 p hp
    rw [(hA.pinv.base.views j).1] at ht
    rcases hal with hal | ⟨-, t', ht', -⟩
    · rw [ht, hn] at hal; simp at hal
    · rw [hn] at ht'; simp at ht'

end

end Verif.Reg
