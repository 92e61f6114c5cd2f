import Verif.Reg.OutcomeInv
import Verif.Reg.OneScriptExamples

/-! # C114: when a build succeeds -/

namespace Verif.Reg
open Verif Verif.Schema
open Verif.Target (Fixed BinArt objPath outputPath upd paths Clean)

section
variable {kinds : Str → Kind} {hist mid : List WEvent} {w w' : World} {g : Graph} {s : Str → Setup}

/-- C114: a build that is left alone and has come to its end has succeeded exactly when no command, no
callback and no storing of a state failed, and every file exists that a builder of the script reads. -/
theorem C114_result (hw : w = (World.init kinds).steps hist) (h : RunsScript w g s mid w')
    (hreg : ∀ j ∈ g.ids, Regular (s j)) (hacc : ∀ j ∈ g.ids, Accepts (w.comps j) (s j))
    (hj : (w'.step .join).active = false) :
    (w'.step .join).result = some true ↔
      (∀ j ∈ g.ids, ¬ Faulty (w'.comps j)) ∧ ∀ j ∈ g.ids, Present w'.files (s j) := by
  have hB : BInv w := by rw [hw]; exact bInv_steps hist _ (bInv_init kinds)
  obtain ⟨k1, k2, -, -, -, -, k3, -⟩ := pInv_launch hB h.plan h.idle h.launched
  have hown := own_steps mid _ k1 h.inside (.inl k3)
  rw [h.result, k2] at hown
  obtain ⟨hp, hg, hs⟩ := h.pInv hB
  obtain ⟨ho, hres⟩ := join_over hp.active hj
  rw [hres, Option.some.injEq]
  have hfin := over_finished hp.valid hp.acyclic ho
  have hq : ∀ j ∈ g.ids, Quietly (w.comps j) (s j) (decide (j ∈ w'.begun)) (w'.comps j) := by
    intro j hj; have := hp.quiet j (by rw [hg]; exact hj); rw [hs] at this; exact this
  constructor
  · intro hok
    have key : ∀ j ∈ g.ids, Present (w'.comps j).files (s j) ∧ ¬ OwnFailure (w'.comps j) := by
      intro j hj
      have hf := hfin j (by rw [hg]; exact hj)
      simp only [World.finished, Bool.and_eq_true, Bool.not_eq_true'] at hf
      exact (hq j hj).present (hreg j hj) hf.2 (hp.good hok j (by rw [hg]; exact hj))
    refine ⟨fun j hj hf => (key j hj).2 hf.own, fun j hj => ?_⟩
    have := (key j hj).1
    rw [(hp.base.views j).1] at this
    exact this
  · rintro ⟨h1, h2⟩
    rcases hown with hown | ⟨j, hj, hown⟩
    · exact hown
    · exfalso
      obtain ⟨p, hpi, hn⟩ := (hq j hj).absent (hacc j hj) hown (h1 j hj)
      obtain ⟨t, ht⟩ := h2 j hj p hpi
      rw [(hp.base.views j).1, ht] at hn
      simp at hn

/-- C114: when every file that a builder reads exists or is made by a builder of the script that was not
built before, no command and no callback fails or removes files, callbacks write their outputs, and states
can be stored, then the build succeeds, under every schedule. -/
theorem C114_succeeds (hw : w = (World.init kinds).steps hist) (h : RunsScript w g s mid w')
    (hreg : ∀ j ∈ g.ids, Regular (s j)) (hacc : ∀ j ∈ g.ids, Accepts (w.comps j) (s j))
    (hprov : Provided w g s) (hth : ∀ e ∈ mid, Thorough s e) (hf : ∀ j ∈ g.ids, ¬ Faulty (w'.comps j))
    (hj : (w'.step .join).active = false) :
    (w'.step .join).result = some true ∧ ∀ j ∈ g.ids, Present w'.files (s j) := by
  have hB : BInv w := by rw [hw]; exact bInv_steps hist _ (bInv_init kinds)
  obtain ⟨k1, k2, k2', k4, -, -, k3, k5⟩ := pInv_launch hB h.plan h.idle h.launched
  have h0 : OInv w (w.step (.launch g s)) := by
    refine ⟨fun p t hp => ⟨t, by rw [k4]; exact hp⟩, fun a ha p hp => ?_, .inl k3⟩
    exfalso
    rw [k2] at ha
    have hrun : ((w.comps a).start (s a)).running = true := by
      by_cases hc : (w.step (.launch g s)).active = true
      · have hl := hc
        simp only [World.step] at hl
        split at hl
        · rename_i hg
          simp only [Bool.and_eq_true, List.all_eq_true] at hg
          exact hg.2 a ha
        · rw [h.idle] at hl; simp at hl
      · exact absurd h.launched hc
    rw [k5 a, if_pos ha, k2'] at hp
    have hini := (start_initial (h := hB.idle h.idle a) hrun).1
    generalize (w.comps a).start (s a) = c at hp hini
    cases c with
    | target fx σ =>
      have : Target.commands σ.log = [] := hini.1
      have hm : Target.Entry.link true ∈ Target.commands σ.log := List.mem_filter.2 ⟨hp.1, rfl⟩
      rw [this] at hm; simp at hm
    | gen σ =>
      have : Generator.calledIds σ.log = [] := hini.1
      revert hp
      cases s a with
      | target c o => exact fun h => h
      | gen c =>
        rintro ⟨id, i, h1, -⟩
        have hm : id ∈ Generator.calledIds σ.log := Generator.mem_calledIds.2 ⟨true, h1⟩
        rw [this] at hm; simp at hm
  have hI := oInv_steps (w₀ := w) mid _ k1 h0 (by rw [k2, k2']; exact hprov)
    (fun a t => outputs_event w (.launch g s) a t) (by rw [k2, k2']; exact hreg) (by rw [k2, k2']; exact hacc)
    h.inside (by rw [k2']; exact hth)
  rw [h.result] at hI
  obtain ⟨hp, hg, -⟩ := h.pInv hB
  have hres : (w'.step .join).result = some true := by
    rw [(join_over hp.active hj).2]
    rcases hI.sound with hok | ⟨j, hj, hx⟩
    · rw [hok]
    · rw [hg] at hj; exact absurd hx (hf j hj)
  exact ⟨hres, ((C114_result hw h hreg hacc hj).1 hres).2⟩

/-- C114: a build that is left alone can always come to its end, whatever has happened in it. -/
theorem C114_ends (hw : w = (World.init kinds).steps hist) (h : RunsScript w g s mid w') :
    ∃ rest, RunsScript w g s (mid ++ rest) (w'.steps rest) ∧ ((w'.steps rest).step .join).active = false := by
  have hB : BInv w := by rw [hw]; exact bInv_steps hist _ (bInv_init kinds)
  have key : ∀ n (v : World), v.remaining = n → PInv w.comps v →
      ∃ rest : List WEvent, (∀ e ∈ rest, e.inside = true) ∧ ((v.steps rest).step .join).active = false := by
    intro n
    induction n using Nat.strongRecOn with
    | ind n ih =>
      intro v hn hv
      by_cases hover : v.over = true
      · exact ⟨[], by simp, by simp [World.steps, World.step, hv.active, hover]⟩
      · obtain ⟨e, he, hlt⟩ := world_progress hv.base hv.active
        have hin : e.inside = true := by
          cases e <;> simp only [WEvent.internal, Bool.false_eq_true] at he <;> try rfl
          exfalso
          rw [show v.step .join = v by simp [World.step, hover]] at hlt
          omega
        obtain ⟨rest, h1, h2⟩ := ih _ (by rw [← hn]; exact hlt) (v.step e) rfl (pInv_step hv hin).1
        exact ⟨e :: rest, fun x hx => by
          rcases List.mem_cons.1 hx with rfl | hx
          · exact hin
          · exact h1 x hx, h2⟩
  obtain ⟨rest, h1, h2⟩ := key _ w' rfl (h.pInv hB).1
  refine ⟨rest, ⟨h.plan, h.idle, h.launched, fun e he => ?_, ?_⟩, h2⟩
  · rcases List.mem_append.1 he with he | he
    · exact h.inside e he
    · exact h1 e he
  · rw [← h.result]; simp [World.steps]

end

/-- What C114 would say without `Unbuilt` is false of the code: after a successful build a file is deleted
that one builder made and another one reads.  Nothing makes it again: every later build of the script that
comes to its end fails, even though all sources exist and no command fails. -/
theorem C114_deleted_false {kinds : Str → Kind} {hist mid₁ mid₂ : List WEvent} {w₀ w₁ w₂ w₃ : World}
    {g : Graph} {s : Str → Setup} {p a b : Str} (hw₀ : w₀ = (World.init kinds).steps hist)
    (h₁ : RunsScript w₀ g s mid₁ w₁) (hok : (w₁.step .join).result = some true)
    (hreg : ∀ j ∈ g.ids, Regular (s j)) (ha : a ∈ g.ids) (hb : b ∈ g.ids)
    (hm : p ∈ yields (w₀.comps a) (s a)) (hr : p ∈ (s b).inputs)
    (hw₂ : w₂ = (w₁.step .join).step (.delete p)) (h₂ : RunsScript w₂ g s mid₂ w₃)
    (hj : (w₃.step .join).active = false) :
    (w₃.step .join).result = some false ∧ w₃.files p = none ∧ ∀ j ∈ g.ids, ¬ Executed (w₃.comps j) ∨
      Reaches g.edges a j := by
  have hB₀ : BInv w₀ := by rw [hw₀]; exact bInv_steps hist _ (bInv_init kinds)
  have hB₁ := (h₁.pInv hB₀).1.base
  have hw₂' : w₂ = (World.init kinds).steps (hist ++ ([.launch g s] ++ mid₁ ++ [.join, .delete p])) := by
    rw [hw₂, ← h₁.result, hw₀]; simp [World.steps]
  have hB₂ : BInv w₂ := by rw [hw₂']; exact bInv_steps _ _ (bInv_init kinds)
  have hcomp : ∀ j t, outputs (w₂.comps j) t = outputs (w₀.comps j) t := by
    intro j t
    rw [hw₂, outputs_event, outputs_event, ← h₁.result, outputs_events, outputs_event]
  -- the only file that changed
  have hfiles : ∀ q, w₂.files q ≠ w₁.files q → q = p := by
    intro q hq
    refine Classical.byContradiction fun hne => hq ?_
    have : (w₁.step .join).files = w₁.files := by simp only [World.step]; split <;> rfl
    rw [hw₂, ← this]
    simp [World.step, World.write, upd, hne]
  have hpout : p ∈ outputs (w₂.comps a) (s a) := by rw [hcomp]; exact yields_outputs hm
  -- whatever runs depends on the maker
  have hexec : ∀ j ∈ g.ids, Executed (w₃.comps j) →
      ∃ c ∈ g.ids, (c = j ∨ Reaches g.edges c j) ∧ Reaches g.edges a c ∧ p ∈ (s c).inputs := by
    intro j hj he
    obtain ⟨c, hc, hcj, q, hq, hne⟩ := C94_root (between := [.delete p]) hw₀ h₁ hok
      (by rw [hw₂]; rfl) (by simp [WEvent.leavesOut]) h₂
      (fun a ha => ⟨ha, SameSetup.refl _, hreg a ha⟩) hj (.inl he)
    rw [hfiles q hne] at hq
    exact ⟨c, hc, hcj, h₂.plan.declared a ha c hc p hpout hq, hq⟩
  have hreach : ∀ {a c j}, Reaches g.edges a c → (c = j ∨ Reaches g.edges c j) → Reaches g.edges a j := by
    intro a c j h h'
    rcases h' with rfl | h'
    · exact h
    · exact h.trans h'
  obtain ⟨k1, k2, k3, k4, -⟩ := pInv_launch hB₂ h₂.plan h₂.idle h₂.launched
  have hgone : w₃.files p = none := by
    refine Classical.byContradiction fun hne => ?_
    have h0 : w₂.files p = none := by rw [hw₂]; simp [World.step, World.write, upd]
    obtain ⟨j, hj, hx, ho⟩ := changed_steps (p := p) mid₂ _ k1 h₂.inside (by
      rw [h₂.result, k4, h0]; exact hne)
    rw [h₂.result] at hx
    rw [k2] at hj
    rw [k3, outputs_event] at ho
    obtain ⟨c, hc, hcj, -, hpc⟩ := hexec j hj hx
    have := h₂.plan.declared j hj c hc p ho hpc
    exact h₂.plan.acyclic j (hreach this hcj)
  refine ⟨?_, hgone, fun j hj => ?_⟩
  · obtain ⟨hp, hg, hs⟩ := h₂.pInv hB₂
    obtain ⟨ho, hres⟩ := join_over hp.active hj
    rw [hres]
    cases hok : w₃.ok with
    | false => rfl
    | true =>
      exfalso
      have hf := over_finished hp.valid hp.acyclic ho b (by rw [hg]; exact hb)
      simp only [World.finished, Bool.and_eq_true, Bool.not_eq_true'] at hf
      have hq := hp.quiet b (by rw [hg]; exact hb)
      rw [hs] at hq
      obtain ⟨t, ht⟩ := (hq.present (hreg b hb) hf.2 (hp.good hok b (by rw [hg]; exact hb))).1 p hr
      rw [(hp.base.views b).1, hgone] at ht
      simp at ht
  · by_cases he : Executed (w₃.comps j)
    · obtain ⟨c, -, hcj, hac, -⟩ := hexec j hj he
      exact .inr (hreach hac hcj)
    · exact .inl he

end Verif.Reg
