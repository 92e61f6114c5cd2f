import Verif.Reg.RebuildProps
import Verif.Reg.Choices

/-!
# Building again the choices of a script

What C93 and C94 say about any declared dependencies, for scripts that keep to the rules of C88, of which
every run builds some of the targets.
-/

namespace Verif.Reg
open Verif Verif.Schema
open Verif.Target (objPath outputPath paths Project)

/-! ## Specification -/

/-- A process is started that registers `g` with the configurations `s`; it is not disturbed and has come
to `w'`. -/
structure Undisturbed (w : World) (g : Graph) (s : Str → Setup) (mid : List WEvent) (w' : World) : Prop where
  idle : w.active = false
  launched : (w.step (.launch g s)).active = true
  inside : ∀ e ∈ mid, e.inside = true
  result : (w.step (.launch g s)).steps mid = w'

/-- A file is edited or deleted. -/
def WEvent.touches : WEvent → Bool
  | .edit _ _ | .delete _ => true
  | _ => false

/-! ## What it goes back to -/

theorem le_total {w : Str → Nat} {l : List Str} {x : Str} (h : x ∈ l) : w x ≤ total w l := by
  induction l with
  | nil => simp at h
  | cons a l ih =>
    simp only [total, List.map_cons, List.sum_cons] at *
    rcases List.mem_cons.1 h with rfl | h
    · omega
    · have := ih h; omega

theorem lighter {E : List (Str × Str)} {w : Str → Nat} (hw : ∀ x, 1 + total w (nexts E x) ≤ w x) {a b : Str}
    (h : Reaches E a b) : w b < w a := by
  induction h with
  | @edge a b he =>
    have := le_total (w := w) (mem_nexts.2 he)
    have := hw a
    omega
  | @step a b c he _ ih =>
    have := le_total (w := w) (mem_nexts.2 he)
    have := hw a
    omega

/-- C94, from beginning to end: when every builder of the later build was part of the earlier one, what a
builder runs goes back to a file that was changed in between and that is an input of this builder or of one
on which it depends, directly or through others. -/
theorem C94_root {kinds : Str → Kind} {hist : List WEvent} {w₀ w₁ w₂ w₃ : World} {g₁ g₂ : Graph}
    {s₁ s₂ : Str → Setup}
    {mid₁ between mid₂ : List WEvent} {j : Str} (hw₀ : w₀ = (World.init kinds).steps hist)
    (h₁ : RunsScript w₀ g₁ s₁ mid₁ w₁) (hok : (w₁.step .join).result = some true)
    (hw₂ : w₂ = (w₁.step .join).steps between)
    (hout : ∀ e ∈ between, ∀ a ∈ g₂.ids, e.leavesOut a = true)
    (h₂ : RunsScript w₂ g₂ s₂ mid₂ w₃)
    (hs : ∀ a ∈ g₂.ids, a ∈ g₁.ids ∧ SameSetup (s₂ a) (s₁ a) ∧ Regular (s₁ a)) (hj : j ∈ g₂.ids)
    (he : Executed (w₃.comps j) ∨ Working (w₃.comps j)) :
    ∃ a ∈ g₂.ids, (a = j ∨ Reaches g₂.edges a j) ∧ ∃ p ∈ (s₂ a).inputs, w₂.files p ≠ w₁.files p := by
  obtain ⟨w, hw⟩ := weights g₂.edges h₂.plan.acyclic
  generalize hn : total w g₂.ids - w j = n
  induction n using Nat.strongRecOn generalizing j with
  | ind n ih =>
    obtain ⟨q1, q2, q3⟩ := hs j hj
    rcases C94_cause hw₀ h₁ hok hw₂ (fun e he => hout e he j hj) h₂ q1 hj q2 q3 he with h | ⟨a, ha, hr, hx⟩
    · exact ⟨j, hj, .inl rfl, h⟩
    · have l1 := lighter hw hr
      have l2 := le_total (w := w) ha
      obtain ⟨b, hb, hab, hp⟩ := ih _ (by omega) ha (.inl hx) rfl
      refine ⟨b, hb, .inr ?_, hp⟩
      rcases hab with rfl | hab
      · exact hr
      · exact hab.trans hr

/-! ## Choices -/

theorem outputs_steps (a : Str) (t : Setup) : ∀ (evs : List WEvent) (w : World),
    outputs ((w.steps evs).comps a) t = outputs (w.comps a) t
  | [], _ => rfl
  | e :: l, w => (outputs_steps a t l (w.step e)).trans (outputs_event w e a t)

section
variable {p : Project} {ts : List ScriptTarget} {gs : List ScriptGen} {V : Version → Prop}

/-- What a choice registers is a plan, in whatever state the files are. -/
theorem Choices.plan (h : Choices p ts gs V) {v : Version} (hv : V v) {s : Str → Setup}
    (hs : ∀ j ∈ v.script.graph.ids, SameSetup (s j) (setupWith ts gs j)) {hist : List WEvent} {w : World}
    (hw : w = (World.init (kindsOf ts)).steps hist) : Plan w v.script.graph s := by
  have hF : versionsOf V v.script.graph s :=
    ⟨v, hv, rfl, fun j hj => by rw [h.setup hv hj]; exact hs j hj⟩
  have hsc := h.versions.sound.sound _ _ hF
  refine ⟨hsc.valid, hsc.acyclic, fun a ha b hb q hq hin => ?_⟩
  rw [hw, outputs_steps] at hq
  exact hsc.declared a ha b hb q hq hin

theorem Choices.runs (h : Choices p ts gs V) {v : Version} (hv : V v) {s : Str → Setup}
    (hs : ∀ j ∈ v.script.graph.ids, SameSetup (s j) (setupWith ts gs j)) {hist : List WEvent} {w w' : World}
    (hw : w = (World.init (kindsOf ts)).steps hist) {mid : List WEvent}
    (hu : Undisturbed w v.script.graph s mid w') : RunsScript w v.script.graph s mid w' :=
  ⟨h.plan hv hs hw, hu.idle, hu.launched, hu.inside, hu.result⟩

/-- Targets that keep to the rules are regular, and so are generators whose data is equal to itself. -/
theorem Choices.regular (h : Choices p ts gs V) (hr : ∀ g ∈ gs, Generator.Reflexive g.cfg) {v : Version}
    (hv : V v) {s : Str → Setup} (hs : ∀ j ∈ v.script.graph.ids, SameSetup (s j) (setupWith ts gs j))
    {j : Str} (hj : j ∈ v.script.graph.ids) : Regular (s j) := by
  refine Regular.same (hs j hj) ?_
  rcases mem_names ((h.accepted v hv).2.2.mem_iff.1 hj) with ⟨t, ht, rfl⟩ | ⟨x, hx, rfl⟩
  · rw [(target_eq h.names ((h.sub v hv).1 t ht)).2]
    exact ((h.plain v hv).sources t ht).1
  · have hx := (h.sub v hv).2 ▸ hx
    rw [(gen_eq h.names hx).2]
    exact hr x hx

end

theorem SameSetup.symm {s t : Setup} (h : SameSetup s t) : SameSetup t s := by
  cases s <;> cases t <;> first | exact h.elim | exact Eq.symm h

theorem SameSetup.trans {s t u : Setup} (h : SameSetup s t) (h' : SameSetup t u) : SameSetup s u := by
  cases s <;> cases t <;> cases u <;> first | exact h.elim | exact h'.elim | exact Eq.trans h h'

theorem SameSetup.inputs {s t : Setup} (h : SameSetup s t) : s.inputs = t.inputs := by
  cases s <;> cases t <;> first | exact h.elim | (obtain rfl : _ = _ := h; rfl)

end Verif.Reg
