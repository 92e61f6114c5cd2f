import Verif.Sample.MultiOutcome
import Verif.Sample.AgainExamples
import Verif.Reg.OutcomeExamples

/-! # Example for C114: the first build of a sample -/

namespace Verif.Sample
open Verif Verif.Schema Verif.Target Verif.Toolchain Verif.Path
open Verif.Reg (Thorough ScriptGen)

/-- `Thorough` as a function. -/
def thorough (s : Str → Reg.Setup) : Reg.WEvent → Bool
  | .task j (.g (.call id true)) ws => ws.all (·.2.isSome) && match s j with
    | .gen c => match Generator.find id c with
      | some i => i.outputs.all fun p => ws.any fun x => x.1 = p && x.2.isSome
      | none => true
    | _ => true
  | .task _ _ ws => ws.all (·.2.isSome)
  | _ => true

theorem thorough_sound {s : Str → Reg.Setup} {e : Reg.WEvent} (h : thorough s e = true) : Thorough s e := by
  cases e with
  | task j e ws =>
    have h1 : ws.all (·.2.isSome) = true := by
      unfold thorough at h
      split at h
      · rename_i heq; cases heq; exact (Bool.and_eq_true _ _ ▸ h).1
      · rename_i heq; cases heq; exact h
      · rename_i hne; exact absurd rfl (hne _ _ _)
    refine ⟨fun x hx => List.all_eq_true.1 h1 x hx, fun id c i he hs hi p hp => ?_⟩
    subst he
    simp only [thorough, hs, hi, Bool.and_eq_true] at h
    obtain ⟨x, hx, h2⟩ := List.any_eq_true.1 (List.all_eq_true.1 h.2 p hp)
    simp only [Bool.and_eq_true, decide_eq_true_eq] at h2
    obtain ⟨t, ht⟩ := Option.isSome_iff_exists.1 h2.2
    exact ⟨t, by rw [← h2.1, ← ht]; exact hx⟩
  | _ => trivial

theorem exOutcome : (exWorld₁.step .join).active = false ∧
    (∀ e ∈ exGccBuild, thorough exSwitchSetup e = true) ∧
    (∀ j ∈ (exSwitch.with (only b!"gcc")).graph.ids, Reg.faulty (exWorld₁.comps j) = false) ∧
    (∀ g ∈ exSwitched.1, ∀ x ∈ g.cfg, x.2.inputs = []) ∧
    ∀ x ∈ exSwitched.2, ∀ f ∈ x.2, ∀ q ∈ Reg.given f.cfg, q = exChain.buildDir ++ b!"/" ++ q.drop (exChain.buildDir.length + 1) ∧
      dotdot ∉ splitSlash (q.drop (exChain.buildDir.length + 1)) := by
  decide +kernel

theorem no_inputs {gs : List GenMade} (h : ∀ g ∈ gs, ∀ x ∈ g.cfg, x.2.inputs = []) {w : Reg.World} :
    ∀ g ∈ gs, ∀ q ∈ ScriptGen.inputs ⟨g.name, g.cfg⟩, ∃ t, w.files q = some t := by
  intro g hg q hq
  obtain ⟨x, hx, hq⟩ := List.mem_flatMap.1 hq
  rw [h g hg x hx] at hq
  cases hq

theorem all_inside {r : List (Part × List Boot.Filled)} {b : Str}
    (h : ∀ x ∈ r, ∀ f ∈ x.2, ∀ q ∈ Reg.given f.cfg, q = b ++ b!"/" ++ q.drop (b.length + 1) ∧
      dotdot ∉ splitSlash (q.drop (b.length + 1))) {c : Str → Reg.Condition} {w : Reg.World} :
    ∀ x ∈ r, (c x.1.tc.name).build = true → ∀ f ∈ x.2, ∀ q ∈ Reg.given f.cfg,
      ¬ Inside b q → ∃ t, w.files q = some t := by
  intro x hx _ f hf q hq hi
  obtain ⟨h1, h2⟩ := h x hx f hf q hq
  exact absurd ⟨_, .inl (by simpa using h1), h2⟩ hi

theorem no_fault {l : List Str} {w : Reg.World} (h : ∀ j ∈ l, Reg.faulty (w.comps j) = false) :
    ∀ j ∈ l, ¬ Reg.Faulty (w.comps j) := fun j hj hf => by
  have := hf.eq_true
  rw [h j hj] at this
  cases this

theorem all_thorough {s : Str → Reg.Setup} {l : List Reg.WEvent} (h : ∀ e ∈ l, thorough s e = true) :
    ∀ e ∈ l, Thorough s e := fun e he => thorough_sound (h e he)

/-- The first build of the sample succeeds: all its sources are made by generators. -/
example : (exWorld₁.step .join).result = some true :=
  C114_first exSwitched_run exSwitch_neat exSwitch_place (fun _ => List.Perm.refl _) exSwitch_outside
    exSwitch_fits exBothOrder (hist := []) (w₀ := exWorld₀) rfl (fun _ h => by cases h)
    (fun _ _ => Reg.SameSetup.refl _) exFirst (no_inputs exOutcome.2.2.2.1) (all_inside exOutcome.2.2.2.2)
    (all_thorough exOutcome.2.1) (no_fault exOutcome.2.2.1) exOutcome.1

end Verif.Sample
