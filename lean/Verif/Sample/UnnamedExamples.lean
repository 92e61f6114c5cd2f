import Verif.Sample.MultiUnnamed
import Verif.Sample.ChoiceExamples

/-! # Files that a script does not name: an example -/

namespace Verif.Sample
open Verif Verif.Schema Verif.Target Verif.Toolchain Verif.Path
open Verif.Boot (Filled)

/-- Before every event somebody writes a file, always with the same time. -/
def noisy (p : Str) (l : List Reg.WEvent) : List Reg.WEvent := l.flatMap fun e => [.edit p 1, e]

theorem noisy_filter {P : Str → Bool} {p : Str} (hp : P p = false) : ∀ l : List Reg.WEvent,
    (∀ e ∈ l, e.within P = true) → (noisy p l).filter (·.within P) = l
  | [], _ => rfl
  | e :: l, h => by
    have ih := noisy_filter hp l fun x hx => h x (by simp [hx])
    have h1 := h e (by simp)
    simp only [noisy, List.flatMap_cons, List.cons_append, List.nil_append] at ih ⊢
    rw [List.filter_cons_of_neg (by simp [Reg.WEvent.within, hp]), List.filter_cons_of_pos h1, ih]

def exNotes : Str → Bool := fun q => q ≠ b!"/r/notes.txt"

theorem exNotes_covers : CoversScript exNotes exSwitched.1 exSwitched.2 := by
  have : (exSwitched.2.all fun x => x.2.all fun f =>
      ((Reg.Kind.target f.made.fixed).files (.target f.cfg [])).all exNotes) = true ∧
    (exSwitched.1.all fun g => (Reg.ScriptGen.inputs ⟨g.name, g.cfg⟩ ++
      Reg.ScriptGen.outputs ⟨g.name, g.cfg⟩).all exNotes) = true := by decide +kernel
  simp only [List.all_eq_true] at this
  exact ⟨fun x hx f hf q hq => this.1 x hx f hf q hq, fun g hg q hq => this.2 g hg q hq⟩

theorem exSwitchHistory_within : ∀ e ∈ exSwitchHistory, e.within exNotes = true := by
  have : (exSwitchHistory.all (·.within exNotes)) = true := by decide +kernel
  exact List.all_eq_true.1 this

/-- The notes are written all the time, also while commands run.  All four programs are as built from scratch. -/
example : ∀ x ∈ exSwitched.2, ∀ f ∈ x.2,
    ∃ σ, (((Reg.World.init (Reg.kindsOf (multiTargets exSwitched.2 exBothOrder))).steps
      (noisy b!"/r/notes.txt" exSwitchHistory)).step .join).comps (targetId x.1.tc.name f.made.name) =
        .target f.made.fixed σ ∧ Clean f.made.fixed σ f.cfg := by
  have hr := exSwitched_run
  have hp := exSwitch_place
  have h : OutsideAll exChain (exSwitch.with allOn) exSwitched.1 exSwitched.2 := by
    rw [exSwitch, each_with] at hr hp ⊢
    exact (C109_chaining hr hp fun _ => List.Perm.refl _).1
  have := C117_built hr (C110_samples .executable [(exGcc, ⟨true, true⟩), (exMsvc, ⟨true, true⟩)] allOn
    exSwitch (by simp [exSwitch])) hp
    (fun _ => List.Perm.refl _) h exBothOrder exNotes_covers
    (noisy_filter (P := exNotes) (p := b!"/r/notes.txt") (by decide) _ exSwitchHistory_within).symm rfl
    exSwitchHistory_choices
    (by decide +kernel) (by decide +kernel) (by decide +kernel) (c := allOn) (by decide +kernel)
  exact fun x hx f hf => this.1 x hx rfl f hf

/-- The process itself cannot tell: `calm` is false. -/
example : ((Reg.World.init (Reg.kindsOf (multiTargets exSwitched.2 exBothOrder))).steps
    (noisy b!"/r/notes.txt" exSwitchHistory)).calm = false := by decide +kernel

end Verif.Sample
