import Verif.Sample.MultiAgree
import Verif.Sample.OutcomeExamples
import Verif.Reg.AgreeExamples

/-! # Example for C115: a sample under two schedules -/

namespace Verif.Sample
open Verif Verif.Schema Verif.Target Verif.Toolchain Verif.Path
open Verif.Reg (Undisturbed Behaviour Follows Carried)

/-- The builders in another order. -/
def exGccOther : List Reg.WEvent :=
  exChainGen b!"c_generator" b!"/r/_build/c_generator/main.c" 2 ++
  Reg.exTargetTasks b!"[gcc] ctarget" b!"/r/_build/gcc/ctarget/ctarget" 3 ++
  exChainGen b!"cpp_generator" b!"/r/_build/cpp_generator/main.cpp" 4 ++
  Reg.exTargetTasks b!"[gcc] cpptarget" b!"/r/_build/gcc/cpptarget/cpptarget" 5

/-- All commands succeed and write their files. -/
def exBehaviour : Behaviour where
  ok _ _ := true
  writes j
    | .call _ => if j = b!"c_generator" then [b!"/r/_build/c_generator/main.c"]
        else [b!"/r/_build/cpp_generator/main.cpp"]
    | .link => if j = b!"[gcc] ctarget" then [b!"/r/_build/gcc/ctarget/ctarget"]
        else [b!"/r/_build/gcc/cpptarget/cpptarget"]
    | _ => []

def exWorldOther : Reg.World :=
  (exWorld₀.step (.launch (exSwitch.with (only b!"gcc")).graph exSwitchSetup)).steps exGccOther

/-- `Carried` for the commands of a target, as a function. -/
def compiled (c : Reg.Comp) (p : Str) : Bool :=
  match c with
  | .target _ σ => σ.log.any fun | .obj q true => q == p | _ => false
  | .gen _ => false

theorem compiled_sound {c : Reg.Comp} {p : Str} (h : compiled c p = true) : Carried c (.obj p) true := by
  cases c with
  | gen σ => cases h
  | target fx σ =>
    obtain ⟨e, he, h⟩ := List.any_eq_true.1 h
    split at h
    · have : _ = p := eq_of_beq h
      subst this
      exact he
    · cases h

theorem exAgree_facts :
    Reg.follows exBehaviour (exWorld₀.step (.launch (exSwitch.with (only b!"gcc")).graph exSwitchSetup))
      exGccBuild = true ∧
    Reg.follows exBehaviour (exWorld₀.step (.launch (exSwitch.with (only b!"gcc")).graph exSwitchSetup))
      exGccOther = true ∧
    (exWorldOther.step .join).active = false ∧ (exWorldOther.step .join).result = some true ∧
    compiled (exWorld₁.comps b!"[gcc] ctarget") b!"/r/_build/c_generator/main.c" = true ∧
    b!"[gcc] ctarget" ∈ (exSwitch.with (only b!"gcc")).graph.ids := by
  decide +kernel

theorem exOther : Undisturbed exWorld₀ (exSwitch.with (only b!"gcc")).graph exSwitchSetup exGccOther exWorldOther where
  idle := rfl
  launched := exFacts.1
  inside := by decide +kernel
  result := rfl

theorem exNone {P : Reg.WEvent → Prop} : ∀ e ∈ ([] : List Reg.WEvent), P e := fun _ h => by cases h

attribute [local irreducible] Carried

/-- The source that is compiled in the first order is compiled in the second one. -/
example : Carried (exWorldOther.comps b!"[gcc] ctarget") (.obj b!"/r/_build/c_generator/main.c") true :=
  have h := C115_script exSwitched_run exSwitch_neat exSwitch_place (fun _ => List.Perm.refl _)
    exSwitch_outside exSwitch_fits exBothOrder (hist := []) (midA := exGccBuild) (midB := exGccOther)
    (w := exWorld₀) (wA := exWorld₁) (wB := exWorldOther) (c := only b!"gcc") (s := exSwitchSetup)
    (B := exBehaviour) rfl exNone exNone (fun _ _ => Reg.SameSetup.refl _) exFirst
    (Reg.follows_sound exAgree_facts.1) exOther (Reg.follows_sound exAgree_facts.2.1) exOutcome.1
  (((h.2 exAgree_facts.2.2.1).1 exFacts.2.1 exAgree_facts.2.2.2.1).1 b!"[gcc] ctarget"
    exAgree_facts.2.2.2.2.2 (.obj b!"/r/_build/c_generator/main.c") true).1
    (compiled_sound exAgree_facts.2.2.2.2.1)

end Verif.Sample
