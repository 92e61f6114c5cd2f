import Verif.Sample.MultiAgain
import Verif.Sample.ChoiceExamples

/-! # Building again what was built: examples (C113) -/

namespace Verif.Sample
open Verif Verif.Schema Verif.Target Verif.Toolchain Verif.Path
open Verif.Reg (Undisturbed SameSetup Executed)

/-- The first run, for `gcc`. -/
def exGccBuild : List Reg.WEvent :=
  exChainGen b!"cpp_generator" b!"/r/_build/cpp_generator/main.cpp" 2 ++
  exChainGen b!"c_generator" b!"/r/_build/c_generator/main.c" 3 ++
  Reg.exTargetTasks b!"[gcc] cpptarget" b!"/r/_build/gcc/cpptarget/cpptarget" 4 ++
  Reg.exTargetTasks b!"[gcc] ctarget" b!"/r/_build/gcc/ctarget/ctarget" 5

/-- A run for `msvc`, after a source was edited. -/
def exMsvcBuild : List Reg.WEvent :=
  [.edit b!"/r/_build/cpp_generator/main.cpp" 6, .launch (exSwitch.with (only b!"msvc")).graph exSwitchSetup] ++
  exIdleGen b!"cpp_generator" ++ exIdleGen b!"c_generator" ++
  Reg.exTargetTasks b!"[msvc] cpptarget" b!"/r/_build/msvc/cpptarget/cpptarget.exe" 7 ++
  Reg.exTargetTasks b!"[msvc] ctarget" b!"/r/_build/msvc/ctarget/ctarget.exe" 8 ++ [.join]

/-- A run for both. -/
def exBothBuild : List Reg.WEvent :=
  exIdleGen b!"cpp_generator" ++ exIdleGen b!"c_generator" ++
  Reg.exTargetTasks b!"[gcc] cpptarget" b!"/r/_build/gcc/cpptarget/cpptarget" 9 ++
  exIdle b!"[gcc] ctarget" ++ exIdle b!"[msvc] cpptarget" ++ exIdle b!"[msvc] ctarget"

/-- A run in which nothing is to be done, after one that is killed. -/
def exNothing : List Reg.WEvent :=
  .launch (exSwitch.with (only b!"gcc")).graph exSwitchSetup :: exIdleGen b!"cpp_generator" ++
  [.kill (fun _ => []) (fun _ => none), .launch (exSwitch.with (only b!"gcc")).graph exSwitchSetup] ++
  exIdleGen b!"cpp_generator" ++ exIdleGen b!"c_generator" ++ exIdle b!"[gcc] cpptarget" ++
  exIdle b!"[gcc] ctarget" ++ [.join]

def exWorld₀ : Reg.World := Reg.World.init (Reg.kindsOf (multiTargets exSwitched.2 exBothOrder))
def exWorld₁ : Reg.World :=
  (exWorld₀.step (.launch (exSwitch.with (only b!"gcc")).graph exSwitchSetup)).steps exGccBuild
def exWorld₂ : Reg.World := (exWorld₁.step .join).steps exMsvcBuild
def exWorld₃ : Reg.World := (exWorld₂.step (.launch (exSwitch.with allOn).graph exSwitchSetup)).steps exBothBuild

def quietly : Reg.WEvent → Bool
  | .edit _ _ | .delete _ | .dropState _ => false
  | _ => true

def quietlyOr : Reg.WEvent → Bool
  | .dropState _ => false
  | _ => true

theorem again_of {m : Multi} {c : Str → Reg.Condition} {s : Str → Reg.Setup} {l : List Reg.WEvent}
    (hl : ∀ g s', .launch g s' ∈ l → ∃ c', (∀ n, (c' n).build = true → (c n).build = true) ∧
      g = (m.with c').graph ∧ ∀ j ∈ g.ids, SameSetup (s' j) (s j))
    (hq : l.all quietly = true) : ∀ e ∈ l, AgainMulti m c s e := by
  intro e he
  have hq := List.all_eq_true.1 hq e he
  cases e with
  | edit | delete | dropState => cases hq
  | launch g s' => exact hl g s' he
  | _ => trivial

def ran : Reg.Comp → Bool
  | .target _ σ => σ.log.any fun | .pch _ | .obj _ _ | .link _ => true | _ => false
  | .gen σ => σ.log.any fun | .called _ _ => true | _ => false

theorem executed_iff (c : Reg.Comp) : Executed c ↔ ran c = true := by
  cases c with
  | target fx σ =>
    simp only [Executed, ran, List.any_eq_true]
    constructor
    · rintro (⟨b, h⟩ | ⟨p, b, h⟩ | ⟨b, h⟩) <;> exact ⟨_, h, rfl⟩
    · rintro ⟨e, he, h⟩
      split at h
      · exact .inl ⟨_, he⟩
      · exact .inr (.inl ⟨_, _, he⟩)
      · exact .inr (.inr ⟨_, he⟩)
      · cases h
  | gen σ =>
    simp only [Executed, ran, List.any_eq_true]
    constructor
    · rintro ⟨i, b, h⟩; exact ⟨_, h, rfl⟩
    · rintro ⟨e, he, h⟩
      split at h
      · exact ⟨_, _, he⟩
      · cases h

/-- The source is edited, and the run is for `gcc` again. -/
def exEditOnly : List Reg.WEvent := [.edit b!"/r/_build/cpp_generator/main.cpp" 6]

def exGccAgain : List Reg.WEvent :=
  exIdleGen b!"cpp_generator" ++ exIdleGen b!"c_generator" ++
  Reg.exTargetTasks b!"[gcc] cpptarget" b!"/r/_build/gcc/cpptarget/cpptarget" 9 ++ exIdle b!"[gcc] ctarget"

def exWorld₄ : Reg.World := (exWorld₁.step .join).steps exEditOnly
def exWorld₅ : Reg.World :=
  (exWorld₄.step (.launch (exSwitch.with (only b!"gcc")).graph exSwitchSetup)).steps exGccAgain

/-- What these runs do, from beginning to end. -/
theorem exFacts :
    (exWorld₀.step (.launch (exSwitch.with (only b!"gcc")).graph exSwitchSetup)).active = true ∧
    (exWorld₁.step .join).result = some true ∧ exWorld₂.active = false ∧
    (exWorld₂.step (.launch (exSwitch.with allOn).graph exSwitchSetup)).active = true ∧
    ran (exWorld₃.comps b!"[gcc] cpptarget") = true ∧ ran (exWorld₃.comps b!"[gcc] ctarget") = false ∧
    exWorld₃.ok = true ∧ (∀ g ∈ exSwitched.1, ran (exWorld₃.comps g.name) = false) ∧
    exWorld₄.active = false ∧
    (exWorld₄.step (.launch (exSwitch.with (only b!"gcc")).graph exSwitchSetup)).active = true ∧
    ran (exWorld₅.comps b!"[gcc] cpptarget") = true ∧ ran (exWorld₅.comps b!"[gcc] ctarget") = false ∧
    ((exWorld₁.step .join).steps exNothing).result = some true ∧
    ∀ g ∈ exSwitched.1, g.commands.length < 2 ^ 32 ∧ ∀ s ∈ g.commands, s.length < 2 ^ 32 := by
  decide +kernel

theorem exFirst : Undisturbed exWorld₀ (exSwitch.with (only b!"gcc")).graph exSwitchSetup exGccBuild exWorld₁ where
  idle := rfl
  launched := exFacts.1
  inside := by decide +kernel
  result := rfl

theorem exLast : Undisturbed exWorld₂ (exSwitch.with allOn).graph exSwitchSetup exBothBuild exWorld₃ where
  idle := exFacts.2.2.1
  launched := exFacts.2.2.2.1
  inside := by decide +kernel
  result := rfl

theorem exSwitch_outside : OutsideAll exChain (exSwitch.with allOn) exSwitched.1 exSwitched.2 := by
  have hr := exSwitched_run
  have hp := exSwitch_place
  rw [exSwitch, each_with] at hr hp ⊢
  exact (C109_chaining hr hp fun _ => List.Perm.refl _).1

theorem exSwitch_neat : NeatMulti (exSwitch.with allOn) :=
  C110_samples .executable [(exGcc, ⟨true, true⟩), (exMsvc, ⟨true, true⟩)] allOn exSwitch (by simp [exSwitch])

theorem exSwitch_fits : ∀ g ∈ exSwitched.1, Generator.Fits g.commands := 
  exFacts.2.2.2.2.2.2.2.2.2.2.2.2.2

/-- The build succeeds, and when it is run again nothing is done. -/
example : (exWorld₁.step .join).result = some true ∧
    ((exWorld₁.step .join).steps exNothing).files = exWorld₁.files ∧
    ((exWorld₁.step .join).steps exNothing).result = some true := by
  have hok : (exWorld₁.step .join).result = some true := exFacts.2.1
  refine ⟨hok, ?_, exFacts.2.2.2.2.2.2.2.2.2.2.2.2.1⟩
  refine (C113_again exSwitched_run exSwitch_neat exSwitch_place (fun _ => List.Perm.refl _) exSwitch_outside
    exSwitch_fits exBothOrder (hist := []) (w₀ := exWorld₀) rfl (fun _ _ => Reg.SameSetup.refl _) exFirst hok
    (later := exNothing) ?_ rfl).1
  refine again_of (fun g s' hm => ?_) (by decide +kernel)
  simp only [exNothing, exIdleGen, exIdle, List.mem_append, List.mem_cons, List.not_mem_nil, reduceCtorEq,
    false_or, or_false, Reg.WEvent.launch.injEq] at hm
  rcases hm with ⟨rfl, rfl⟩ | ⟨rfl, rfl⟩ <;>
    exact ⟨_, fun _ h => h, rfl, fun _ _ => Reg.SameSetup.refl _⟩

/-- The program of `gcc` whose source was edited is built again, and the other one is not. -/
theorem exWorld₃_runs : Executed (exWorld₃.comps b!"[gcc] cpptarget") ∧
    ¬ Executed (exWorld₃.comps b!"[gcc] ctarget") ∧ exWorld₃.ok = true := by
  obtain ⟨-, -, -, -, h1, h2, h3, -⟩ := exFacts
  rw [executed_iff, executed_iff, h2]
  exact ⟨h1, Bool.false_ne_true, h3⟩

attribute [local irreducible] Reg.Executed

theorem exRuns (i : Str) (h : i = b!"[gcc] cpptarget") : Executed (exWorld₃.comps i) := by
  rw [executed_iff, h]
  exact exFacts.2.2.2.2.1

/-- So a file that it reads was changed; no generator ran and neither did another target for `gcc`. -/
example : ∀ x ∈ exSwitched.2, x.1.tc.name = b!"gcc" → ∀ f ∈ x.2, f.made.name = b!"cpptarget" →
    (exWorld₁.step .join).result = some true ∧
    ∃ q ∈ reads f.cfg, exWorld₂.files q ≠ exWorld₁.files q := by
  intro x hx hg f hf hfn
  have hok : (exWorld₁.step .join).result = some true := exFacts.2.1
  refine ⟨hok, ?_⟩
  have hel : ∀ e ∈ exMsvcBuild, Elsewhere exSwitch x.1.tc.name (targetId x.1.tc.name f.made.name) e := by
    intro e he
    have hq : exMsvcBuild.all quietlyOr = true := by decide +kernel
    have hq := List.all_eq_true.1 hq e he
    cases e with
    | dropState => cases hq
    | launch g s =>
      simp only [exMsvcBuild, exIdleGen, Reg.exTargetTasks, List.mem_append, List.mem_cons,
        List.not_mem_nil, reduceCtorEq, false_or, or_false, Reg.WEvent.launch.injEq] at he
      obtain ⟨rfl, rfl⟩ := he
      exact ⟨_, rfl, by rw [hg]; decide⟩
    | _ => trivial
  have hid : targetId x.1.tc.name f.made.name = b!"[gcc] cpptarget" := by rw [hg, hfn]; decide
  have hex : Executed (exWorld₃.comps (targetId x.1.tc.name f.made.name)) := 
    exRuns (targetId x.1.tc.name f.made.name) hid
  have := C113_aside exSwitched_run exSwitch_neat exSwitch_place (fun _ => List.Perm.refl _) exSwitch_outside
    exSwitch_fits exBothOrder (hist := []) (mid₁ := exGccBuild) (between := exMsvcBuild) (mid₂ := exBothBuild)
    (w₀ := exWorld₀) (w₁ := exWorld₁) (w₂ := exWorld₂) (w₃ := exWorld₃) (c₁ := only b!"gcc") (c₂ := allOn)
    (s₁ := exSwitchSetup) (s₂ := exSwitchSetup) rfl (fun _ _ => Reg.SameSetup.refl _)
    (fun _ _ => Reg.SameSetup.refl _) exFirst hok rfl exLast hx hf
    (by rw [hg]; decide) rfl hel (.inl hex)
  rcases this with h | ⟨g, hgm, -, he⟩ | ⟨y, hy, hre, he⟩
  · exact h
  · exfalso
    rw [executed_iff] at he
    rw [exFacts.2.2.2.2.2.2.2.1 g hgm] at he
    cases he
  · exfalso
    have hfirst : ∃ b, (targetId x.1.tc.name y.made.name, b) ∈ (exSwitch.with allOn).graph.edges := by
      cases hre with
      | edge h => exact ⟨_, h⟩
      | step h _ => exact ⟨_, h⟩
    obtain ⟨b, hb⟩ := hfirst
    have : ∀ e ∈ (exSwitch.with allOn).graph.edges, e.1.head? ≠ some c!"[" := by decide +kernel
    exact this _ hb rfl

theorem exSecond :
    Undisturbed exWorld₄ (exSwitch.with (only b!"gcc")).graph exSwitchSetup exGccAgain exWorld₅ where
  idle := exFacts.2.2.2.2.2.2.2.2.1
  launched := exFacts.2.2.2.2.2.2.2.2.2.1
  inside := by decide +kernel
  result := rfl

theorem exRunsAgain (i : Str) (h : i = b!"[gcc] cpptarget") : Executed (exWorld₅.comps i) := by
  rw [executed_iff, h]
  exact exFacts.2.2.2.2.2.2.2.2.2.2.1

/-- So a file was changed that the program reads, or a target of `gcc` or a generator on which it depends. -/
example : ∀ x ∈ exSwitched.2, x.1.tc.name = b!"gcc" → ∀ f ∈ x.2, f.made.name = b!"cpptarget" →
    (∃ y ∈ x.2, ∃ q ∈ reads y.cfg, exWorld₄.files q ≠ exWorld₁.files q) ∨
    ∃ g ∈ exSwitched.1, ∃ q ∈ Reg.ScriptGen.inputs ⟨g.name, g.cfg⟩, exWorld₄.files q ≠ exWorld₁.files q := by
  intro x hx hg f hf hfn
  have hok : (exWorld₁.step .join).result = some true := exFacts.2.1
  have hid : targetId x.1.tc.name f.made.name = b!"[gcc] cpptarget" := by rw [hg, hfn]; decide
  have hex : Executed (exWorld₅.comps (targetId x.1.tc.name f.made.name)) :=
    exRunsAgain (targetId x.1.tc.name f.made.name) hid
  have := (C113_affected exSwitched_run exSwitch_neat exSwitch_place (fun _ => List.Perm.refl _)
    exSwitch_outside exSwitch_fits exBothOrder (hist := []) (mid₁ := exGccBuild) (between := exEditOnly)
    (mid₂ := exGccAgain) (w₀ := exWorld₀) (w₁ := exWorld₁) (w₂ := exWorld₄) (w₃ := exWorld₅)
    (c₁ := only b!"gcc") (c₂ := only b!"gcc")
    (s₁ := exSwitchSetup) (s₂ := exSwitchSetup) rfl (fun _ _ => Reg.SameSetup.refl _)
    (fun _ _ => Reg.SameSetup.refl _) exFirst hok (by decide) rfl exSecond fun _ h => h).2 x hx
    (by rw [hg]; decide) f hf (.inl hex)
  rcases this with ⟨y, hy, -, h⟩ | ⟨g, hgm, -, h⟩
  · exact .inl ⟨y, hy, h⟩
  · exact .inr ⟨g, hgm, h⟩

end Verif.Sample
