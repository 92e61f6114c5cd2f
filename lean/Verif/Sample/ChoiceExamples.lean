import Verif.Sample.MultiChoices
import Verif.Sample.MultiExamples

/-! # Toolchains that are turned on and off (C110) -/

namespace Verif.Reg
open Verif Verif.Schema

theorem allOfChoices_of {G : Graph → Prop} {s : Str → Setup} {kinds : Str → Kind} (evs : List WEvent)
    (hl : ∀ g' s', .launch g' s' ∈ evs → G g' ∧ ∀ j ∈ g'.ids, SameSetup (s' j) (s j))
    (hq : quiet (World.init kinds) evs = true) : AllOfChoices G s (World.init kinds) evs := by
  have gen : ∀ (evs : List WEvent) (w : World), BInv w →
      (∀ g' s', .launch g' s' ∈ evs → G g' ∧ ∀ j ∈ g'.ids, SameSetup (s' j) (s j)) →
      quiet w evs = true → AllOfChoices G s w evs := by
    intro evs
    induction evs with
    | nil => intros; exact trivial
    | cons e l ih =>
      intro w hb h hq
      simp only [quiet, Bool.and_eq_true] at hq
      refine ⟨?_, ih _ (bInv_step hb e) (fun g' s' hm => h g' s' (by simp [hm])) hq.2⟩
      cases e with
      | edit p t =>
        obtain ⟨h1, h2⟩ := Bool.and_eq_true_iff.1 hq.1
        exact ⟨of_decide_eq_true h1, not_delicate hb h2⟩
      | delete p => exact not_delicate hb hq.1
      | launch g' s' => exact h g' s' (by simp)
      | _ => trivial
  exact gen evs _ (bInv_init kinds) hl hq

end Verif.Reg

namespace Verif.Sample
open Verif Verif.Schema Verif.Target Verif.Toolchain Verif.Path
open Verif.Boot (Filled)

theorem each_with (s : MText) (tcs : List (Toolchain × Reg.Condition)) (c : Str → Reg.Condition) :
    (s.each tcs).with c = s.each (tcs.map fun x => (x.1, c x.1.name)) := by
  simp [MText.each, Multi.with, MText.part]

/-- C110: the scripts in `example/hybrid` keep to the rules with their toolchains in any states. -/
theorem C110_samples (type : TargetType) (tcs : List (Toolchain × Reg.Condition)) (c : Str → Reg.Condition) :
    (∀ m ∈ [eachOf (fun _ => single) tcs, eachOf simple tcs, eachOf pch tcs, eachOf (fun _ => foolib) tcs,
      eachOf (fun _ => externalLib) tcs, eachOf (fun _ => customTarget) tcs,
      eachOf (fun _ => targetInfo) tcs, eachOf (fun _ => generic type) tcs, chaining.each tcs],
      NeatMulti (m.with c)) := by
  have e : ∀ s : ToolchainId → Text, (eachOf s tcs).with c = eachOf s (tcs.map fun x => (x.1, c x.1.name)) := by
    intro s
    simp [eachOf, Multi.with, MText.part]
  have h := C109_samples type (tcs.map fun x => (x.1, c x.1.name))
  intro m hm
  simp only [List.mem_cons, List.not_mem_nil, or_false] at hm
  rcases hm with rfl | rfl | rfl | rfl | rfl | rfl | rfl | rfl | rfl
  · rw [e]; exact h.1
  · rw [e]; exact h.2.1
  · rw [e]; exact h.2.2.1
  · rw [e]; exact h.2.2.2.1
  · rw [e]; exact h.2.2.2.2.1
  · rw [e]; exact h.2.2.2.2.2.1
  · rw [e]; exact h.2.2.2.2.2.2.1
  · rw [e]; exact h.2.2.2.2.2.2.2.1
  · rw [each_with]; exact h.2.2.2.2.2.2.2.2

/-! ## An example -/

/-- `example/hybrid/dep_chaining` with both toolchains. -/
def exSwitch : Multi := chaining.each [(exGcc, ⟨true, true⟩), (exMsvc, ⟨true, true⟩)]

def only (name : Str) : Str → Reg.Condition := fun n => ⟨n = name, false⟩

def exSwitched : List GenMade × List (Part × List Filled) :=
  ((exSwitch.with allOn).run (fun _ _ => TargetSchema.empty) exChain (fun _ => none) id).getD ([], [])

theorem exSwitched_run : (exSwitch.with allOn).run (fun _ _ => TargetSchema.empty) exChain (fun _ => none) id =
    some (exSwitched.1, exSwitched.2) := by
  have : ((exSwitch.with allOn).run (fun _ _ => TargetSchema.empty) exChain (fun _ => none) id).isSome =
      true := by decide +kernel
  obtain ⟨x, hx⟩ := Option.isSome_iff_exists.1 this
  rw [exSwitched, hx, Option.getD_some]

theorem exSwitch_place : MultiPlace exChain (exSwitch.with allOn) where
  build := by decide
  place x hx := by
    rw [exSwitch, each_with] at hx
    obtain ⟨y, hy, rfl⟩ := List.mem_map.1 (List.mem_filter.1 hx).1
    simp only [List.map_cons, List.map_nil, List.mem_cons, List.not_mem_nil, or_false] at hy
    rcases hy with rfl | rfl
    · exact exChain_place
    · exact {
        place := {
          build := by decide
          name := by decide
          exts := ⟨⟨b!"obj", by decide +kernel⟩, ⟨b!"h", by decide +kernel⟩, ⟨b!"pch", by decide +kernel⟩⟩ }
        below := fun _ => ⟨by decide, b!"_build", rfl⟩
        names := by decide +kernel }
  names := by decide +kernel
  brackets x hx := by
    rw [exSwitch, each_with] at hx
    obtain ⟨y, hy, rfl⟩ := List.mem_map.1 (List.mem_filter.1 hx).1
    simp only [List.map_cons, List.map_nil, List.mem_cons, List.not_mem_nil, or_false] at hy
    rcases hy with rfl | rfl <;> decide +kernel

def exSwitchSetup : Str → Reg.Setup :=
  Reg.setupWith (multiTargets exSwitched.2 exBothOrder) (scriptGens exSwitched.1)

/-- A generator that finds nothing to do. -/
def exIdleGen (name : Str) : List Reg.WEvent :=
  [.begin name, .task name (.g .begin) [], .task name (.g (.task b!"Generate")) [],
    .task name (.g (.finish [b!"Generate"] true)) []]

/-- A target that finds nothing to do. -/
def exIdle (name : Str) : List Reg.WEvent :=
  [.begin name, .task name (.t .objTask) [], .task name (.t .linkTask) [], .task name (.t (.finish true)) []]

/-- The first run is for `gcc`.  Then a source is edited, and the second run is for `msvc`.  The third run
is for both: only the program of `gcc` with that source is built again. -/
def exSwitchHistory : List Reg.WEvent :=
  .launch (exSwitch.with (only b!"gcc")).graph exSwitchSetup ::
  exChainGen b!"cpp_generator" b!"/r/_build/cpp_generator/main.cpp" 2 ++
  exChainGen b!"c_generator" b!"/r/_build/c_generator/main.c" 3 ++
  Reg.exTargetTasks b!"[gcc] cpptarget" b!"/r/_build/gcc/cpptarget/cpptarget" 4 ++
  Reg.exTargetTasks b!"[gcc] ctarget" b!"/r/_build/gcc/ctarget/ctarget" 5 ++
  [.join, .edit b!"/r/_build/cpp_generator/main.cpp" 6,
    .launch (exSwitch.with (only b!"msvc")).graph exSwitchSetup] ++
  exIdleGen b!"cpp_generator" ++ exIdleGen b!"c_generator" ++
  Reg.exTargetTasks b!"[msvc] cpptarget" b!"/r/_build/msvc/cpptarget/cpptarget.exe" 7 ++
  Reg.exTargetTasks b!"[msvc] ctarget" b!"/r/_build/msvc/ctarget/ctarget.exe" 8 ++
  [.join, .launch (exSwitch.with allOn).graph exSwitchSetup] ++
  exIdleGen b!"cpp_generator" ++ exIdleGen b!"c_generator" ++
  Reg.exTargetTasks b!"[gcc] cpptarget" b!"/r/_build/gcc/cpptarget/cpptarget" 9 ++
  exIdle b!"[gcc] ctarget" ++ exIdle b!"[msvc] cpptarget" ++ exIdle b!"[msvc] ctarget"

theorem exSwitchHistory_choices : Reg.AllOfChoices (fun g => ∃ c, g = (exSwitch.with c).graph) exSwitchSetup
    (Reg.World.init (Reg.kindsOf (multiTargets exSwitched.2 exBothOrder))) exSwitchHistory := by
  refine Reg.allOfChoices_of _ ?_ (by decide +kernel)
  intro g' s' hm
  simp only [exSwitchHistory, exChainGen, exIdleGen, exIdle, Reg.exTargetTasks, List.mem_append,
    List.mem_cons, List.not_mem_nil, reduceCtorEq, false_or, or_false,
    Reg.WEvent.launch.injEq] at hm
  rcases hm with (⟨rfl, rfl⟩ | ⟨rfl, rfl⟩) | ⟨rfl, rfl⟩ <;>
    exact ⟨⟨_, rfl⟩, fun j _ => Reg.SameSetup.refl _⟩

/-- After the third run all four programs are as built from scratch. -/
example : ∀ x ∈ exSwitched.2, ∀ f ∈ x.2,
    ∃ σ, (((Reg.World.init (Reg.kindsOf (multiTargets exSwitched.2 exBothOrder))).steps
      exSwitchHistory).step .join).comps (targetId x.1.tc.name f.made.name) = .target f.made.fixed σ ∧
    Clean f.made.fixed σ f.cfg := by
  have hr := exSwitched_run
  have hp := exSwitch_place
  have h : OutsideAll exChain (exSwitch.with allOn) exSwitched.1 exSwitched.2 := by
    rw [exSwitch, each_with] at hr hp ⊢
    exact (C109_chaining hr hp fun _ => List.Perm.refl _).1
  have := C110_built hr (C110_samples .executable [(exGcc, ⟨true, true⟩), (exMsvc, ⟨true, true⟩)] allOn
    exSwitch (by simp [exSwitch])) hp
    (fun _ => List.Perm.refl _) h exBothOrder rfl exSwitchHistory_choices
    (by decide +kernel) (by decide +kernel) (by decide +kernel) (c := allOn) (by decide +kernel)
  exact fun x hx f hf => this.2.1 x hx rfl f hf

end Verif.Sample
