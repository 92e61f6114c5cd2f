import Verif.Sample.MultiBytes
import Verif.Sample.ChoiceExamples
import Verif.Reg.BytesVersionsExamples

/-! # Contents of files after builds of scripts given by their text: an example (C111) -/

namespace Verif.Reg
open Verif Verif.Schema

/-- A boolean form of `AllOfChoicesB`, but for the launches. -/
def quietCB {β : Type} (M : Makers β) : BWorld β → List (BWEvent β) → Bool
  | _, [] => true
  | b, e :: l => quiet b.world [e.erase] && quietCB M (b.step M e) l

theorem allOfChoicesB_of {β : Type} {M : Makers β} {G : Graph → Prop} {s : Str → Setup} {kinds : Str → Kind}
    (evs : List (BWEvent β))
    (hl : ∀ g' s', .launch g' s' ∈ evs → G g' ∧ ∀ j ∈ g'.ids, SameSetup (s' j) (s j))
    (hq : quietCB M (BWorld.init kinds) evs = true) : AllOfChoicesB M G s (BWorld.init kinds) evs := by
  have gen : ∀ (evs : List (BWEvent β)) (b : BWorld β), BInv b.world →
      (∀ g' s', .launch g' s' ∈ evs → G g' ∧ ∀ j ∈ g'.ids, SameSetup (s' j) (s j)) →
      quietCB M b evs = true → AllOfChoicesB M G s b evs := by
    intro evs
    induction evs with
    | nil => intros; exact trivial
    | cons e l ih =>
      intro b hb h hq
      simp only [quietCB, Bool.and_eq_true] at hq
      obtain ⟨h1, h3⟩ := hq
      have hb' : BInv (b.step M e).world := by
        rcases world_step (M := M) b e with h4 | h4
        · rw [h4]; exact bInv_step hb _
        · rw [h4]; exact hb
      refine ⟨?_, ih _ hb' (fun g' s' hm => h g' s' (List.mem_cons_of_mem _ hm)) h3⟩
      simp only [quiet, Bool.and_true] at h1
      cases e with
      | edit p t x =>
        simp only [BWEvent.erase, Bool.and_eq_true] at h1
        exact ⟨of_decide_eq_true h1.1, not_delicate hb h1.2⟩
      | delete p => exact not_delicate hb h1
      | launch g' s' => exact h g' s' List.mem_cons_self
      | _ => trivial
  exact gen evs _ (bInv_init kinds) hl hq

end Verif.Reg

namespace Verif.Sample
open Verif Verif.Schema Verif.Target Verif.Toolchain Verif.Path
open Verif.Reg (BWEvent BWorld exNoJunk exCounting kindsOf setupWith buildAll sourcesOnly InOrder)
open Verif.Boot (Filled)

/-- A generator with an input, and a program with its output and one more source. -/
def versioned : MText :=
  ⟨[⟨b!"gen", b!"", [.addInput b!"{current_root_dir}/v.in", .addPattern b!"v_cpp" b!"{current_build_dir}/v.cpp",
      .addOutput b!"{v_cpp}", .addCommand b!"cp {current_root_dir}/v.in {v_cpp}" []]⟩], [],
    [⟨b!"app", .executable, b!"", [.genSource 0 b!"v_cpp", .step (.call (.addSource b!"main.cpp" []))]⟩], [],
    [(0, 0)], [0]⟩

/-- With two toolchains. -/
def exTwice : Multi := versioned.each [(exGcc, ⟨true, true⟩), (exMsvc, ⟨true, true⟩)]

def exTwiceRun : List GenMade × List (Part × List Filled) :=
  ((exTwice.with allOn).run (fun _ _ => TargetSchema.empty) exChain (fun _ => none) id).getD ([], [])

theorem exTwice_run : (exTwice.with allOn).run (fun _ _ => TargetSchema.empty) exChain (fun _ => none) id =
    some (exTwiceRun.1, exTwiceRun.2) := by
  have : ((exTwice.with allOn).run (fun _ _ => TargetSchema.empty) exChain (fun _ => none) id).isSome =
      true := by decide +kernel
  obtain ⟨x, hx⟩ := Option.isSome_iff_exists.1 this
  rw [exTwiceRun, hx, Option.getD_some]

theorem exTwice_neat : NeatMulti (exTwice.with allOn) := by
  rw [exTwice, each_with]
  exact each_neat (by decide +kernel) _

theorem exTwice_place : MultiPlace exChain (exTwice.with allOn) where
  build := by decide
  place x hx := by
    rw [exTwice, each_with] at hx
    obtain ⟨y, hy, rfl⟩ := List.mem_map.1 (List.mem_filter.1 hx).1
    simp only [List.map_cons, List.map_nil, List.mem_cons, List.not_mem_nil, or_false] at hy
    rcases hy with rfl | rfl
    · exact {
        place := exChain_place.place
        below := fun _ => ⟨by decide, b!"_build", rfl⟩
        names := by decide +kernel }
    · exact {
        place := {
          build := by decide
          name := by decide
          exts := ⟨⟨b!"obj", by decide +kernel⟩, ⟨b!"h", by decide +kernel⟩, ⟨b!"pch", by decide +kernel⟩⟩ }
        below := fun _ => ⟨by decide, b!"_build", rfl⟩
        names := by decide +kernel }
  names := by decide +kernel
  brackets x hx := by
    rw [exTwice, each_with] at hx
    obtain ⟨y, hy, rfl⟩ := List.mem_map.1 (List.mem_filter.1 hx).1
    simp only [List.map_cons, List.map_nil, List.mem_cons, List.not_mem_nil, or_false] at hy
    rcases hy with rfl | rfl <;> decide +kernel

theorem exTwice_outside : OutsideAll exChain (exTwice.with allOn) exTwiceRun.1 exTwiceRun.2 := by
  have pre : ∀ {d q : Str}, Inside d q → d <+: q := by
    rintro d q ⟨t, h | ⟨-, h⟩, -⟩
    · exact ⟨_, h.symm⟩
    · exact ⟨_, h.symm⟩
  have h1 : ∀ g ∈ exTwiceRun.1, ∀ x ∈ g.cfg, ∀ q ∈ x.2.inputs, ¬ exChain.buildDir <+: q := by decide +kernel
  have h2 : ∀ x ∈ exTwiceRun.2, ∀ f ∈ x.2.zipIdx, ∀ q ∈ Reg.given f.1.cfg, exChain.buildDir <+: q →
      q ∈ (x.1.text (exTwice.with allOn).gens).generated exChain f.2 := by decide +kernel
  refine ⟨fun g hg x hx q hq hi => h1 g hg x hx q hq (pre hi), fun x hx => ⟨?_, ?_⟩⟩
  · exact fun g hg x hx q hq hi => h1 g hg x hx q hq (pre hi)
  · intro k f hk q hq hi
    exact h2 x hx (f, k) (List.mk_mem_zipIdx_iff_getElem?.2 hk) q hq (pre hi)

def exTwiceOrder : Str → List Str := fun _ => [b!"/r/_build/gen/v.cpp", b!"/r/main.cpp"]

def exTwiceSetup : Str → Reg.Setup := setupWith (multiTargets exTwiceRun.2 exTwiceOrder) (scriptGens exTwiceRun.1)

def exTwiceGen (t : Nat) : List (BWEvent Str) :=
  [.begin b!"gen", .task b!"gen" .begin [] exNoJunk, .task b!"gen" (.task b!"Generate") [] exNoJunk,
    .task b!"gen" (.call b!"Generate" true) [(b!"/r/_build/gen/v.cpp", some t)] exNoJunk,
    .task b!"gen" (.finish [b!"Generate"] true) [] exNoJunk]

def exTwiceApp (id out : Str) (t : Nat) : List (BWEvent Str) :=
  [.begin id, .task id (.t .objTask) [] exNoJunk,
    .task id (.t (.exec 0 true none)) [] exNoJunk, .task id (.t (.exec 0 true none)) [] exNoJunk,
    .task id (.t (.add 0)) [] exNoJunk, .task id (.t (.add 0)) [] exNoJunk,
    .task id (.t .linkTask) [] exNoJunk, .task id (.t (.linkExec true none)) [(out, some t)] exNoJunk,
    .task id (.t (.finish true)) [] exNoJunk]

def exGccOut : Str := b!"/r/_build/gcc/app/app"

def exMsvcOut : Str := b!"/r/_build/msvc/app/app.exe"

/-- The first run is for `gcc`.  Then the input of the generator is edited, and the second run, for `msvc`,
generates the source again.  The third run is for both: the program of `gcc` is built again. -/
def exTwiceHistory : List (BWEvent Str) :=
  [.edit b!"/r/v.in" 1 b!"old ", .edit b!"/r/main.cpp" 1 b!"m1 ",
    .launch (exTwice.with (only b!"gcc")).graph exTwiceSetup] ++ exTwiceGen 2 ++
  exTwiceApp b!"[gcc] app" exGccOut 3 ++
  [.join, .edit b!"/r/v.in" 2 b!"newer ", .launch (exTwice.with (only b!"msvc")).graph exTwiceSetup] ++
  exTwiceGen 4 ++ exTwiceApp b!"[msvc] app" exMsvcOut 5 ++
  [.join, .launch (exTwice.with allOn).graph exTwiceSetup,
    .begin b!"gen", .task b!"gen" .begin [] exNoJunk, .task b!"gen" (.task b!"Generate") [] exNoJunk,
    .task b!"gen" (.finish [b!"Generate"] true) [] exNoJunk] ++
  Reg.exBTarget b!"[gcc] app" exGccOut 6 ++
  [.begin b!"[msvc] app", .task b!"[msvc] app" (.t .objTask) [] exNoJunk,
    .task b!"[msvc] app" (.t .linkTask) [] exNoJunk, .task b!"[msvc] app" (.t (.finish true)) [] exNoJunk]

/-- One run for `gcc`; the files have other time stamps. -/
def exTwiceOnce : List (BWEvent Str) :=
  [.edit b!"/r/main.cpp" 7 b!"m1 ", .edit b!"/r/v.in" 8 b!"newer ",
    .launch (exTwice.with (only b!"gcc")).graph exTwiceSetup] ++ exTwiceGen 9 ++
  exTwiceApp b!"[gcc] app" exGccOut 10

def exTwiceKinds : Str → Reg.Kind := kindsOf (multiTargets exTwiceRun.2 exTwiceOrder)

def exTwiceWorld : BWorld Str := (BWorld.init exTwiceKinds).steps exCounting exTwiceHistory

def exTwiceOnceWorld : BWorld Str := (BWorld.init exTwiceKinds).steps exCounting exTwiceOnce

theorem exTwiceHistory_choices : Reg.AllOfChoicesB exCounting (fun g => ∃ c, g = (exTwice.with c).graph)
    exTwiceSetup (BWorld.init exTwiceKinds) exTwiceHistory := by
  refine Reg.allOfChoicesB_of _ ?_ (by decide +kernel)
  intro g' s' hm
  simp only [exTwiceHistory, exTwiceGen, exTwiceApp, Reg.exBTarget, List.mem_append,
    List.mem_cons, List.not_mem_nil, reduceCtorEq, false_or, or_false, BWEvent.launch.injEq] at hm
  rcases hm with (⟨rfl, rfl⟩ | ⟨rfl, rfl⟩) | ⟨rfl, rfl⟩ <;>
    exact ⟨⟨_, rfl⟩, fun j _ => Reg.SameSetup.refl _⟩

theorem exTwiceOnce_choices : Reg.AllOfChoicesB exCounting (fun g => ∃ c, g = (exTwice.with c).graph)
    exTwiceSetup (BWorld.init exTwiceKinds) exTwiceOnce := by
  refine Reg.allOfChoicesB_of _ ?_ (by decide +kernel)
  intro g' s' hm
  simp only [exTwiceOnce, exTwiceGen, exTwiceApp, List.mem_append,
    List.mem_cons, List.not_mem_nil, reduceCtorEq, false_or, or_false, BWEvent.launch.injEq] at hm
  obtain ⟨rfl, rfl⟩ := hm
  exact ⟨⟨_, rfl⟩, fun j _ => Reg.SameSetup.refl _⟩

theorem exTwiceWorld_ok : exTwiceWorld.world.active = true ∧ exTwiceWorld.world.calm = true ∧
    (exTwiceWorld.step exCounting .join).world.result = some true ∧
    exTwiceWorld.world.graph = (exTwice.with allOn).graph := by decide +kernel

theorem exTwiceOnceWorld_ok : exTwiceOnceWorld.world.active = true ∧ exTwiceOnceWorld.world.calm = true ∧
    (exTwiceOnceWorld.step exCounting .join).world.result = some true ∧
    exTwiceOnceWorld.world.graph = (exTwice.with (only b!"gcc")).graph := by decide +kernel

theorem exTwice_makes {c : Str → Reg.Condition} {q : Str} (h : Makes exTwiceRun.1 exTwiceRun.2 c q) :
    q ∈ [exGccOut, exMsvcOut, b!"/r/_build/gen/v.cpp"] := by
  have h1 : ∀ x ∈ exTwiceRun.2, ∀ f ∈ x.2, outputPath f.made.fixed ∈
      [exGccOut, exMsvcOut, b!"/r/_build/gen/v.cpp"] := by decide +kernel
  have h2 : ∀ g ∈ exTwiceRun.1, ∀ q ∈ Reg.ScriptGen.outputs ⟨g.name, g.cfg⟩, q ∈
      [exGccOut, exMsvcOut, b!"/r/_build/gen/v.cpp"] := by decide +kernel
  rcases h with ⟨x, hx, -, f, hf, rfl⟩ | ⟨g, hg, hq⟩
  · exact h1 x hx f hf
  · exact h2 g hg q hq

theorem exTwice_gcc {c : Str → Reg.Condition} (h : (c b!"gcc").build = true) :
    Makes exTwiceRun.1 exTwiceRun.2 c exGccOut := by
  have : ∃ x ∈ exTwiceRun.2, x.1.tc.name = b!"gcc" ∧ ∃ f ∈ x.2, exGccOut = outputPath f.made.fixed := by
    decide +kernel
  obtain ⟨x, hx, hn, f, hf, e⟩ := this
  exact .inl ⟨x, hx, by rw [hn]; exact h, f, hf, e⟩

/-- The hypotheses of `C111_contents` are met. -/
example : ∃ orders : Str → List Str, ∀ o, InOrder (exTwice.with allOn).graph o →
    text (exTwiceWorld.step exCounting .join).files exGccOut =
      buildAll exCounting exTwiceKinds exTwiceSetup orders o
        (sourcesOnly exTwiceKinds (exTwice.with allOn).graph exTwiceSetup exTwiceWorld.files) exGccOut := by
  obtain ⟨ha, hc, hr, hg⟩ := exTwiceWorld_ok
  obtain ⟨orders, -, h⟩ := C111_contents (b := exTwiceWorld) (evs := exTwiceHistory) exTwice_run
    exTwice_neat exTwice_place (fun _ => .refl _)
    exTwice_outside exTwiceOrder rfl exTwiceHistory_choices ha hc hr hg
    (fun e he q hq => Reg.noHands_spec (l := [exGccOut, exMsvcOut, b!"/r/_build/gen/v.cpp"])
      (by decide +kernel) e he q (exTwice_makes hq))
  exact ⟨orders, fun o ho => h o ho _ (exTwice_gcc (by decide +kernel))⟩

/-- The program holds the generated source and the other one. -/
example : text (exTwiceWorld.step exCounting .join).files exGccOut = some (List.replicate 9 0) ∧
    text (exTwiceWorld.step exCounting .join).files b!"/r/_build/gen/v.cpp" = some b!"newer " := by
  decide +kernel

/-- The hypotheses of `C111_reproducible` are met: the program of `gcc` is as after one run for `gcc`. -/
example : text (exTwiceWorld.step exCounting .join).files exGccOut =
    text (exTwiceOnceWorld.step exCounting .join).files exGccOut := by
  obtain ⟨ha, hc, hr, hg⟩ := exTwiceWorld_ok
  obtain ⟨ha', hc', hr', hg'⟩ := exTwiceOnceWorld_ok
  refine C111_reproducible (b := exTwiceWorld) (evs := exTwiceHistory) (b' := exTwiceOnceWorld)
    (evs' := exTwiceOnce) exTwice_run exTwice_neat exTwice_place (fun _ => .refl _) exTwice_outside
    exTwiceOrder (Reg.exCounting_order _ _) rfl rfl exTwiceHistory_choices exTwiceOnce_choices ha ha' hc hc' hr hr'
    hg hg' (fun e he q hq => Reg.noHands_spec (l := [exGccOut, exMsvcOut, b!"/r/_build/gen/v.cpp"])
      (by decide +kernel) e he q (exTwice_makes hq))
    (fun e he q hq => Reg.noHands_spec (l := [exGccOut, exMsvcOut, b!"/r/_build/gen/v.cpp"])
      (by decide +kernel) e he q (exTwice_makes hq)) ?_ _ (exTwice_gcc (by decide +kernel))
    (exTwice_gcc (by decide +kernel))
  intro q hq
  by_cases h : q ∈ [b!"/r/v.in", b!"/r/main.cpp", exGccOut, exMsvcOut, b!"/r/_build/gen/v.cpp"]
  · have key : ∀ q ∈ [b!"/r/v.in", b!"/r/main.cpp", exGccOut, exMsvcOut, b!"/r/_build/gen/v.cpp"],
        Reg.isMade (kindsOf (multiTargets exTwiceRun.2 exTwiceOrder)) (exTwice.with allOn).graph
          (setupWith (multiTargets exTwiceRun.2 exTwiceOrder) (scriptGens exTwiceRun.1)) q = true ∨
        text exTwiceWorld.files q = text exTwiceOnceWorld.files q := by decide +kernel
    rcases key q h with h | h
    · rw [h] at hq; cases hq
    · exact h
  · simp only [List.mem_cons, List.not_mem_nil, or_false, not_or] at h
    rw [text, text, exTwiceWorld, exTwiceOnceWorld, Reg.untouched, Reg.untouched]
    · simp [exTwiceOnce, exTwiceGen, exTwiceApp, BWEvent.touched, h]
    · simp [exTwiceHistory, exTwiceGen, exTwiceApp, Reg.exBTarget, BWEvent.touched, h]

end Verif.Sample
