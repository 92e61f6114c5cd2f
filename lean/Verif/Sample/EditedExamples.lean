import Verif.Sample.Edited
import Verif.Sample.BytesExamples

/-! # Scripts whose text is edited between runs: an example (C112) -/

namespace Verif.Sample
open Verif Verif.Schema Verif.Target Verif.Toolchain Verif.Path
open Verif.Reg (BWEvent BWorld exNoJunk exCounting kindsOf setupWith buildAll sourcesOnly InOrder ScriptTarget)
open Verif.Boot (Filled)

/-- The order of the objects is not configured. -/
theorem order_same (r : List (Part × List Filled)) (o o' : Str → List Str) (gs : List Reg.ScriptGen) (j : Str) :
    Reg.SameSetup (setupWith (multiTargets r o) gs j) (setupWith (multiTargets r o') gs j) := by
  have h : ∀ o, multiTargets r o = (r.flatMap fun x => x.2.map fun f => (x.1.tc.name, f)).map fun y =>
      ⟨y.2.made, y.2.cfg, o (targetId y.1 y.2.made.name)⟩ := by
    intro o
    rw [multiTargets, List.map_flatMap]
    refine flatMap_congr' fun x _ => ?_
    rw [scriptTargets, List.map_map]
    rfl
  rw [h, h, setupWith, setupWith, List.find?_map, List.find?_map]
  generalize r.flatMap _ = l
  have e : ∀ o : Str → List Str, ((fun t : ScriptTarget => decide (t.id = j)) ∘ fun y : Str × Filled =>
      (⟨y.2.made, y.2.cfg, o (targetId y.1 y.2.made.name)⟩ : ScriptTarget)) =
      fun y => decide (targetId y.2.made.toolchain.name y.2.made.name = j) := fun _ => rfl
  rw [e, e]
  cases l.find? _ with
  | none => exact Reg.SameSetup.refl _
  | some y => exact rfl

/-- The generator has another command, and the program another flag and a library. -/
def renewed : MText :=
  ⟨[⟨b!"gen", b!"", [.addInput b!"{current_root_dir}/v.in", .addPattern b!"v_cpp" b!"{current_build_dir}/v.cpp",
      .addOutput b!"{v_cpp}", .addCommand b!"sort {current_root_dir}/v.in -o {v_cpp}" []]⟩], [],
    [⟨b!"lib", .staticLibrary, b!"", [.step (.call (.addSource b!"lib.cpp" []))]⟩,
      ⟨b!"app", .executable, b!"", [.genSource 0 b!"v_cpp", .step (.call (.addSource b!"main.cpp" [])),
        .step (.call (.addFlag .cppCompile b!"-O2")), .step (.libDep 0)]⟩], [(1, 0)], [(1, 0)], [1]⟩

def edition (m : Multi) : Edition :=
  let r := (m.run (fun _ _ => TargetSchema.empty) exChain (fun _ => none) id).getD ([], [])
  ⟨m, r.1, r.2⟩

theorem edition_run {m : Multi} (h : (m.run (fun _ _ => TargetSchema.empty) exChain (fun _ => none) id).isSome =
    true) : m.run (fun _ _ => TargetSchema.empty) exChain (fun _ => none) id =
      some ((edition m).gens, (edition m).parts) := by
  obtain ⟨x, hx⟩ := Option.isSome_iff_exists.1 h
  simp only [edition, hx, Option.getD_some]

def exOld : Edition := edition (versioned.each [(exGcc, ⟨true, true⟩)])

def exNew : Edition := edition (renewed.each [(exGcc, ⟨true, true⟩)])

theorem gcc_place {s : MText} (h : ∀ g ∈ s.gens, g.name ≠ exGcc.name) :
    MultiPlace exChain (s.each [(exGcc, ⟨true, true⟩)]) where
  build := by decide
  place x hx := by
    obtain ⟨y, hy, rfl⟩ := List.mem_map.1 (List.mem_filter.1 hx).1
    obtain rfl := List.mem_singleton.1 hy
    exact {
      place := exChain_place.place
      below := fun _ => ⟨by decide, b!"_build", rfl⟩
      names := h }
  names := by
    show ([Target.exGcc.name] : List Str).Nodup
    decide
  brackets x hx := by
    obtain ⟨y, hy, rfl⟩ := List.mem_map.1 (List.mem_filter.1 hx).1
    obtain rfl := List.mem_singleton.1 hy
    show c!"]" ∉ exGcc.name
    decide +kernel

theorem outside_of {m : Multi} {gs : List GenMade} {r : List (Part × List Filled)}
    (h1 : ∀ g ∈ gs, ∀ x ∈ g.cfg, ∀ q ∈ x.2.inputs, ¬ exChain.buildDir <+: q)
    (h2 : ∀ x ∈ r, ∀ f ∈ x.2.zipIdx, ∀ q ∈ Reg.given f.1.cfg, exChain.buildDir <+: q →
      q ∈ (x.1.text m.gens).generated exChain f.2) : OutsideAll exChain m gs r := by
  have pre : ∀ {d q : Str}, Inside d q → d <+: q := by
    rintro d q ⟨t, h | ⟨-, h⟩, -⟩
    · exact ⟨_, h.symm⟩
    · exact ⟨_, h.symm⟩
  refine ⟨fun g hg x hx q hq hi => h1 g hg x hx q hq (pre hi), fun x hx => ⟨?_, ?_⟩⟩
  · exact fun g hg x hx q hq hi => h1 g hg x hx q hq (pre hi)
  · intro k f hk q hq hi
    exact h2 x hx (f, k) (List.mk_mem_zipIdx_iff_getElem?.2 hk) q hq (pre hi)

theorem exEditions_neat : NeatEditions exChain [exOld, exNew] where
  ran := by
    intro v hv
    simp only [List.mem_cons, List.not_mem_nil, or_false] at hv
    rcases hv with rfl | rfl <;>
      exact ⟨_, _, _, fun _ => .refl _, edition_run (by decide +kernel)⟩
  neat := by
    intro v hv
    simp only [List.mem_cons, List.not_mem_nil, or_false] at hv
    rcases hv with rfl | rfl
    · exact each_neat (s := versioned) (by decide +kernel) _
    · exact each_neat (s := renewed) (by decide +kernel) _
  place := by
    intro v hv
    simp only [List.mem_cons, List.not_mem_nil, or_false] at hv
    rcases hv with rfl | rfl
    · exact gcc_place (s := versioned) (by decide +kernel)
    · exact gcc_place (s := renewed) (by decide +kernel)
  outside := by
    intro v hv
    simp only [List.mem_cons, List.not_mem_nil, or_false] at hv
    rcases hv with rfl | rfl <;> exact outside_of (by decide +kernel) (by decide +kernel)
  fits := by
    have : ∀ v ∈ [exOld, exNew], ∀ g ∈ v.gens, g.commands.length < 2 ^ 32 ∧ ∀ s ∈ g.commands, s.length < 2 ^ 32 := by
      decide +kernel
    exact this
  toolchains := by
    have : ∀ v ∈ [exOld, exNew], ∀ x ∈ v.text.on, x.tc = Target.exGcc := by decide +kernel
    intro v hv v' hv' x hx x' hx' _
    rw [this v hv x hx, this v' hv' x' hx']
  targets := by
    have : ∀ d ∈ [exOld, exNew].flatMap fun v => v.text.on.flatMap (·.targets),
        ∀ d' ∈ [exOld, exNew].flatMap fun v => v.text.on.flatMap (·.targets),
        d.name = d'.name → d.type = d'.type ∧ d.dir = d'.dir := by decide +kernel
    exact fun v hv v' hv' x hx x' hx' _ d hd d' hd' =>
      this d (List.mem_flatMap.2 ⟨v, hv, List.mem_flatMap.2 ⟨x, hx, hd⟩⟩) d'
        (List.mem_flatMap.2 ⟨v', hv', List.mem_flatMap.2 ⟨x', hx', hd'⟩⟩)
  sources := by
    have : ∀ f ∈ [exOld, exNew].flatMap fun v => v.parts.flatMap (·.2),
        ∀ f' ∈ [exOld, exNew].flatMap fun v => v.parts.flatMap (·.2),
        f.made.name = f'.made.name → ∀ a ∈ paths f.cfg.sources, ∀ b ∈ paths f'.cfg.sources,
        filename a = filename b → a = b := by decide +kernel
    rintro v hv v' hv' f f' ⟨x, hx, x', hx', -, hf, hf', hn⟩
    exact this f (List.mem_flatMap.2 ⟨v, hv, List.mem_flatMap.2 ⟨x, hx, hf⟩⟩) f'
      (List.mem_flatMap.2 ⟨v', hv', List.mem_flatMap.2 ⟨x', hx', hf'⟩⟩) hn
  pch := by
    have : ∀ v ∈ [exOld, exNew], ∀ x ∈ v.parts, ∀ f ∈ x.2, f.cfg.pchs = [] := by decide +kernel
    rintro v hv v' hv' f f' ⟨x, hx, x', hx', -, hf, hf', -⟩
    have h1 := this v hv x hx f hf
    have h2 := this v' hv' x' hx' f' hf'
    rw [h1, h2]
    exact ⟨Iff.rfl, fun h => absurd rfl h⟩

def exEditOrder : Str → List Str := fun j =>
  if j = b!"[gcc] app" then [b!"/r/_build/gen/v.cpp", b!"/r/main.cpp"] else [b!"/r/lib.cpp"]

def exSetupIn (v : Edition) : Str → Reg.Setup := setupWith (multiTargets v.parts exEditOrder) (scriptGens v.gens)

theorem exSetup_is (v : Edition) : v.Is v.text.graph (exSetupIn v) :=
  ⟨rfl, fun j _ => order_same _ _ _ _ j⟩

def exLibOut : Str := b!"/r/_build/gcc/lib/lib.a"

/-- The old edition is built.  The new one is killed while the library is compiled, and built again. -/
def exEditHistory : List (BWEvent Str) :=
  [.edit b!"/r/v.in" 1 b!"v1 ", .edit b!"/r/main.cpp" 1 b!"m1 ", .edit b!"/r/lib.cpp" 1 b!"lib ",
    .launch exOld.text.graph (exSetupIn exOld)] ++ exTwiceGen 2 ++ exTwiceApp b!"[gcc] app" exGccOut 3 ++
  [.join, .launch exNew.text.graph (exSetupIn exNew)] ++ exTwiceGen 4 ++
  [.begin b!"[gcc] lib", .task b!"[gcc] lib" (.t .objTask) [] exNoJunk,
    .task b!"[gcc] lib" (.t (.exec 0 true none)) [] exNoJunk, .kill (fun _ => []) (fun _ => none),
    .launch exNew.text.graph (exSetupIn exNew),
    .begin b!"gen", .task b!"gen" .begin [] exNoJunk, .task b!"gen" (.task b!"Generate") [] exNoJunk,
    .task b!"gen" (.finish [b!"Generate"] true) [] exNoJunk] ++
  Reg.exBTarget b!"[gcc] lib" exLibOut 5 ++ exTwiceApp b!"[gcc] app" exGccOut 6

/-- A fresh checkout, in which only the new edition is built. -/
def exEditOnce : List (BWEvent Str) :=
  [.edit b!"/r/lib.cpp" 9 b!"lib ", .edit b!"/r/main.cpp" 8 b!"m1 ", .edit b!"/r/v.in" 7 b!"v1 ",
    .launch exNew.text.graph (exSetupIn exNew)] ++ exTwiceGen 10 ++
  Reg.exBTarget b!"[gcc] lib" exLibOut 11 ++ exTwiceApp b!"[gcc] app" exGccOut 12

def exEditWorld : BWorld Str := (BWorld.init (kindsIn [exOld, exNew])).steps exCounting exEditHistory

def exEditOnceWorld : BWorld Str := (BWorld.init (kindsIn [exOld, exNew])).steps exCounting exEditOnce

theorem exEditHistory_versions : Reg.AllOfVersionsB exCounting (editions [exOld, exNew])
    (BWorld.init (kindsIn [exOld, exNew])) exEditHistory := by
  refine Reg.allOfVersionsB_of _ ?_ (by decide +kernel)
  intro g s hm
  simp only [exEditHistory, exTwiceGen, exTwiceApp, Reg.exBTarget, List.mem_append, List.mem_cons,
    List.not_mem_nil, reduceCtorEq, false_or, or_false, BWEvent.launch.injEq] at hm
  rcases hm with (⟨rfl, rfl⟩ | ⟨rfl, rfl⟩) | ⟨rfl, rfl⟩
  · exact ⟨exOld, by simp, exSetup_is _⟩
  · exact ⟨exNew, by simp, exSetup_is _⟩
  · exact ⟨exNew, by simp, exSetup_is _⟩

theorem exEditOnce_versions : Reg.AllOfVersionsB exCounting (editions [exOld, exNew])
    (BWorld.init (kindsIn [exOld, exNew])) exEditOnce := by
  refine Reg.allOfVersionsB_of _ ?_ (by decide +kernel)
  intro g s hm
  simp only [exEditOnce, exTwiceGen, exTwiceApp, Reg.exBTarget, List.mem_append, List.mem_cons,
    List.not_mem_nil, reduceCtorEq, false_or, or_false, BWEvent.launch.injEq] at hm
  obtain ⟨rfl, rfl⟩ := hm
  exact ⟨exNew, by simp, exSetup_is _⟩

theorem exEditWorld_ok : exEditWorld.world.active = true ∧ exEditWorld.world.calm = true ∧
    (exEditWorld.step exCounting .join).world.result = some true ∧
    exEditWorld.world.graph = exNew.text.graph := by decide +kernel

theorem exEditOnceWorld_ok : exEditOnceWorld.world.active = true ∧ exEditOnceWorld.world.calm = true ∧
    (exEditOnceWorld.step exCounting .join).world.result = some true ∧
    exEditOnceWorld.world.graph = exNew.text.graph := by decide +kernel

/-- The graph tells which edition is built. -/
theorem exNew_is {g : Reg.Graph} {s : Str → Reg.Setup} (h : editions [exOld, exNew] g s)
    (hg : g = exNew.text.graph) : exNew.Is g s := by
  obtain ⟨v, hv, h⟩ := h
  simp only [List.mem_cons, List.not_mem_nil, or_false] at hv
  rcases hv with rfl | rfl
  · exact absurd (hg.symm.trans h.1) (by decide +kernel)
  · exact h

theorem exEdit_present {b : BWorld Str} {evs : List (BWEvent Str)}
    (hb : b = (BWorld.init (kindsIn [exOld, exNew])).steps exCounting evs)
    (hal : Reg.AllOfVersionsB exCounting (editions [exOld, exNew]) (BWorld.init (kindsIn [exOld, exNew])) evs)
    (ha : b.world.active = true) (hg : b.world.graph = exNew.text.graph) :
    exNew.Is b.world.graph b.world.setup := by
  refine exNew_is ?_ hg
  exact (exEditions_neat.of _ _).2 (Reg.versions_present exEditions_neat.versions.sound hb
    (AllOfVersionsB.congr (fun g s => (exEditions_neat.of g s).1) hal) ha)

theorem exEditWorld_is : exNew.Is exEditWorld.world.graph exEditWorld.world.setup :=
  exEdit_present (evs := exEditHistory) rfl exEditHistory_versions exEditWorld_ok.1 exEditWorld_ok.2.2.2

theorem exEditOnceWorld_is : exNew.Is exEditOnceWorld.world.graph exEditOnceWorld.world.setup :=
  exEdit_present (evs := exEditOnce) rfl exEditOnce_versions exEditOnceWorld_ok.1 exEditOnceWorld_ok.2.2.2

def exMade : List Str := [exLibOut, exGccOut, b!"/r/_build/gen/v.cpp"]

theorem exNew_makes {q : Str} (h : exNew.Makes q) : q ∈ exMade := by
  have h1 : ∀ x ∈ exNew.parts, ∀ f ∈ x.2, outputPath f.made.fixed ∈ exMade := by decide +kernel
  have h2 : ∀ g ∈ exNew.gens, ∀ q ∈ Reg.ScriptGen.outputs ⟨g.name, g.cfg⟩, q ∈ exMade := by decide +kernel
  rcases h with ⟨x, hx, f, hf, rfl⟩ | ⟨g, hg, hq⟩
  · exact h1 x hx f hf
  · exact h2 g hg q hq

theorem exNew_app : exNew.Makes exGccOut := by
  have : ∃ x ∈ exNew.parts, ∃ f ∈ x.2, exGccOut = outputPath f.made.fixed := by decide +kernel
  exact .inl this

theorem exEdit_hands {evs : List (BWEvent Str)} (h : Reg.noHands exMade evs = true) :
    ∀ e ∈ evs, ∀ q, exNew.Makes q → (∀ t x, e ≠ .edit q t x) ∧ e ≠ .delete q :=
  fun e he q hq => Reg.noHands_spec h e he q (exNew_makes hq)

/-- The hypotheses of `C112_contents_partial` are met. -/
example : ∃ orders : Str → List Str, ∀ o, InOrder exNew.text.graph o →
    text (exEditWorld.step exCounting .join).files exGccOut =
      buildAll exCounting (kindsOf exNew.targets) (setupWith exNew.targets (scriptGens exNew.gens)) orders o
        (sourcesOnly (kindsOf exNew.targets) exNew.text.graph
          (setupWith exNew.targets (scriptGens exNew.gens)) exEditWorld.files) exGccOut := by
  obtain ⟨ha, hc, hr, -⟩ := exEditWorld_ok
  obtain ⟨orders, -, h⟩ := C112_contents_partial (b := exEditWorld) (evs := exEditHistory) exEditions_neat rfl
    exEditHistory_versions ha hc hr (by simp) exEditWorld_is (exEdit_hands (by decide +kernel))
  exact ⟨orders, fun o ho => h o ho _ exNew_app⟩

/-- The program holds the generated source, main.cpp and the library. -/
example : text (exEditWorld.step exCounting .join).files exGccOut = some (List.replicate 10 0) := by
  decide +kernel

/-- The hypotheses of `C112_reproducible_partial` are met. -/
example : text (exEditWorld.step exCounting .join).files exGccOut =
    text (exEditOnceWorld.step exCounting .join).files exGccOut := by
  obtain ⟨ha, hc, hr, -⟩ := exEditWorld_ok
  obtain ⟨ha', hc', hr', -⟩ := exEditOnceWorld_ok
  refine C112_reproducible_partial (b := exEditWorld) (b' := exEditOnceWorld) (evs := exEditHistory)
    (evs' := exEditOnce) (v := exNew) exEditions_neat exEditions_neat rfl rfl exEditHistory_versions
    exEditOnce_versions ha ha' hc hc' hr hr' (by simp) (by simp) (Reg.exCounting_order _ _) exEditWorld_is
    exEditOnceWorld_is (exEdit_hands (by decide +kernel)) (exEdit_hands (by decide +kernel)) ?_ _ exNew_app
  intro q hq
  by_cases h : q ∈ [b!"/r/v.in", b!"/r/main.cpp", b!"/r/lib.cpp", exLibOut, exGccOut, b!"/r/_build/gen/v.cpp"]
  · have key : ∀ q ∈ [b!"/r/v.in", b!"/r/main.cpp", b!"/r/lib.cpp", exLibOut, exGccOut, b!"/r/_build/gen/v.cpp"],
        Reg.isMade (kindsOf exNew.targets) exNew.text.graph (setupWith exNew.targets (scriptGens exNew.gens)) q =
          true ∨ text exEditWorld.files q = text exEditOnceWorld.files q := by decide +kernel
    rcases key q h with h | h
    · rw [h] at hq; cases hq
    · exact h
  · simp only [List.mem_cons, List.not_mem_nil, or_false, not_or] at h
    rw [text, text, exEditWorld, exEditOnceWorld, Reg.untouched, Reg.untouched]
    · simp [exEditOnce, exTwiceGen, exTwiceApp, Reg.exBTarget, BWEvent.touched, h]
    · simp [exEditHistory, exTwiceGen, exTwiceApp, Reg.exBTarget, BWEvent.touched, h]

/-- The hypotheses of `C112_built_partial` are met by the same history without the contents. -/
theorem exEdit_erased : ∃ wevs, exEditWorld.world = (Reg.World.init (kindsIn [exOld, exNew])).steps wevs ∧
    Reg.AllOfVersions (editions [exOld, exNew]) (Reg.World.init (kindsIn [exOld, exNew])) wevs := by
  have hpv := exEditions_neat.versions
  obtain ⟨-, -, wevs, h1, h2⟩ := Reg.bVersions_steps hpv.sound exEditHistory (M := exCounting)
    (b := BWorld.init (kindsIn [exOld, exNew])) (Reg.versionsInv_init hpv.sound) (Reg.cInv_init _)
    (AllOfVersionsB.congr (fun g s => (exEditions_neat.of g s).1) exEditHistory_versions)
  exact ⟨wevs, h1, AllOfVersions.congr (fun g s => (exEditions_neat.of g s).2) h2⟩

example : ∀ x ∈ exNew.parts, ∀ f ∈ x.2, ∃ σ, (exEditWorld.world.step .join).comps
    (targetId x.1.tc.name f.made.name) = .target f.made.fixed σ ∧ Clean f.made.fixed σ f.cfg := by
  obtain ⟨wevs, h1, h2⟩ := exEdit_erased
  obtain ⟨ha, hc, hr, -⟩ := exEditWorld_ok
  exact (C112_built_partial exEditions_neat h1 h2 ha hc (by decide +kernel) (by simp) exEditWorld_is).2.1

end Verif.Sample
