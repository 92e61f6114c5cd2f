import Verif.Sample.MultiProps
import Verif.Sample.MixedExamples

/-! # The scripts in `example/hybrid` with all of their toolchains (C109) -/

namespace Verif.Sample
open Verif Verif.Schema Verif.Target Verif.Toolchain Verif.Path
open Verif.Boot (Filled)

/-- The script for one toolchain as a part. -/
def MText.part (s : MText) (tc : Toolchain) (state : Reg.Condition) : Part :=
  ⟨tc, state, s.infos, s.targets, s.deps, s.uses, s.tests⟩

/-- The script with the same part for each toolchain, with its state, for instance
`example/hybrid/dep_chaining/build.cpp:41-63`. -/
def MText.each (s : MText) (tcs : List (Toolchain × Reg.Condition)) : Multi :=
  ⟨s.gens, tcs.map fun x => s.part x.1 x.2⟩

/-- A script without generators as one with generators. -/
def Text.mixed (s : Text) : MText :=
  ⟨[], s.infos, s.targets.map fun d => ⟨d.name, d.type, d.dir, d.steps.map .step⟩, s.deps, [], s.tests⟩

/-- The script with a part for each toolchain, in which callbacks ask for the toolchain, for instance
`example/hybrid/simple/build.cpp:33-49`. -/
def eachOf (s : ToolchainId → Text) (tcs : List (Toolchain × Reg.Condition)) : Multi :=
  ⟨[], tcs.map fun x => (s x.1.id).mixed.part x.1 x.2⟩

theorem mixed_named (s : Text) : s.mixed.named = s := by
  cases s
  simp only [Text.mixed, MText.named, List.map_map, Text.mk.injEq, true_and, and_true]
  refine (List.map_congr_left fun d _ => ?_).trans (List.map_id _)
  cases d
  simp only [Function.comp_apply, List.map_map, id, Decl.mk.injEq, true_and]
  exact (List.map_congr_left fun _ _ => rfl).trans (List.map_id _)

/-- A script without generators keeps to the rules of C106 if and only if it keeps to those of C108. -/
theorem C109_mixed (s : Text) : NeatMixed s.mixed ↔ Neat s := by
  refine ⟨fun h => mixed_named s ▸ h.text, fun h => ⟨by simp [Text.mixed], by simp [Text.mixed],
    by rw [mixed_named]; exact h, by simp [Text.mixed], ?_⟩⟩
  rintro ⟨d, k⟩ hd x hx
  obtain ⟨-, -, h⟩ := List.mem_zipIdx hd
  have : d ∈ s.mixed.targets := by rw [h]; exact List.getElem_mem _
  obtain ⟨e, -, rfl⟩ := List.mem_map.1 this
  obtain ⟨y, -, rfl⟩ := List.mem_map.1 hx
  trivial

theorem each_neat {s : MText} (h : NeatMixed s) (tcs : List (Toolchain × Reg.Condition)) :
    NeatMulti (s.each tcs) where
  gens := h.gens
  names := h.names
  parts x hx := by
    obtain ⟨y, -, rfl⟩ := List.mem_map.1 (List.mem_filter.1 hx).1
    exact h

theorem eachOf_neat {s : ToolchainId → Text} (h : ∀ id, Neat (s id))
    (tcs : List (Toolchain × Reg.Condition)) : NeatMulti (eachOf s tcs) where
  gens := by simp [eachOf]
  names := by simp [eachOf]
  parts x hx := by
    obtain ⟨y, -, rfl⟩ := List.mem_map.1 (List.mem_filter.1 hx).1
    exact (C109_mixed _).2 (h y.1.id)

/-- C109: the scripts in `example/hybrid` keep to the rules with any toolchains in any states, so
`C109_built` holds of them. -/
theorem C109_samples (type : TargetType) (tcs : List (Toolchain × Reg.Condition)) :
    NeatMulti (eachOf (fun _ => single) tcs) ∧ NeatMulti (eachOf simple tcs) ∧ NeatMulti (eachOf pch tcs) ∧
    NeatMulti (eachOf (fun _ => foolib) tcs) ∧ NeatMulti (eachOf (fun _ => externalLib) tcs) ∧
    NeatMulti (eachOf (fun _ => customTarget) tcs) ∧ NeatMulti (eachOf (fun _ => targetInfo) tcs) ∧
    NeatMulti (eachOf (fun _ => generic type) tcs) ∧ NeatMulti (chaining.each tcs) := by
  have h := fun id => C106_samples id type
  exact ⟨eachOf_neat (fun id => (h id).1) _, eachOf_neat (fun id => (h id).2.1) _,
    eachOf_neat (fun id => (h id).2.2.1) _, eachOf_neat (fun id => (h id).2.2.2.1) _,
    eachOf_neat (fun id => (h id).2.2.2.2.1) _, eachOf_neat (fun id => (h id).2.2.2.2.2.1) _,
    eachOf_neat (fun id => (h id).2.2.2.2.2.2.1) _, eachOf_neat (fun id => (h id).2.2.2.2.2.2.2) _,
    each_neat chaining_neat _⟩

/-- C109: in `example/hybrid/dep_chaining` with any toolchains nothing is given that is in the build
directory but for the files of the generators: for each toolchain that is on, each of the two targets has
one source, which is the file that its generator makes. -/
theorem C109_chaining {junk : Str → Nat → TargetSchema} {p : Project} {list : Str → Option (List Str)}
    {ord : List Str → List Str} {tcs : List (Toolchain × Reg.Condition)} {gs : List GenMade}
    {r : List (Part × List Filled)} (h : (chaining.each tcs).run junk p list ord = some (gs, r))
    (hp : MultiPlace p (chaining.each tcs)) (hord : ∀ l, (ord l).Perm l) :
    OutsideAll p (chaining.each tcs) gs r ∧
    r.map (·.1.tc) = (tcs.filter (·.2.build)).map (·.1) ∧
    ∀ x ∈ r, ∃ cpp c, x.2 = [cpp, c] ∧
      paths cpp.cfg.sources = [p.buildDir ++ b!"/cpp_generator/main.cpp"] ∧
      paths c.cfg.sources = [p.buildDir ++ b!"/c_generator/main.c"] := by
  obtain ⟨hg, hon, hrun⟩ := multi_parts h
  have ht : ∀ x ∈ r, x.1.text chaining.gens = chaining ∧ x.1 ∈ (chaining.each tcs).on := by
    intro x hx
    have hm : x.1 ∈ (chaining.each tcs).on := by rw [← hon]; exact List.mem_map_of_mem hx
    obtain ⟨y, -, e⟩ := List.mem_map.1 (List.mem_filter.1 hm).1
    exact ⟨by rw [← e]; rfl, hm⟩
  have key := fun x (hx : x ∈ r) =>
    C108_chaining (by have := hrun x hx; rw [show (chaining.each tcs).gens = chaining.gens from rfl,
        (ht x hx).1] at this; exact this)
      (by have := hp.place _ (ht x hx).2; rw [show (chaining.each tcs).gens = chaining.gens from rfl,
            (ht x hx).1] at this; exact this) hord
  refine ⟨⟨chaining_inputs hg hord, fun x hx => ?_⟩, ?_, fun x hx => (key x hx).2.2⟩
  · have := (key x hx).2.1
    rw [show (chaining.each tcs).gens = chaining.gens from rfl, (ht x hx).1]
    exact this
  · have : r.map (·.1.tc) = (r.map (·.1)).map Part.tc := by rw [List.map_map]; rfl
    rw [this, hon, Multi.on, MText.each, List.filter_map, List.map_map]
    rfl

/-! ## An example -/

/-- The toolchain of the second part (`example/hybrid/dep_chaining/build.cpp:53`). -/
def exMsvc : Toolchain := toolchainMsvc b!"msvc" none none

/-- Both toolchains are on, `gcc` with tests. -/
def exBoth : Multi := chaining.each [(exGcc, ⟨true, true⟩), (exMsvc, ⟨true, false⟩)]

def exBothRun : List GenMade × List (Part × List Filled) :=
  (exBoth.run (fun _ _ => TargetSchema.empty) exChain (fun _ => none) id).getD ([], [])

theorem exBoth_run : exBoth.run (fun _ _ => TargetSchema.empty) exChain (fun _ => none) id =
    some (exBothRun.1, exBothRun.2) := by
  have : (exBoth.run (fun _ _ => TargetSchema.empty) exChain (fun _ => none) id).isSome = true := by
    decide +kernel
  obtain ⟨x, hx⟩ := Option.isSome_iff_exists.1 this
  rw [exBothRun, hx, Option.getD_some]

theorem exBoth_place : MultiPlace exChain exBoth where
  build := by decide
  place x hx := by
    obtain ⟨y, hy, rfl⟩ := List.mem_map.1 (List.mem_filter.1 hx).1
    simp only [List.mem_cons, List.not_mem_nil, or_false] at hy
    rcases hy with rfl | rfl
    · exact exChain_place
    · exact {
        place := {
          build := by decide
          name := by decide
          exts := ⟨⟨b!"obj", by decide +kernel⟩, ⟨b!"h", by decide +kernel⟩, ⟨b!"pch", by decide +kernel⟩⟩ }
        below := fun _ => ⟨by decide, b!"_build", rfl⟩
        names := by decide +kernel }
  names := by decide +kernel
  brackets x hx := by
    obtain ⟨y, hy, rfl⟩ := List.mem_map.1 (List.mem_filter.1 hx).1
    simp only [List.mem_cons, List.not_mem_nil, or_false] at hy
    rcases hy with rfl | rfl <;> decide +kernel

/-- The edges of the graph, and the tests: those of `gcc` only. -/
example : exBoth.graph.ids = [b!"cpp_generator", b!"c_generator", b!"[gcc] cpptarget", b!"[gcc] ctarget",
      b!"[msvc] cpptarget", b!"[msvc] ctarget"] ∧ exBoth.graph.edges.length = 4 ∧
    exBoth.graph.tests = [b!"[gcc] cpptarget", b!"[gcc] ctarget"] := by
  decide +kernel

def exBothOrder (name : Str) : List Str :=
  if name ∈ [b!"[gcc] cpptarget", b!"[msvc] cpptarget"] then [b!"/r/_build/cpp_generator/main.cpp"]
  else [b!"/r/_build/c_generator/main.c"]

/-- The first build is killed when one generator and the target of `msvc` that uses it are done. -/
def exBothHistory : List Reg.WEvent :=
  [.edit b!"/r/python/gen.py" 1,
    .launch exBoth.graph (Reg.setupWith (multiTargets exBothRun.2 exBothOrder) (scriptGens exBothRun.1))] ++
  exChainGen b!"cpp_generator" b!"/r/_build/cpp_generator/main.cpp" 2 ++
  Reg.exTargetTasks b!"[msvc] cpptarget" b!"/r/_build/msvc/cpptarget/cpptarget.exe" 3 ++
  [.kill (fun _ => []) (fun _ => none),
    .launch exBoth.graph (Reg.setupWith (multiTargets exBothRun.2 exBothOrder) (scriptGens exBothRun.1)),
    .begin b!"cpp_generator", .task b!"cpp_generator" (.g .begin) [],
    .task b!"cpp_generator" (.g (.task b!"Generate")) [],
    .task b!"cpp_generator" (.g (.finish [b!"Generate"] true)) []] ++
  exChainGen b!"c_generator" b!"/r/_build/c_generator/main.c" 4 ++
  Reg.exTargetTasks b!"[gcc] cpptarget" b!"/r/_build/gcc/cpptarget/cpptarget" 5 ++
  [.begin b!"[msvc] cpptarget", .task b!"[msvc] cpptarget" (.t .objTask) [],
    .task b!"[msvc] cpptarget" (.t .linkTask) [], .task b!"[msvc] cpptarget" (.t (.finish true)) []] ++
  Reg.exTargetTasks b!"[gcc] ctarget" b!"/r/_build/gcc/ctarget/ctarget" 6 ++
  Reg.exTargetTasks b!"[msvc] ctarget" b!"/r/_build/msvc/ctarget/ctarget.exe" 7

theorem exBothHistory_script : Reg.AllOfScript exBoth.graph
    (Reg.setupWith (multiTargets exBothRun.2 exBothOrder) (scriptGens exBothRun.1))
    (Reg.World.init (Reg.kindsOf (multiTargets exBothRun.2 exBothOrder))) exBothHistory := by
  refine Reg.allOfScript_of _ ?_ (by decide +kernel)
  intro g' s' hm
  simp only [exBothHistory, exChainGen, Reg.exTargetTasks, List.mem_append,
    List.mem_cons, List.not_mem_nil, reduceCtorEq, false_or, or_false,
    Reg.WEvent.launch.injEq] at hm
  rcases hm with ⟨rfl, rfl⟩ | ⟨rfl, rfl⟩ <;> exact ⟨rfl, fun j _ => Reg.SameSetup.refl _⟩

/-- After the second build the programs of both toolchains are as built from scratch. -/
example : ∀ x ∈ exBothRun.2, ∀ f ∈ x.2,
    ∃ σ, (((Reg.World.init (Reg.kindsOf (multiTargets exBothRun.2 exBothOrder))).steps
      exBothHistory).step .join).comps (targetId x.1.tc.name f.made.name) = .target f.made.fixed σ ∧
    Clean f.made.fixed σ f.cfg := by
  have h := (C109_chaining exBoth_run exBoth_place fun _ => List.Perm.refl _).1
  have := C109_built exBoth_run (each_neat chaining_neat _) exBoth_place (fun _ => List.Perm.refl _) h
    exBothOrder (clean := false) rfl exBothHistory_script
    (by decide +kernel) (by decide +kernel) (by decide +kernel)
  exact this.2.2.1

/-- There are four of them. -/
example : exBothRun.2.map (fun x => (x.1.tc.name, x.2.map fun f => outputPath f.made.fixed)) =
    [(b!"gcc", [b!"/r/_build/gcc/cpptarget/cpptarget", b!"/r/_build/gcc/ctarget/ctarget"]),
     (b!"msvc", [b!"/r/_build/msvc/cpptarget/cpptarget.exe", b!"/r/_build/msvc/ctarget/ctarget.exe"])] := by
  decide +kernel

end Verif.Sample
