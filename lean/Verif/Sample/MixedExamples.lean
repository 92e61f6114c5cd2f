import Verif.Sample.MixedBuilt
import Verif.Sample.HybridProps
import Verif.Reg.MixedExamples

/-! # The script in `example/hybrid/dep_chaining` (C108) -/

namespace Verif.Sample
open Verif Verif.Schema Verif.Target Verif.Toolchain Verif.Path
open Verif.Boot (Filled fill_some texts texts_append texts_paths made_none)

/-- `example/hybrid/dep_chaining/build.cpp:31-52`, `79-115`. -/
def chaining : MText :=
  ⟨[⟨b!"cpp_generator", b!"", depChaining b!"cpp"⟩, ⟨b!"c_generator", b!"", depChaining b!"c"⟩], [],
    [⟨b!"cpptarget", .executable, b!"", [.genSource 0 b!"main_cpp"]⟩,
     ⟨b!"ctarget", .executable, b!"", [.genSource 1 b!"main_c"]⟩], [], [(0, 0), (1, 1)], [0, 1]⟩

theorem chaining_neat : NeatMixed chaining := by decide +kernel

/-- The generators of the script have no inputs. -/
theorem chaining_inputs {p : Project} {ord : List Str → List Str} {gs : List GenMade}
    (hg : runGens p ord chaining.gens = some gs) (hord : ∀ l, (ord l).Perm l) :
    ∀ g ∈ gs, ∀ x ∈ g.cfg, ∀ q ∈ x.2.inputs, ¬ Inside p.buildDir q := by
  intro g hm x hx q hq
  obtain ⟨i, hi⟩ := List.getElem?_of_mem hm
  have hl : gs.length = chaining.gens.length := by
    have := congrArg List.length (runGens_spec hg).1
    simpa using this
  have hlt : i < chaining.gens.length := by rw [← hl]; exact (List.getElem?_eq_some_iff.1 hi).1
  obtain ⟨-, fg, h1, h2, -⟩ := (runGens_spec hg).2 i _ g (List.getElem?_eq_getElem hlt) hi
  have : ∃ lang, (chaining.gens[i]'hlt).ops = depChaining lang := by
    match i, hlt with
    | 0, _ => exact ⟨_, rfl⟩
    | 1, _ => exact ⟨_, rfl⟩
  obtain ⟨lang, hl⟩ := this
  rw [hl] at h1
  obtain ⟨o, blob, he⟩ := C107_generated_false h1 (hord _) (hord _) h2
  rw [he, List.mem_singleton] at hx
  subst hx
  simp at hq

/-- C108: the script `example/hybrid/dep_chaining` keeps to the rules, wherever it runs: each target has
one source, which is the file that its generator makes, and nothing else is given. -/
theorem C108_chaining {junk : Nat → TargetSchema} {p : Project} {list : Str → Option (List Str)}
    {ord : List Str → List Str} {tc : Toolchain} {gs : List GenMade} {fs : List Filled}
    (h : chaining.run junk p list ord tc = some (gs, fs)) (hp : MixedPlace p tc chaining)
    (hord : ∀ l, (ord l).Perm l) :
    NeatMixed chaining ∧ Outside p chaining gs fs ∧
    ∃ cpp c, fs = [cpp, c] ∧
      paths cpp.cfg.sources = [p.buildDir ++ b!"/cpp_generator/main.cpp"] ∧
      paths c.cfg.sources = [p.buildDir ++ b!"/c_generator/main.c"] := by
  obtain ⟨hg, ds, hd, hrun⟩ := run_parts h
  have hn := chaining_neat
  have hroot := (hp.below (by simp [chaining])).1
  have hneat := plain_neat hn hp hg hd
  have hf0 : chaining.fileAt p 0 b!"main_cpp" = p.buildDir ++ b!"/cpp_generator/main.cpp" := by
    have e1 : chaining.genAt 0 = b!"cpp_generator" := by decide +kernel
    have e2 : localName (chaining.patternAt 0 b!"main_cpp") = b!"main.cpp" := by decide +kernel
    rw [MText.fileAt, e1, e2]
    simp
  have hf1 : chaining.fileAt p 1 b!"main_c" = p.buildDir ++ b!"/c_generator/main.c" := by
    have e1 : chaining.genAt 1 = b!"c_generator" := by decide +kernel
    have e2 : localName (chaining.patternAt 1 b!"main_c") = b!"main.c" := by decide +kernel
    rw [MText.fileAt, e1, e2]
    simp
  obtain ⟨s0, hs0, hd0⟩ := (plainDecls_spec hd).2 0 _ rfl
  obtain ⟨s1, hs1, hd1⟩ := (plainDecls_spec hd).2 1 _ rfl
  have hlen : ds.length = 2 := (plainDecls_spec hd).1
  obtain ⟨y0, hy0, he0⟩ := (plainSteps_mem hs0).1 (.genSource 0 b!"main_cpp") (by simp)
  obtain ⟨y1, hy1, he1⟩ := (plainSteps_mem hs1).1 (.genSource 1 b!"main_c") (by simp)
  obtain ⟨r0, rfl, -, p0, q0, t0⟩ := source_plain hn hp hg (k := 0) rfl (by simp) he0
  obtain ⟨r1, rfl, -, p1, q1, t1⟩ := source_plain hn hp hg (k := 1) rfl (by simp) he1
  have l0 : s0 = [.call (.addSource r0 [])] := by
    simp only [plainSteps, he0, Option.map_some, Option.some.injEq] at hs0
    exact hs0.symm
  have l1 : s1 = [.call (.addSource r1 [])] := by
    simp only [plainSteps, he1, Option.map_some, Option.some.injEq] at hs1
    exact hs1.symm
  subst l0 l1
  have hds : ds = [⟨b!"cpptarget", .executable, b!"", [.call (.addSource r0 [])]⟩,
      ⟨b!"ctarget", .executable, b!"", [.call (.addSource r1 [])]⟩] := by
    match ds, hlen with
    | [a, b], _ =>
      simp only [List.getElem?_cons_zero, Option.some.injEq] at hd0
      simp only [List.getElem?_cons_succ, List.getElem?_cons_zero, Option.some.injEq] at hd1
      rw [hd0, hd1]
  subst hds
  obtain ⟨cpp, c, rfl, e1, e2⟩ := run_two hrun
  have nk : ∀ o ∈ [SyncOption.sources, .headers, .pchs, .compileDeps, .linkDeps],
      ∀ k : FlagKind, o ≠ k.option := by
    intro o ho k; cases k <;> simp only [FlagKind.option] <;> rintro rfl <;> simp at ho
  have e1' := fun o => e1 o (by simp [Step.op, Copies])
  have e2' := fun o => e2 o (by simp [Step.op, Copies])
  have none : ∀ {l : List PathInfo}, l.map (Sum.inl (β := Str)) = [] → l = [] := by simp
  have m0 := source_added hrun hneat (k := 0) rfl rfl rfl q0 hroot (by rw [← p0]; exact t0.2.1) (by simp)
  have m1 := source_added hrun hneat (k := 1) rfl rfl rfl q1 hroot (by rw [← p1]; exact t1.2.1) (by simp)
  have one : ∀ {a b : Str} {l : List Str}, l = [a] → b ∈ l → l = [b] := by
    rintro a b l rfl hb; rw [List.mem_singleton.1 hb]
  have c0 : paths cpp.cfg.sources = [p.rootDir ++ b!"/" ++ r0] := by
    refine one (a := toPathString (append (append (append p.rootDir []) []) r0)) ?_ m0
    rw [← (texts_paths _).1, e1' _ (nk _ (by simp))]
    simp [Step.op, added, addsTo, texts, stored]
  have c1 : paths c.cfg.sources = [p.rootDir ++ b!"/" ++ r1] := by
    refine one (a := toPathString (append (append (append p.rootDir []) []) r1)) ?_ m1
    rw [← (texts_paths _).1, e2' _ (nk _ (by simp))]
    simp [Step.op, added, addsTo, texts, stored]
  rw [← p0, hf0] at c0
  rw [← p1, hf1] at c1
  refine ⟨hn, ⟨?_, ?_⟩, cpp, c, rfl, c0, c1⟩
  · exact chaining_inputs hg hord
  · intro k f hk q hq _
    match k with
    | 0 =>
      obtain rfl : cpp = f := Option.some.inj hk
      have : Reg.given cpp.cfg = [p.buildDir ++ b!"/cpp_generator/main.cpp"] := by
        rw [Reg.given, c0, none ((e1' .headers (nk _ (by simp))).trans (by simp [Step.op, added, addsTo])),
          none ((e1' .pchs (nk _ (by simp))).trans (by simp [Step.op, added, addsTo])),
          none ((e1' .compileDeps (nk _ (by simp))).trans (by simp [Step.op, added, addsTo])),
          none ((e1' .linkDeps (nk _ (by simp))).trans (by simp [Step.op, added, addsTo]))]
        rfl
      rw [this, ← hf0] at hq
      rw [List.mem_singleton.1 hq]
      exact List.mem_filterMap.2 ⟨.genSource 0 b!"main_cpp", by simp [chaining], rfl⟩
    | 1 =>
      obtain rfl : c = f := Option.some.inj hk
      have : Reg.given c.cfg = [p.buildDir ++ b!"/c_generator/main.c"] := by
        rw [Reg.given, c1, none ((e2' .headers (nk _ (by simp))).trans (by simp [Step.op, added, addsTo])),
          none ((e2' .pchs (nk _ (by simp))).trans (by simp [Step.op, added, addsTo])),
          none ((e2' .compileDeps (nk _ (by simp))).trans (by simp [Step.op, added, addsTo])),
          none ((e2' .linkDeps (nk _ (by simp))).trans (by simp [Step.op, added, addsTo]))]
        rfl
      rw [this, ← hf1] at hq
      rw [List.mem_singleton.1 hq]
      exact List.mem_filterMap.2 ⟨.genSource 1 b!"main_c", by simp [chaining], rfl⟩
    | k + 2 => simp at hk

/-- A generator with inputs, whose output a library and a program both compile. -/
example : NeatMixed ⟨[⟨b!"codegen", b!"tools", [.addPattern b!"v" b!"{current_build_dir}/v.cpp",
      .addInput b!"{current_root_dir}/gen.py", .addOutput b!"{v}", .addOutput b!"{current_build_dir}/v.log",
      .addCommand b!"python3 {current_root_dir}/gen.py {v}" []]⟩], [],
    [⟨b!"lib", .staticLibrary, b!"", [.genSource 0 b!"v"]⟩,
     ⟨b!"app", .executable, b!"", [.step (.call (.addSource b!"main.cpp" b!"")), .genSource 0 b!"v",
       .step (.libDep 0)]⟩], [(1, 0)], [(0, 0), (1, 0)], [1]⟩ := by
  decide +kernel

/-! ## An example -/

/-- `example/hybrid/dep_chaining` in a checkout. -/
def exChain : Project := ⟨true, b!"/r", b!"/r/_build"⟩

def exChained : List GenMade × List Filled :=
  (chaining.run (fun _ => TargetSchema.empty) exChain (fun _ => none) id exGcc).getD ([], [])

theorem exChained_run : chaining.run (fun _ => TargetSchema.empty) exChain (fun _ => none) id exGcc =
    some (exChained.1, exChained.2) := by
  have : (chaining.run (fun _ => TargetSchema.empty) exChain (fun _ => none) id exGcc).isSome = true := by
    decide +kernel
  obtain ⟨x, hx⟩ := Option.isSome_iff_exists.1 this
  rw [exChained, hx, Option.getD_some]

theorem exChain_place : MixedPlace exChain exGcc chaining where
  place := {
    build := by decide
    name := by decide
    exts := ⟨⟨b!"o", by decide +kernel⟩, ⟨b!"h", by decide +kernel⟩, ⟨b!"gch", by decide +kernel⟩⟩ }
  below := fun _ => ⟨by decide, b!"_build", rfl⟩
  names := by decide +kernel

example : exChained.1.map (fun g => (g.name, g.commands)) =
    [(b!"cpp_generator",
      [b!"python3 /r//python/gen.py --source_type cpp --destination /r/_build/cpp_generator/main.cpp"]),
     (b!"c_generator",
      [b!"python3 /r//python/gen.py --source_type c --destination /r/_build/c_generator/main.c"])] ∧
    exChained.2.map (fun f => paths f.cfg.sources) =
    [[b!"/r/_build/cpp_generator/main.cpp"], [b!"/r/_build/c_generator/main.c"]] := by
  decide +kernel

def exChainOrder (name : Str) : List Str :=
  if name = b!"cpptarget" then [b!"/r/_build/cpp_generator/main.cpp"] else [b!"/r/_build/c_generator/main.c"]

/-- The tasks of a generator that makes `out`. -/
def exChainGen (name out : Str) (t : Nat) : List Reg.WEvent :=
  [.begin name, .task name (.g .begin) [], .task name (.g (.task b!"Generate")) [],
    .task name (.g (.call b!"Generate" true)) [(out, some t)],
    .task name (.g (.finish [b!"Generate"] true)) []]

/-- The first build is killed when one generator is done.  The second one goes on from there. -/
def exChainHistory : List Reg.WEvent :=
  [.edit b!"/r/python/gen.py" 1,
    .launch (chaining.graph exGcc true) (Reg.setupWith (scriptTargets exChained.2 exChainOrder)
      (scriptGens exChained.1))] ++
  exChainGen b!"cpp_generator" b!"/r/_build/cpp_generator/main.cpp" 2 ++
  [.kill (fun _ => []) (fun _ => none),
    .launch (chaining.graph exGcc true) (Reg.setupWith (scriptTargets exChained.2 exChainOrder)
      (scriptGens exChained.1)),
    .begin b!"cpp_generator", .task b!"cpp_generator" (.g .begin) [],
    .task b!"cpp_generator" (.g (.task b!"Generate")) [],
    .task b!"cpp_generator" (.g (.finish [b!"Generate"] true)) []] ++
  exChainGen b!"c_generator" b!"/r/_build/c_generator/main.c" 3 ++
  Reg.exTargetTasks b!"[gcc] cpptarget" b!"/r/_build/gcc/cpptarget/cpptarget" 4 ++
  Reg.exTargetTasks b!"[gcc] ctarget" b!"/r/_build/gcc/ctarget/ctarget" 5

theorem exChainHistory_script : Reg.AllOfScript (chaining.graph exGcc true)
    (Reg.setupWith (scriptTargets exChained.2 exChainOrder) (scriptGens exChained.1))
    (Reg.World.init (Reg.kindsOf (scriptTargets exChained.2 exChainOrder))) exChainHistory := by
  refine Reg.allOfScript_of _ ?_ (by decide +kernel)
  intro g' s' hm
  simp only [exChainHistory, exChainGen, Reg.exTargetTasks, List.mem_append,
    List.mem_cons, List.not_mem_nil, reduceCtorEq, false_or, or_false,
    Reg.WEvent.launch.injEq] at hm
  rcases hm with ⟨rfl, rfl⟩ | ⟨rfl, rfl⟩ <;> exact ⟨rfl, fun j _ => Reg.SameSetup.refl _⟩

/-- After the second build both programs are as built from scratch. -/
example : ∀ f ∈ exChained.2, ∃ σ, (((Reg.World.init (Reg.kindsOf (scriptTargets exChained.2 exChainOrder))).steps
      exChainHistory).step .join).comps (targetId exGcc.name f.made.name) = .target f.made.fixed σ ∧
    Clean f.made.fixed σ f.cfg := by
  have h := (C108_chaining exChained_run exChain_place fun _ => List.Perm.refl _).2.1
  have := C108_built exChained_run chaining_neat exChain_place (fun _ => List.Perm.refl _) h exChainOrder
    (clean := false) (c := ⟨true, true⟩) rfl rfl exChainHistory_script
    (by decide +kernel) (by decide +kernel) (by decide +kernel)
  exact this.2.1

end Verif.Sample
