import Verif.Boot.Model
import Verif.Reg.ProjectProps

/-! # What the bootstrap script builds (C85) -/

namespace Verif.Boot
open Verif Verif.Schema Verif.Target Verif.Toolchain

/-! ## Specification -/

/-- The directories of `buildcc` with the sources of the library. -/
def sourceDirs : List Str :=
  [b!"lib/env/src", b!"schema/src", b!"lib/toolchain/src/api", b!"lib/toolchain/src/common",
   b!"lib/toolchain/src/toolchain", b!"lib/target/src/common", b!"lib/target/src/custom_generator",
   b!"lib/target/src/generator", b!"lib/target/src/api", b!"lib/target/src/target_info",
   b!"lib/target/src/target", b!"lib/target/src/target/friend", b!"lib/args/src",
   b!"toolchains/src", b!"plugins/src"]

/-- The directories of `buildcc` with the headers of the library. -/
def headerDirs : List Str :=
  [[], b!"lib/env/include/env", b!"schema/include/schema", b!"schema/include/schema/interface",
   b!"lib/toolchain/include/toolchain", b!"lib/toolchain/include/toolchain/api",
   b!"lib/toolchain/include/toolchain/common", b!"lib/target/include/target",
   b!"lib/target/include/target/api", b!"lib/target/include/target/common",
   b!"lib/target/include/target/friend", b!"lib/target/include/target/interface",
   b!"lib/args/include/args", b!"toolchains/include/toolchains", b!"targets/include/targets",
   b!"plugins/include/plugins"]

/-- The header-only libraries, in `third_party`, and their directories with headers. -/
def thirdParty : List (Str × List Str) :=
  [(b!"json",
     [b!"include/nlohmann", b!"include/nlohmann/thirdparty/hedley", b!"include/nlohmann/detail",
      b!"include/nlohmann/detail/conversions", b!"include/nlohmann/detail/input",
      b!"include/nlohmann/detail/iterators", b!"include/nlohmann/detail/meta",
      b!"include/nlohmann/detail/meta/call_std", b!"include/nlohmann/detail/output"]),
   (b!"fmt", [b!"include/fmt"]),
   (b!"spdlog",
     [b!"include/spdlog", b!"include/spdlog/cfg", b!"include/spdlog/details",
      b!"include/spdlog/fmt", b!"include/spdlog/sinks"]),
   (b!"CLI11", [b!"include/CLI"]),
   (b!"taskflow",
     [b!"taskflow", b!"taskflow/algorithm", b!"taskflow/core", b!"taskflow/cuda",
      b!"taskflow/cuda/algorithm", b!"taskflow/dsl", b!"taskflow/sycl",
      b!"taskflow/sycl/algorithm", b!"taskflow/utility"])]

/-- The files of a kind in these directories below `root`. -/
def filesOf (list : Str → Option (List Str)) (root : Str) (keep : Str → Bool) (dirs : List Str) :
    List Str :=
  dirs.flatMap fun d =>
    (((list (Path.append root d)).getD []).map (Path.append (Path.append root d))).filter keep
      |>.map Path.toPathString

/-- The directory of a library in `third_party`. -/
def third (root dir : Str) : Str := Path.append (Path.append root b!"third_party") dir

/-! ## Proofs -/

/-- The texts of entries. -/
def texts (l : List (PathInfo ⊕ Str)) : List Str := l.map (Sum.elim (·.path) id)

theorem texts_append (a b : List (PathInfo ⊕ Str)) : texts (a ++ b) = texts a ++ texts b := by
  simp [texts]

theorem texts_stored (l : List Str) : texts (l.map stored) = l.map Path.toPathString := by
  simp [texts, stored, Function.comp_def]

theorem texts_paths (t : TargetSchema) :
    texts (entries .sources t) = paths t.sources ∧ texts (entries .headers t) = paths t.headers ∧
    texts (entries .pchs t) = paths t.pchs ∧ texts (entries .libs t) = paths t.libs ∧
    texts (entries .compileDeps t) = paths t.compileDeps ∧
    texts (entries .linkDeps t) = paths t.linkDeps ∧
    texts (entries .externalLibs t) = t.externalLibs := by
  simp [texts, entries, paths, Function.comp_def]

theorem fill_some {list : Str → Option (List Str)} {m : Made} {ops : List ApiOp} {f : Filled}
    (h : fill list m ops = some f) : f.made = m ∧
      applyAll ⟨m.toolchain.config, m.rootDir, list⟩ m.info ops = some f.cfg := by
  rw [fill, Option.map_eq_some_iff] at h
  obtain ⟨c, h1, rfl⟩ := h
  exact ⟨rfl, h1⟩

/-- The parts of a package that came to its end. -/
structure PkgParts (junk : Nat → TargetSchema) (p : Project) (env : TargetEnv)
    (list : Str → Option (List Str)) (tc : Toolchain) (t : Package) where
  json : TargetSchema
  cli11 : TargetSchema
  fmt : TargetSchema
  spdlog : TargetSchema
  taskflow : TargetSchema
  tplMade : targetGeneric junk p b!"libtpl" .staticLibrary tc
    ⟨third env.rootDir b!"tiny-process-library", env.buildDir⟩ = some t.tpl.made
  buildccMade : targetGeneric junk p b!"libbuildcc" .staticLibrary tc
    ⟨Path.append env.rootDir b!"buildcc", env.buildDir⟩ = some t.buildcc.made
  jsonOk : headerOnly list env.rootDir tc b!"json" jsonOps = some json
  cli11Ok : headerOnly list env.rootDir tc b!"CLI11" cli11Ops = some cli11
  fmtOk : headerOnly list env.rootDir tc b!"fmt" fmtOps = some fmt
  spdlogOk : headerOnly list env.rootDir tc b!"spdlog" spdlogOps = some spdlog
  taskflowOk : headerOnly list env.rootDir tc b!"taskflow" taskflowOps = some taskflow
  tplOk : applyAll ⟨tc.config, third env.rootDir b!"tiny-process-library", list⟩ t.tpl.made.info
    (globalFlags tc.id ++ tplOps) = some t.tpl.cfg
  buildccOk : applyAll ⟨tc.config, Path.append env.rootDir b!"buildcc", list⟩ t.buildcc.made.info
    (globalFlags tc.id ++ buildccOps [json, fmt, spdlog, cli11, taskflow]
      (outputPath t.tpl.made.fixed) t.tpl.cfg tc.id) = some t.buildcc.cfg

theorem package_parts {junk : Nat → TargetSchema} {p : Project} {env : TargetEnv}
    {list : Str → Option (List Str)} {tc : Toolchain} {t : Package}
    (h : buildBuildCC junk p env list tc = some t) : Nonempty (PkgParts junk p env list tc t) := by
  simp only [buildBuildCC, Option.bind_eq_bind, Option.bind_eq_some_iff, Option.pure_def,
    Option.some.injEq] at h
  obtain ⟨m1, hm1, m2, hm2, json, h1, cli11, h2, fmt, h3, spdlog, h4, taskflow, h5,
    f1, hf1, f2, hf2, rfl⟩ := h
  obtain ⟨e1, g1⟩ := fill_some hf1
  obtain ⟨e2, g2⟩ := fill_some hf2
  rw [← (C70_same junk p _ tc _ gccExe).2.1] at hm1 hm2
  subst e1 e2
  obtain ⟨-, -, c1, r1, -⟩ := C70_made hm1
  obtain ⟨-, -, c2, r2, -⟩ := C70_made hm2
  rw [c1, r1] at g1
  rw [c2, r2] at g2
  exact ⟨⟨json, cli11, fmt, spdlog, taskflow, hm1, hm2, h1, h2, h3, h4, h5, g1, g2⟩⟩

/-- The parts of a script that came to its end. -/
structure Parts (junk : Nat → TargetSchema) (p : Project) (list : Str → Option (List Str))
    (tc : Toolchain) (t : Targets) : Prop where
  package : buildBuildCC junk p ⟨p.rootDir, p.buildDir⟩ list tc = some ⟨t.tpl, t.buildcc⟩
  exampleMade : targetGeneric junk p b!"buildcc_hybrid_simple_example" .executable tc
    ⟨Path.append p.rootDir b!"example/hybrid/simple", p.buildDir⟩ = some t.example_.made
  exampleOk : applyAll ⟨tc.config, Path.append p.rootDir b!"example/hybrid/simple", list⟩
    t.example_.made.info (exampleOps (outputPath t.buildcc.made.fixed) t.buildcc.cfg) =
      some t.example_.cfg

theorem script_parts {junk : Nat → TargetSchema} {p : Project} {list : Str → Option (List Str)}
    {tc : Toolchain} {t : Targets} (h : script junk p list tc = some t) :
    Parts junk p list tc t := by
  simp only [script, Option.bind_eq_bind, Option.bind_eq_some_iff, Option.pure_def,
    Option.some.injEq] at h
  obtain ⟨pkg, hp, m3, hm3, f3, hf3, rfl⟩ := h
  obtain ⟨e3, g3⟩ := fill_some hf3
  rw [← (C70_same junk p _ tc _ gccExe).1] at hm3
  subst e3
  obtain ⟨-, -, c3, r3, -⟩ := C70_made hm3
  rw [c3, r3] at g3
  exact ⟨hp, hm3, g3⟩

theorem noCopies_append {a b : List ApiOp} {o : SyncOption} (ha : ∀ op ∈ a, ¬ Copies o op)
    (hb : ∀ op ∈ b, ¬ Copies o op) : ∀ op ∈ a ++ b, ¬ Copies o op := by
  intro op h
  rcases List.mem_append.1 h with h | h
  · exact ha op h
  · exact hb op h

/-- A list of calls without `Copy`. -/
def pure (ops : List ApiOp) : Bool :=
  ops.all fun op => match op with | .copy _ _ => false | _ => true

theorem pure_copies {ops : List ApiOp} (h : pure ops = true) (o : SyncOption) :
    ∀ op ∈ ops, ¬ Copies o op := by
  intro op hop hc
  have := List.all_eq_true.1 h op hop
  cases op <;> simp_all [Copies]

/-- What a header-only library has. -/
theorem headerOnly_headers {list : Str → Option (List Str)} {root : Str} {tc : Toolchain} {dir : Str}
    {ops : List ApiOp} {c : TargetSchema} {dirs : List Str}
    (h : headerOnly list root tc dir ops = some c) (hp : pure ops = true)
    (hd : ∀ e, ops.flatMap (added e .headers) = dirs.flatMap fun d =>
      (filesIn e (Path.append e.root d) fun p => decide (IsHeader e.cfg p)).map stored) :
    paths c.headers = filesOf list (third root dir) (fun p => decide (IsHeader tc.config p)) dirs := by
  have h1 := (C67_inputs h).2 .headers (pure_copies hp _)
  rw [(C50_new tc.user).2 .headers (by intro k; cases k <;> simp [FlagKind.option]), hd] at h1
  have h2 := congrArg texts h1
  rw [(texts_paths c).2.1] at h2
  rw [h2]
  simp only [List.nil_append, filesOf, texts, List.map_flatMap, List.map_map]
  rfl

theorem PkgParts.third {junk : Nat → TargetSchema} {p : Project} {env : TargetEnv}
    {list : Str → Option (List Str)} {tc : Toolchain} {t : Package} (h : PkgParts junk p env list tc t) :
    paths h.json.headers ++ paths h.fmt.headers ++ paths h.spdlog.headers ++ paths h.cli11.headers ++
      paths h.taskflow.headers = thirdParty.flatMap fun x =>
        filesOf list (Boot.third env.rootDir x.1) (fun p => decide (IsHeader tc.config p)) x.2 := by
  rw [headerOnly_headers h.jsonOk rfl (dirs := (thirdParty[0]'(by decide)).2) (fun e => by
      simp [jsonOps, added, addsTo, thirdParty]),
    headerOnly_headers h.fmtOk rfl (dirs := (thirdParty[1]'(by decide)).2) (fun e => by
      simp [fmtOps, added, addsTo, thirdParty]),
    headerOnly_headers h.spdlogOk rfl (dirs := (thirdParty[2]'(by decide)).2) (fun e => by
      simp [spdlogOps, added, addsTo, thirdParty]),
    headerOnly_headers h.cli11Ok rfl (dirs := (thirdParty[3]'(by decide)).2) (fun e => by
      simp [cli11Ops, added, addsTo, thirdParty]),
    headerOnly_headers h.taskflowOk rfl (dirs := (thirdParty[4]'(by decide)).2) (fun e => by
      simp [taskflowOps, added, addsTo, thirdParty])]
  simp only [thirdParty, List.flatMap_cons, List.flatMap_nil, List.append_nil, List.append_assoc,
    List.getElem_cons_zero, List.getElem_cons_succ]

theorem globalFlags_added (e : ApiEnv) (id : ToolchainId) (o : SyncOption)
    (h1 : o ≠ .preprocessorFlags) (h2 : o ≠ .cppCompileFlags) :
    (globalFlags id).flatMap (added e o) = [] := by
  cases id <;> simp [globalFlags, added, addsTo, FlagKind.option, h1, h2, Ne.symm h1, Ne.symm h2]

theorem platform_added (e : ApiEnv) (id : ToolchainId) (o : SyncOption)
    (h1 : o ≠ .preprocessorFlags) (h2 : o ≠ .externalLibs) :
    (platformOps id).flatMap (added e o) = [] := by
  cases id <;> simp [platformOps, added, addsTo, FlagKind.option, h1, h2, Ne.symm h1, Ne.symm h2]

theorem filesOf_texts (e : ApiEnv) (keep : Str → Bool) (dirs : List Str) :
    texts (dirs.flatMap fun d => (filesIn e (Path.append e.root d) keep).map stored) =
      filesOf e.list e.root keep dirs := by
  simp only [filesOf, texts, List.map_flatMap, List.map_map]
  rfl

theorem tree_sources (e : ApiEnv) : texts (treeOps.flatMap (added e .sources)) =
    filesOf e.list e.root (fun p => decide (IsSource e.cfg p)) sourceDirs := by
  rw [← filesOf_texts]
  congr 1
  simp [treeOps, added, addsTo, sourceDirs]

theorem tree_headers (e : ApiEnv) : texts (treeOps.flatMap (added e .headers)) =
    filesOf e.list e.root (fun p => decide (IsHeader e.cfg p)) headerDirs := by
  rw [← filesOf_texts]
  congr 1
  simp [treeOps, added, addsTo, headerDirs]

theorem tree_other (e : ApiEnv) (o : SyncOption) (h1 : o ≠ .sources) (h2 : o ≠ .headers)
    (h3 : o ≠ .includeDirs) : treeOps.flatMap (added e o) = [] := by
  simp [treeOps, added, addsTo, Ne.symm h1, Ne.symm h2, Ne.symm h3]

theorem made_none {junk : Nat → TargetSchema} {p : Project} {name : Str} {type : TargetType}
    {tc : Toolchain} {env : TargetEnv} {m : Made} (h : targetGeneric junk p name type tc env = some m)
    (o : SyncOption) (ho : ∀ k : FlagKind, o ≠ k.option) : entries o m.info = [] := by
  obtain ⟨-, -, -, -, -, -, -, h⟩ := C70_made h
  exact h o ho

/-- The lists of files of `libtpl` and `libbuildcc`. -/
theorem package_inputs {junk : Nat → TargetSchema} {p : Project} {env : TargetEnv}
    {list : Str → Option (List Str)} {tc : Toolchain} {t : Package}
    (h : buildBuildCC junk p env list tc = some t) :
    let tpl := t.tpl.cfg
    let lib := t.buildcc.cfg
    let header := fun f => decide (IsHeader tc.config f)
    let tplDir := third env.rootDir b!"tiny-process-library"
    (paths tpl.sources = [Path.toPathString (Path.append (Path.append tplDir []) b!"process.cpp"),
        Path.toPathString (Path.append (Path.append tplDir []) b!"process_unix.cpp")] ∧
      paths tpl.headers = [Path.toPathString (Path.append (Path.append tplDir []) b!"process.hpp")] ∧
      paths tpl.libs = []) ∧
    (paths lib.sources = filesOf list (Path.append env.rootDir b!"buildcc")
        (fun f => decide (IsSource tc.config f)) sourceDirs ∧
      paths lib.headers = filesOf list (Path.append env.rootDir b!"buildcc") header headerDirs ++
        (thirdParty.flatMap fun x => filesOf list (third env.rootDir x.1) header x.2) ++
        paths tpl.headers ∧
      paths lib.libs = [Path.toPathString (outputPath t.tpl.made.fixed)]) ∧
    ∀ c, c = tpl ∨ c = lib →
      paths c.pchs = [] ∧ paths c.compileDeps = [] ∧ paths c.linkDeps = [] := by
  obtain ⟨q⟩ := package_parts h
  have nk : ∀ o : SyncOption, o ∈ [SyncOption.sources, .headers, .pchs, .libs, .compileDeps,
      .linkDeps] → ∀ k : FlagKind, o ≠ k.option := by
    intro o ho k
    cases k <;> simp only [FlagKind.option] <;> rintro rfl <;> simp at ho
  have hg : pure (globalFlags tc.id) = true := by cases tc.id <;> rfl
  have hpl : pure (platformOps tc.id) = true := by cases tc.id <;> rfl
  have e1 : ∀ o ∈ [SyncOption.sources, .headers, .pchs, .libs, .compileDeps, .linkDeps],
      entries o t.tpl.cfg = tplOps.flatMap (added ⟨tc.config, third env.rootDir
        b!"tiny-process-library", list⟩ o) := by
    intro o ho
    have h1 := (C67_inputs q.tplOk).2 o (noCopies_append (pure_copies hg o) (pure_copies rfl o))
    rw [made_none q.tplMade o (nk o ho), List.flatMap_append,
      globalFlags_added _ _ _ (by rintro rfl; simp at ho) (by rintro rfl; simp at ho)] at h1
    exact h1
  have e2 : ∀ o ∈ [SyncOption.sources, .headers, .pchs, .libs, .compileDeps, .linkDeps],
      entries o t.buildcc.cfg = treeOps.flatMap (added ⟨tc.config, Path.append env.rootDir b!"buildcc",
        list⟩ o) ++ ([q.json, q.fmt, q.spdlog, q.cli11, q.taskflow].map fun x =>
          ApiOp.insert x [.includeDirs, .headers]).flatMap (added ⟨tc.config, Path.append env.rootDir
            b!"buildcc", list⟩ o) ++ [ApiOp.addLib (outputPath t.tpl.made.fixed),
              .insert t.tpl.cfg [.includeDirs, .headers]].flatMap (added ⟨tc.config,
                Path.append env.rootDir b!"buildcc", list⟩ o) := by
    intro o ho
    have h1 := (C67_inputs q.buildccOk).2 o (noCopies_append (pure_copies hg o)
      (noCopies_append (pure_copies rfl o) (pure_copies hpl o)))
    rw [made_none q.buildccMade o (nk o ho), List.flatMap_append,
      globalFlags_added _ _ _ (by rintro rfl; simp at ho) (by rintro rfl; simp at ho),
      buildccOps, List.flatMap_append, List.flatMap_append, List.flatMap_append,
      platform_added _ _ _ (by rintro rfl; simp at ho) (by rintro rfl; simp at ho)] at h1
    simpa using h1
  have tp := fun c => texts_paths c
  refine ⟨⟨?_, ?_, ?_⟩, ⟨?_, ?_, ?_⟩, ?_⟩
  · rw [← (tp _).1, e1 _ (by simp)]
    simp [tplOps, added, addsTo, texts, stored]
  · rw [← (tp _).2.1, e1 _ (by simp)]
    simp [tplOps, added, addsTo, texts, stored]
  · rw [← (tp _).2.2.2.1, e1 _ (by simp)]
    simp [tplOps, added, addsTo, texts]
  · rw [← (tp _).1, e2 _ (by simp), texts_append, texts_append, tree_sources]
    simp [added, addsTo, texts]
  · rw [← (tp _).2.1, e2 _ (by simp), texts_append, texts_append, tree_headers]
    rw [← q.third, ← (tp t.tpl.cfg).2.1]
    simp only [List.map_cons, List.map_nil, List.flatMap_cons, List.flatMap_nil, added_insert]
    simp [added, addsTo, ← (tp _).2.1, texts]
  · rw [← (tp _).2.2.2.1, e2 _ (by simp), tree_other _ _ (by simp) (by simp) (by simp)]
    simp [added, addsTo, texts, stored]
  · intro c hc
    have key : ∀ o ∈ [SyncOption.pchs, .compileDeps, .linkDeps], entries o c = [] := by
      intro o ho
      have ho' : o ∈ [SyncOption.sources, .headers, .pchs, .libs, .compileDeps, .linkDeps] := by
        simp only [List.mem_cons, List.not_mem_nil, or_false] at ho
        rcases ho with rfl | rfl | rfl <;> simp
      have hn : ∀ x, x ∈ [SyncOption.sources, .headers, .includeDirs, .libs] → x ≠ o := by
        simp only [List.mem_cons, List.not_mem_nil, or_false] at ho
        rcases ho with rfl | rfl | rfl <;> decide
      have n1 := hn .sources (by simp)
      have n2 := hn .headers (by simp)
      have n3 := hn .includeDirs (by simp)
      have n4 := hn .libs (by simp)
      rcases hc with rfl | rfl
      · rw [e1 o ho']
        simp [tplOps, added, addsTo, n1, n2, n3]
      · rw [e2 o ho', tree_other _ _ (Ne.symm n1) (Ne.symm n2) (Ne.symm n3)]
        simp [added, addsTo, n2, n3, n4]
    rw [← (tp c).2.2.1, ← (tp c).2.2.2.2.1, ← (tp c).2.2.2.2.2.1, key _ (by simp), key _ (by simp),
      key _ (by simp)]
    exact ⟨rfl, rfl, rfl⟩

/-- The lists of files of the three targets.  The sources of `libbuildcc` are the files of
`sourceDirs`, its headers those of `headerDirs` and of the header-only libraries; it is given
`libtpl`, and the example is given both libraries. -/
theorem C85_inputs {junk : Nat → TargetSchema} {p : Project} {list : Str → Option (List Str)}
    {tc : Toolchain} {t : Targets} (h : script junk p list tc = some t) :
    let tpl := t.tpl.cfg
    let lib := t.buildcc.cfg
    let ex := t.example_.cfg
    let header := fun f => decide (IsHeader tc.config f)
    let tplDir := third p.rootDir b!"tiny-process-library"
    let tplOut := Path.toPathString (outputPath t.tpl.made.fixed)
    let exDir := Path.append p.rootDir b!"example/hybrid/simple"
    (paths tpl.sources = [Path.toPathString (Path.append (Path.append tplDir []) b!"process.cpp"),
        Path.toPathString (Path.append (Path.append tplDir []) b!"process_unix.cpp")] ∧
      paths tpl.headers = [Path.toPathString (Path.append (Path.append tplDir []) b!"process.hpp")] ∧
      paths tpl.libs = []) ∧
    (paths lib.sources = filesOf list (Path.append p.rootDir b!"buildcc")
        (fun f => decide (IsSource tc.config f)) sourceDirs ∧
      paths lib.headers = filesOf list (Path.append p.rootDir b!"buildcc") header headerDirs ++
        (thirdParty.flatMap fun x => filesOf list (third p.rootDir x.1) header x.2) ++
        paths tpl.headers ∧
      paths lib.libs = [tplOut]) ∧
    (paths ex.sources = [Path.toPathString (Path.append (Path.append exDir []) b!"build.cpp")] ∧
      paths ex.headers = paths lib.headers ∧
      paths ex.libs = [Path.toPathString (outputPath t.buildcc.made.fixed), tplOut]) ∧
    ∀ c, c = tpl ∨ c = lib ∨ c = ex →
      paths c.pchs = [] ∧ paths c.compileDeps = [] ∧ paths c.linkDeps = [] := by
  have q := script_parts h
  obtain ⟨hp1, hp2, hp3⟩ := package_inputs q.package
  have nk : ∀ o : SyncOption, o ∈ [SyncOption.sources, .headers, .pchs, .libs, .compileDeps,
      .linkDeps] → ∀ k : FlagKind, o ≠ k.option := by
    intro o ho k
    cases k <;> simp only [FlagKind.option] <;> rintro rfl <;> simp at ho
  have e3 : ∀ o ∈ [SyncOption.sources, .headers, .pchs, .libs, .compileDeps, .linkDeps],
      entries o t.example_.cfg = (exampleOps (outputPath t.buildcc.made.fixed)
        t.buildcc.cfg).flatMap (added ⟨tc.config, Path.append p.rootDir b!"example/hybrid/simple",
          list⟩ o) := by
    intro o ho
    have h1 := (C67_inputs q.exampleOk).2 o (pure_copies rfl o)
    rw [made_none q.exampleMade o (nk o ho)] at h1
    exact h1
  have tp := fun c => texts_paths c
  refine ⟨hp1, hp2, ⟨?_, ?_, ?_⟩, ?_⟩
  · rw [← (tp _).1, e3 _ (by simp)]
    simp [exampleOps, added, addsTo, texts, stored]
  · rw [← (tp _).2.1, e3 _ (by simp), ← (tp t.buildcc.cfg).2.1]
    simp [exampleOps, added, addsTo]
  · have hl : texts (entries .libs t.buildcc.cfg) =
        [Path.toPathString (outputPath t.tpl.made.fixed)] := by
      rw [(tp _).2.2.2.1]; exact hp2.2.2
    rw [← (tp _).2.2.2.1, e3 _ (by simp)]
    simp only [exampleOps, List.flatMap_cons, List.flatMap_nil, added_insert]
    rw [texts_append, texts_append]
    simp only [added, addsTo, stored]
    simpa [texts] using hl
  · intro c hc
    rcases hc with rfl | rfl | rfl
    · exact hp3 _ (.inl rfl)
    · exact hp3 _ (.inr rfl)
    · have key : ∀ o ∈ [SyncOption.pchs, .compileDeps, .linkDeps], entries o t.example_.cfg = [] := by
        intro o ho
        have ho' : o ∈ [SyncOption.sources, .headers, .pchs, .libs, .compileDeps, .linkDeps] := by
          simp only [List.mem_cons, List.not_mem_nil, or_false] at ho
          rcases ho with rfl | rfl | rfl <;> simp
        rw [e3 o ho']
        simp only [List.mem_cons, List.not_mem_nil, or_false] at ho
        rcases ho with rfl | rfl | rfl <;> simp [exampleOps, added, addsTo]
      rw [← (tp _).2.2.1, ← (tp _).2.2.2.2.1, ← (tp _).2.2.2.2.2.1, key _ (by simp), key _ (by simp),
        key _ (by simp)]
      exact ⟨rfl, rfl, rfl⟩

end Verif.Boot
