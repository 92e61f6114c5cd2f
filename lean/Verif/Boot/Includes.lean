import Verif.Boot.Inputs

/-! # What the bootstrap script passes to the compiler (C85) -/

namespace Verif.Boot
open Verif Verif.Schema Verif.Target Verif.Toolchain

/-! ## Specification -/

/-- The directories of `buildcc` from which its headers are included. -/
def includeRoots : List Str :=
  [[], b!"lib/env/include", b!"schema/include", b!"lib/toolchain/include", b!"lib/target/include",
   b!"lib/args/include", b!"toolchains/include", b!"targets/include", b!"plugins/include"]

/-- The same for the libraries in `third_party`. -/
def thirdRoots : List (Str × Str) :=
  [(b!"json", b!"include"), (b!"fmt", b!"include"), (b!"spdlog", b!"include"), (b!"CLI11", b!"include"),
   (b!"taskflow", [])]

/-- The flags for C++ files, for compilers that are called like GCC and for MSVC. -/
def cppFlags : ToolchainId → List Str
  | .gcc | .mingw => [b!"-std=c++17", b!"-Os", b!"-Wall", b!"-Wextra", b!"-Werror"]
  | .msvc => [b!"/std:c++17", b!"/Ot", b!"/W4", b!"/WX"]
  | _ => []

/-- The flags for the preprocessor: of all targets, and of the library. -/
def warningFlags : ToolchainId → List Str
  | .msvc => [b!"/D_CRT_SECURE_NO_WARNINGS"]
  | _ => []

def formatFlags : ToolchainId → List Str
  | .gcc => [b!"-DFMT_HEADER_ONLY=1", b!"-DSPDLOG_FMT_EXTERNAL"]
  | _ => []

def threadLibs : ToolchainId → List Str
  | .gcc => [b!"-lpthread"]
  | _ => []

/-! ## Proofs -/

theorem texts_strs (t : TargetSchema) :
    texts (entries .includeDirs t) = t.includeDirs ∧
    texts (entries .libDirs t) = t.libDirs ∧
    texts (entries .externalLibs t) = t.externalLibs ∧
    texts (entries .preprocessorFlags t) = t.preprocessorFlags ∧
    texts (entries .cppCompileFlags t) = t.cppCompileFlags ∧
    texts (entries .linkFlags t) = t.linkFlags := by
  simp [texts, entries, Function.comp_def]

theorem headerOnly_includes {list : Str → Option (List Str)} {root : Str} {tc : Toolchain} {dir : Str}
    {ops : List ApiOp} {c : TargetSchema} {d : Str}
    (h : headerOnly list root tc dir ops = some c) (hp : pure ops = true)
    (hd : ∀ e, ops.flatMap (added e .includeDirs) = [storedDir (Path.append e.root d)]) :
    c.includeDirs = [Path.toPathString (Path.append (third root dir) d)] := by
  have h1 := (C67_inputs h).2 .includeDirs (pure_copies hp _)
  rw [(C50_new tc.user).2 .includeDirs (by intro k; cases k <;> simp [FlagKind.option]), hd] at h1
  have h2 := congrArg texts h1
  rw [(texts_strs c).1] at h2
  rw [h2]
  rfl

/-- A list of a target after calls. -/
theorem filled {e : ApiEnv} {t c : TargetSchema} {ops : List ApiOp} (h : applyAll e t ops = some c)
    (hp : pure ops = true) (o : SyncOption) :
    texts (entries o c) = texts (entries o t) ++ texts (ops.flatMap (added e o)) := by
  rw [(C67_inputs h).2 o (pure_copies hp o), texts_append]

theorem pure_append {a b : List ApiOp} (ha : pure a = true) (hb : pure b = true) :
    pure (a ++ b) = true := by
  simp only [pure, List.all_append, Bool.and_eq_true] at *
  exact ⟨ha, hb⟩

theorem global_cpp (e : ApiEnv) (id : ToolchainId) :
    texts ((globalFlags id).flatMap (added e .cppCompileFlags)) = cppFlags id ∧
    texts ((globalFlags id).flatMap (added e .preprocessorFlags)) = warningFlags id := by
  cases id <;> simp [globalFlags, added, addsTo, FlagKind.option, texts, cppFlags, warningFlags]

theorem platform_cpp (e : ApiEnv) (id : ToolchainId) :
    texts ((platformOps id).flatMap (added e .externalLibs)) = threadLibs id ∧
    texts ((platformOps id).flatMap (added e .preprocessorFlags)) = formatFlags id ∧
    texts ((platformOps id).flatMap (added e .cppCompileFlags)) = [] := by
  cases id <;> simp [platformOps, added, addsTo, FlagKind.option, texts, threadLibs, formatFlags]

/-- What is passed to the compiler for `libtpl` and `libbuildcc`. -/
theorem package_includes {junk : Nat → TargetSchema} {p : Project} {env : TargetEnv}
    {list : Str → Option (List Str)} {tc : Toolchain} {t : Package}
    (h : buildBuildCC junk p env list tc = some t) :
    t.tpl.cfg.includeDirs = [Path.toPathString (Path.append (third env.rootDir b!"tiny-process-library") [])] ∧
    t.buildcc.cfg.includeDirs =
      (includeRoots.map fun d => Path.toPathString (Path.append (Path.append env.rootDir b!"buildcc") d)) ++
      (thirdRoots.map fun x => Path.toPathString (Path.append (third env.rootDir x.1) x.2)) ++
      t.tpl.cfg.includeDirs ∧
    t.tpl.cfg.cppCompileFlags = t.tpl.made.info.cppCompileFlags ++ cppFlags tc.id ∧
    t.buildcc.cfg.cppCompileFlags = t.buildcc.made.info.cppCompileFlags ++ cppFlags tc.id ∧
    t.tpl.cfg.preprocessorFlags = t.tpl.made.info.preprocessorFlags ++ warningFlags tc.id ∧
    t.buildcc.cfg.preprocessorFlags =
      t.buildcc.made.info.preprocessorFlags ++ warningFlags tc.id ++ formatFlags tc.id ∧
    t.tpl.cfg.externalLibs = [] ∧ t.buildcc.cfg.externalLibs = threadLibs tc.id := by
  obtain ⟨q⟩ := package_parts h
  have hg : pure (globalFlags tc.id) = true := by cases tc.id <;> rfl
  have hpl : pure (platformOps tc.id) = true := by cases tc.id <;> rfl
  have ft := filled q.tplOk (pure_append hg rfl)
  have fb := filled q.buildccOk (pure_append hg (pure_append rfl hpl))
  have nk : ∀ o : SyncOption, o ∈ [SyncOption.includeDirs, .externalLibs] → ∀ k : FlagKind, o ≠ k.option := by
    intro o ho k
    cases k <;> simp only [FlagKind.option] <;> rintro rfl <;> simp at ho
  have ts := fun c => texts_strs c
  have j := headerOnly_includes q.jsonOk rfl (d := b!"include") (fun e => by
      simp [jsonOps, added, addsTo])
  have f := headerOnly_includes q.fmtOk rfl (d := b!"include") (fun e => by
      simp [fmtOps, added, addsTo])
  have s := headerOnly_includes q.spdlogOk rfl (d := b!"include") (fun e => by
      simp [spdlogOps, added, addsTo])
  have c := headerOnly_includes q.cli11Ok rfl (d := b!"include") (fun e => by
      simp [cli11Ops, added, addsTo])
  have k := headerOnly_includes q.taskflowOk rfl (d := []) (fun e => by
      simp [taskflowOps, added, addsTo])
  have ti : t.tpl.cfg.includeDirs =
      [Path.toPathString (Path.append (third env.rootDir b!"tiny-process-library") [])] := by
    rw [← (ts _).1, ft, made_none q.tplMade _ (nk _ (by simp)), List.flatMap_append,
      globalFlags_added _ _ _ (by simp) (by simp)]
    simp [texts, tplOps, added, addsTo, storedDir]
  refine ⟨ti, ?_, ?_, ?_, ?_, ?_, ?_, ?_⟩
  · rw [← (ts t.buildcc.cfg).1, fb, made_none q.buildccMade _ (nk _ (by simp)), List.flatMap_append,
      globalFlags_added _ _ _ (by simp) (by simp), buildccOps, List.flatMap_append,
      List.flatMap_append, List.flatMap_append, platform_added _ _ _ (by simp) (by simp)]
    simp only [List.map_cons, List.map_nil, List.flatMap_cons, List.flatMap_nil, added_insert,
      List.nil_append, List.append_nil, texts_append]
    simp only [show List.count SyncOption.includeDirs [.includeDirs, .headers] = 1 from rfl,
      List.replicate_one, List.flatten_cons, List.flatten_nil, List.append_nil, texts_append, (ts _).1,
      j, f, s, c, k, ti]
    simp [texts, treeOps, added, addsTo, storedDir, includeRoots, thirdRoots]
  · rw [← (ts t.tpl.cfg).2.2.2.2.1, ft, List.flatMap_append, texts_append, (global_cpp _ _).1,
      (ts _).2.2.2.2.1]
    simp [texts, tplOps, added, addsTo]
  · rw [← (ts t.buildcc.cfg).2.2.2.2.1, fb, List.flatMap_append, texts_append, (global_cpp _ _).1,
      (ts _).2.2.2.2.1, buildccOps, List.flatMap_append, texts_append, (platform_cpp _ _).2.2]
    simp [texts, treeOps, added, addsTo]
  · rw [← (ts t.tpl.cfg).2.2.2.1, ft, List.flatMap_append, texts_append, (global_cpp _ _).2,
      (ts _).2.2.2.1]
    simp [texts, tplOps, added, addsTo]
  · rw [← (ts t.buildcc.cfg).2.2.2.1, fb, List.flatMap_append, texts_append, (global_cpp _ _).2,
      (ts _).2.2.2.1, buildccOps, List.flatMap_append, texts_append, (platform_cpp _ _).2.1]
    simp [texts, treeOps, added, addsTo]
  · rw [← (ts t.tpl.cfg).2.2.1, ft, made_none q.tplMade _ (nk _ (by simp)), List.flatMap_append,
      globalFlags_added _ _ _ (by simp) (by simp)]
    simp [texts, tplOps, added, addsTo]
  · rw [← (ts t.buildcc.cfg).2.2.1, fb, made_none q.buildccMade _ (nk _ (by simp)), List.flatMap_append,
      globalFlags_added _ _ _ (by simp) (by simp), buildccOps, List.flatMap_append, texts_append,
      texts_append, (platform_cpp _ _).1]
    simp [texts, treeOps, added, addsTo]

/-- C85: the include directories of the three targets, in order, the flags they add to those that
targets of the toolchain have anyway (C70), and the libraries of the system: the example gets all that
the library has. -/
theorem C85_includes {junk : Nat → TargetSchema} {p : Project} {list : Str → Option (List Str)}
    {tc : Toolchain} {t : Targets} (h : script junk p list tc = some t) :
    let tpl := t.tpl.cfg
    let lib := t.buildcc.cfg
    let ex := t.example_.cfg
    tpl.includeDirs = [Path.toPathString (Path.append (third p.rootDir b!"tiny-process-library") [])] ∧
    lib.includeDirs =
      (includeRoots.map fun d => Path.toPathString (Path.append (Path.append p.rootDir b!"buildcc") d)) ++
      (thirdRoots.map fun x => Path.toPathString (Path.append (third p.rootDir x.1) x.2)) ++
      tpl.includeDirs ∧
    ex.includeDirs = lib.includeDirs ∧
    tpl.cppCompileFlags = t.tpl.made.info.cppCompileFlags ++ cppFlags tc.id ∧
    lib.cppCompileFlags = t.buildcc.made.info.cppCompileFlags ++ cppFlags tc.id ∧
    ex.cppCompileFlags = t.example_.made.info.cppCompileFlags ++ lib.cppCompileFlags ∧
    tpl.preprocessorFlags = t.tpl.made.info.preprocessorFlags ++ warningFlags tc.id ∧
    lib.preprocessorFlags = t.buildcc.made.info.preprocessorFlags ++ warningFlags tc.id ++
      formatFlags tc.id ∧
    ex.preprocessorFlags = t.example_.made.info.preprocessorFlags ++ lib.preprocessorFlags ∧
    ex.linkFlags = t.example_.made.info.linkFlags ++ lib.linkFlags ∧
    tpl.externalLibs = [] ∧ lib.externalLibs = threadLibs tc.id ∧
    ex.externalLibs = threadLibs tc.id := by
  have q := script_parts h
  obtain ⟨h1, h2, h3, h4, h5, h6, h7, h8⟩ := package_includes q.package
  have fe := filled q.exampleOk rfl
  have ts := fun c => texts_strs c
  have nk : ∀ o : SyncOption, o ∈ [SyncOption.includeDirs, .externalLibs] → ∀ k : FlagKind, o ≠ k.option := by
    intro o ho k
    cases k <;> simp only [FlagKind.option] <;> rintro rfl <;> simp at ho
  have ex : ∀ o ∈ [SyncOption.preprocessorFlags, .cppCompileFlags, .linkFlags, .includeDirs, .externalLibs],
      texts (entries o t.example_.cfg) = texts (entries o t.example_.made.info) ++
        texts (entries o t.buildcc.cfg) := by
    intro o ho
    rw [fe o]
    congr 1
    simp only [exampleOps, List.flatMap_cons, List.flatMap_nil, added_insert]
    simp only [List.mem_cons, List.not_mem_nil, or_false] at ho
    rcases ho with rfl | rfl | rfl | rfl | rfl <;> simp [added, addsTo]
  refine ⟨h1, h2, ?_, h3, h4, ?_, h5, h6, ?_, ?_, h7, h8, ?_⟩
  · rw [← (ts _).1, ex _ (by simp), made_none q.exampleMade _ (nk _ (by simp)), (ts _).1]; rfl
  · have := ex .cppCompileFlags (by simp)
    simpa only [(ts _).2.2.2.2.1] using this
  · have := ex .preprocessorFlags (by simp)
    simpa only [(ts _).2.2.2.1] using this
  · have := ex .linkFlags (by simp)
    simpa only [(ts _).2.2.2.2.2] using this
  · rw [← (ts _).2.2.1, ex _ (by simp), made_none q.exampleMade _ (nk _ (by simp)), (ts _).2.2.1, ← h8]
    rfl

end Verif.Boot
