import Verif.Target.Special
import Verif.Reg.Graph

/-!
# Model of the bootstrap script

The program that builds the library `libbuildcc`, and an example that is linked with it, with
`libbuildcc` itself (`bootstrap/`).  Linux: the branches for Windows are left out.  `list` lists
directories.  `none` is the end of the program by a fatal error or an exception.
-/

namespace Verif.Boot
open Verif Verif.Schema Verif.Target Verif.Toolchain

/-! ## The header-only libraries -/

/-- `nlohmann_json_ho_cb` (`build_nlohmann_json.cpp:21-32`). -/
def jsonOps : List ApiOp :=
  [.addIncludeDir b!"include" false,
   .globHeaders b!"include/nlohmann",
   .globHeaders b!"include/nlohmann/thirdparty/hedley",
   .globHeaders b!"include/nlohmann/detail",
   .globHeaders b!"include/nlohmann/detail/conversions",
   .globHeaders b!"include/nlohmann/detail/input",
   .globHeaders b!"include/nlohmann/detail/iterators",
   .globHeaders b!"include/nlohmann/detail/meta",
   .globHeaders b!"include/nlohmann/detail/meta/call_std",
   .globHeaders b!"include/nlohmann/detail/output"]

/-- `cli11_ho_cb` (`build_cli11.cpp:21-24`). -/
def cli11Ops : List ApiOp := [.addIncludeDir b!"include" false, .globHeaders b!"include/CLI"]

/-- `fmt_ho_cb` (`build_fmtlib.cpp:21-24`). -/
def fmtOps : List ApiOp := [.addIncludeDir b!"include" false, .globHeaders b!"include/fmt"]

/-- `spdlog_ho_cb` (`build_spdlog.cpp:21-28`). -/
def spdlogOps : List ApiOp :=
  [.addIncludeDir b!"include" false,
   .globHeaders b!"include/spdlog",
   .globHeaders b!"include/spdlog/cfg",
   .globHeaders b!"include/spdlog/details",
   .globHeaders b!"include/spdlog/fmt",
   .globHeaders b!"include/spdlog/sinks"]

/-- `taskflow_ho_cb` (`build_taskflow.cpp:21-32`). -/
def taskflowOps : List ApiOp :=
  [.addIncludeDir [] false,
   .globHeaders b!"taskflow",
   .globHeaders b!"taskflow/algorithm",
   .globHeaders b!"taskflow/core",
   .globHeaders b!"taskflow/cuda",
   .globHeaders b!"taskflow/cuda/algorithm",
   .globHeaders b!"taskflow/dsl",
   .globHeaders b!"taskflow/sycl",
   .globHeaders b!"taskflow/sycl/algorithm",
   .globHeaders b!"taskflow/utility"]

/-- `TargetInfo(toolchain, TargetEnv(root / "third_party" / dir, build))`
(`build_buildcc.cpp:172-199`) filled by its callback. -/
def headerOnly (list : Str → Option (List Str)) (root : Str) (tc : Toolchain) (dir : Str)
    (ops : List ApiOp) : Option TargetSchema :=
  applyAll ⟨tc.config, Path.append (Path.append root b!"third_party") dir, list⟩
    (newTargetInfo tc.user) ops

/-! ## The libraries -/

/-- `global_flags_cb` (`build_buildcc.cpp:147-168`). -/
def globalFlags : ToolchainId → List ApiOp
  | .gcc | .mingw =>
    [.addFlag .cppCompile b!"-std=c++17", .addFlag .cppCompile b!"-Os",
     .addFlag .cppCompile b!"-Wall", .addFlag .cppCompile b!"-Wextra",
     .addFlag .cppCompile b!"-Werror"]
  | .msvc =>
    [.addFlag .preprocessor b!"/D_CRT_SECURE_NO_WARNINGS", .addFlag .cppCompile b!"/std:c++17",
     .addFlag .cppCompile b!"/Ot", .addFlag .cppCompile b!"/W4", .addFlag .cppCompile b!"/WX"]
  | _ => []

/-- `tpl_cb` (`build_tpl.cpp:21-35`). -/
def tplOps : List ApiOp :=
  [.addSource b!"process.cpp" [], .addIncludeDir [] false, .addHeader b!"process.hpp" [],
   .addSource b!"process_unix.cpp" []]

/-- The directories of buildcc (`build_buildcc.cpp:25-81`). -/
def treeOps : List ApiOp :=
  [.addIncludeDir [] true,
   .globSources b!"lib/env/src",
   .addIncludeDir b!"lib/env/include" false,
   .globHeaders b!"lib/env/include/env",
   .globSources b!"schema/src",
   .addIncludeDir b!"schema/include" false,
   .globHeaders b!"schema/include/schema",
   .globHeaders b!"schema/include/schema/interface",
   .globSources b!"lib/toolchain/src/api",
   .globSources b!"lib/toolchain/src/common",
   .globSources b!"lib/toolchain/src/toolchain",
   .addIncludeDir b!"lib/toolchain/include" false,
   .globHeaders b!"lib/toolchain/include/toolchain",
   .globHeaders b!"lib/toolchain/include/toolchain/api",
   .globHeaders b!"lib/toolchain/include/toolchain/common",
   .globSources b!"lib/target/src/common",
   .globSources b!"lib/target/src/custom_generator",
   .globSources b!"lib/target/src/generator",
   .globSources b!"lib/target/src/api",
   .globSources b!"lib/target/src/target_info",
   .globSources b!"lib/target/src/target",
   .globSources b!"lib/target/src/target/friend",
   .addIncludeDir b!"lib/target/include" false,
   .globHeaders b!"lib/target/include/target",
   .globHeaders b!"lib/target/include/target/api",
   .globHeaders b!"lib/target/include/target/common",
   .globHeaders b!"lib/target/include/target/friend",
   .globHeaders b!"lib/target/include/target/interface",
   .globSources b!"lib/args/src",
   .addIncludeDir b!"lib/args/include" false,
   .globHeaders b!"lib/args/include/args",
   .globSources b!"toolchains/src",
   .addIncludeDir b!"toolchains/include" false,
   .globHeaders b!"toolchains/include/toolchains",
   .addIncludeDir b!"targets/include" false,
   .globHeaders b!"targets/include/targets",
   .globSources b!"plugins/src",
   .addIncludeDir b!"plugins/include" false,
   .globHeaders b!"plugins/include/plugins"]

/-- The flags for the platform (`build_buildcc.cpp:127-138`). -/
def platformOps : ToolchainId → List ApiOp
  | .gcc =>
    [.addFlag .preprocessor b!"-DFMT_HEADER_ONLY=1", .addFlag .preprocessor b!"-DSPDLOG_FMT_EXTERNAL",
     .addExternalLib b!"-lpthread"]
  | _ => []

/-- `buildcc_cb` (`build_buildcc.cpp:21-143`): `infos` are the header-only libraries. -/
def buildccOps (infos : List TargetSchema) (tplPath : Str) (tpl : TargetSchema) (id : ToolchainId) :
    List ApiOp :=
  treeOps ++ infos.map (.insert · [.includeDirs, .headers]) ++
    [.addLib tplPath, .insert tpl [.includeDirs, .headers]] ++ platformOps id

/-- `hybrid_simple_example_cb` (`main.buildcc.cpp:73-87`). -/
def exampleOps (libPath : Str) (lib : TargetSchema) : List ApiOp :=
  [.addLib libPath,
   .insert lib [.preprocessorFlags, .cppCompileFlags, .linkFlags, .headers, .includeDirs, .libs,
     .externalLibs],
   .addSource b!"build.cpp" []]

/-- A target and what it was given. -/
structure Filled where
  made : Made
  cfg : TargetSchema
deriving DecidableEq

/-- A target filled by callbacks. -/
def fill (list : Str → Option (List Str)) (m : Made) (ops : List ApiOp) : Option Filled :=
  (applyAll ⟨m.toolchain.config, m.rootDir, list⟩ m.info ops).map fun c => ⟨m, c⟩

/-- The targets of `BuildBuildCC`. -/
structure Package where
  tpl : Filled
  buildcc : Filled
deriving DecidableEq

/-- `BuildBuildCC::Initialize`, `Setup` (`build_buildcc.cpp:170-238`), when the toolchain is to be
built. -/
def buildBuildCC (junk : Nat → TargetSchema) (p : Project) (env : TargetEnv)
    (list : Str → Option (List Str)) (tc : Toolchain) : Option Package := do
  let third := Path.append env.rootDir b!"third_party"
  let tpl ← staticGeneric junk p b!"libtpl" tc ⟨Path.append third b!"tiny-process-library", env.buildDir⟩
  let buildcc ← staticGeneric junk p b!"libbuildcc" tc
    ⟨Path.append env.rootDir b!"buildcc", env.buildDir⟩
  let json ← headerOnly list env.rootDir tc b!"json" jsonOps
  let cli11 ← headerOnly list env.rootDir tc b!"CLI11" cli11Ops
  let fmt ← headerOnly list env.rootDir tc b!"fmt" fmtOps
  let spdlog ← headerOnly list env.rootDir tc b!"spdlog" spdlogOps
  let taskflow ← headerOnly list env.rootDir tc b!"taskflow" taskflowOps
  let tpl ← fill list tpl (globalFlags tc.id ++ tplOps)
  let buildcc ← fill list buildcc (globalFlags tc.id ++
    buildccOps [json, fmt, spdlog, cli11, taskflow] (outputPath tpl.made.fixed) tpl.cfg tc.id)
  return ⟨tpl, buildcc⟩

/-- The targets of the script. -/
structure Targets where
  tpl : Filled
  buildcc : Filled
  example_ : Filled
deriving DecidableEq

/-- The targets of the script (`main.buildcc.cpp:43-55`), when the toolchain is to be built. -/
def script (junk : Nat → TargetSchema) (p : Project) (list : Str → Option (List Str))
    (tc : Toolchain) : Option Targets := do
  let pkg ← buildBuildCC junk p ⟨p.rootDir, p.buildDir⟩ list tc
  let example_ ← executableGeneric junk p b!"buildcc_hybrid_simple_example" tc
    (TargetEnv.relative p b!"example/hybrid/simple")
  let example_ ← fill list example_ (exampleOps (outputPath pkg.buildcc.made.fixed) pkg.buildcc.cfg)
  return ⟨pkg.tpl, pkg.buildcc, example_⟩

/-- What `BuildBuildCC::Setup` registers (`build_buildcc.cpp:226-237`): callbacks are numbered from `n`
in the order in which they are called. -/
def packageCalls (n : Nat) (c : Reg.Condition) (tpl buildcc : Str) : List Reg.Call :=
  [.func c n, .func c (n + 1), .func c (n + 2), .func c (n + 3), .func c (n + 4), .func c (n + 5),
   .build c tpl, .func c (n + 6), .build c buildcc, .dep c buildcc tpl]

/-- What the script registers (`main.buildcc.cpp:41`, `50-55`). -/
def bootCalls (clean : Bool) (c : Reg.Condition) (tpl buildcc example_ : Str) : List Reg.Call :=
  [.callFunc clean 0, .func c 1] ++ packageCalls 2 c tpl buildcc ++
    [.build c example_, .dep c example_ buildcc]

end Verif.Boot
