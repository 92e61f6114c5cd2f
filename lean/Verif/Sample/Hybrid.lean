import Verif.Sample.Headers

/-!
# The scripts in `example/hybrid`

For one toolchain of the script, which is `gcc`, `msvc` or given by the user.
-/

namespace Verif.Sample
open Verif Verif.Schema Verif.Target Verif.Toolchain Verif.Path
open Verif.Boot (Filled)

/-- `example/hybrid/single/build.cpp:26-33`, `50-54`. -/
def single : Text :=
  ⟨[], [⟨b!"hello_world", .executable, b!"", [.call (.addSource b!"main.cpp" b!"src")]⟩], [], [0]⟩

/-- The flags for C or C++ in `example/hybrid/simple/build.cpp:78-93`, `102-117`, which are those of
`example/hybrid/pch/build.cpp:80-95`, `108-123`. -/
def sampleFlags (id : ToolchainId) (kind : FlagKind) : List Step :=
  match id with
  | .gcc => [.call (.addFlag .preprocessor b!"-DRANDOM=1"), .call (.addFlag kind b!"-Wall"),
      .call (.addFlag kind b!"-Werror"), .call (.addFlag .link b!"-lm")]
  | .msvc => [.call (.addFlag .preprocessor b!"/DRANDOM=1"), .call (.addFlag kind b!"/W4")]
  | _ => []

/-- `example/hybrid/simple/build.cpp:31-49`, `72-120`. -/
def simple (id : ToolchainId) : Text :=
  ⟨[], [⟨b!"cppflags", .executable, b!"files",
      [.call (.addSource b!"main.cpp" b!"src"), .call (.addSource b!"src/random.cpp" b!""),
       .call (.addIncludeDir b!"include" true)] ++ sampleFlags id .cppCompile⟩,
    ⟨b!"cflags", .executable, b!"files",
      [.call (.addSource b!"main.c" b!"src")] ++ sampleFlags id .cCompile⟩], [], [0, 1]⟩

/-- `example/hybrid/pch/build.cpp:31-48`, `70-126`. -/
def pch (id : ToolchainId) : Text :=
  ⟨[], [⟨b!"cppflags", .executable, b!"files",
      [.call (.addSource b!"main.cpp" b!"src"), .call (.addSource b!"random.cpp" b!"src"),
       .call (.addIncludeDir b!"include" true), .call (.addPch b!"pch/pch_cpp.h" b!""),
       .call (.addPch b!"pch/pch_c.h" b!""), .call (.addIncludeDir b!"pch" true)] ++
        sampleFlags id .cppCompile⟩,
    ⟨b!"cflags", .executable, b!"files",
      [.call (.addSource b!"main.c" b!"src"), .call (.addPch b!"pch/pch_c.h" b!""),
       .call (.addIncludeDir b!"pch" false), .call (.addHeader b!"pch/pch_c.h" b!"")] ++
        sampleFlags id .cCompile⟩], [], [0, 1]⟩

/-- `example/hybrid/foolib/build.foo.cpp:3-6`. -/
def fooOps : List ApiOp := [.addSource b!"src/foo.cpp" b!"", .addIncludeDir b!"src" true]

/-- `example/hybrid/foolib/build.main.cpp:28-40`, `56-64`. -/
def foolib : Text :=
  ⟨[(b!"", fooOps)], [⟨b!"one_executable", .executable, b!"",
    [.call (.addSource b!"main.cpp" b!""), .insertInfo 0 [.sources, .headers, .includeDirs]]⟩], [], []⟩

/-- `example/hybrid/external_lib/build.main.cpp:28-40`, `56-64`.  For `msvc` the header-only library
has the toolchain `gcc` (`37`), which the flags of that toolchain would show. -/
def externalLib : Text :=
  ⟨[(b!"../foolib", fooOps)], [⟨b!"cppflags", .executable, b!"",
    [.call (.addSource b!"main.cpp" b!""), .insertInfo 0 [.sources, .headers, .includeDirs]]⟩], [], []⟩

/-- `example/hybrid/custom_target/build.main.cpp:30-36`, `59-64`, without `Target_custom`. -/
def customTarget : Text :=
  ⟨[], [⟨b!"foolib", .executable, b!"", [.call (.addSource b!"src/foo.cpp" b!""),
    .call (.addIncludeDir b!"src" true), .call (.addSource b!"main.cpp" b!"")]⟩], [], []⟩

/-- `example/hybrid/target_info/build.cpp:32-54`, `76-98`. -/
def targetInfo : Text :=
  ⟨[(b!"files", [.addIncludeDir b!"include" true])],
    [⟨b!"generic_add_1", .executable, b!"files",
      [.call (.addSource b!"src/main1.cpp" b!""), .copyInfo 0 [.includeDirs, .headers]]⟩,
    ⟨b!"generic_add_2", .executable, b!"files",
      [.call (.addSource b!"src/main2.cpp" b!""), .copyInfo 0 [.includeDirs, .headers]]⟩], [], [0, 1]⟩

/-- `example/hybrid/generic/build.cpp:44-54`, `86-99`.  `type` is the argument `--default_lib_type`. -/
def generic (type : TargetType) : Text :=
  ⟨[], [⟨b!"libfoo", type, b!"../foolib", fooOps.map .call⟩,
    ⟨b!"generic", .executable, b!"src", [.call (.addSource b!"main.cpp" b!""), .libDep 0,
      .insert 0 [.includeDirs]]⟩], [(1, 0)], [1]⟩

/-- `example/gcc/StaticLib/build.cpp:20-50` and `example/gcc/DynamicLib/build.cpp:21-46`, which are the
same but for the type and the name of the program.  They have no `Reg`, but make the task of the program
succeed that of the library. -/
def libExample (type : TargetType) (name : Str) : Text :=
  ⟨[], [⟨b!"librandom", type, b!"files", [.call (.addSource b!"src/random.cpp" b!""),
      .call (.addHeader b!"include/random.h" b!""), .call (.addIncludeDir b!"include" false)]⟩,
    ⟨name, .executable, b!"files", [.call (.addSource b!"main.cpp" b!"src"),
      .call (.addIncludeDir b!"include" false), .libDep 0]⟩], [(1, 0)], []⟩

/-- C106: the scripts keep to the rules, so `C106_built` holds of them. -/
theorem C106_samples (id : ToolchainId) (type : TargetType) :
    Neat single ∧ Neat (simple id) ∧ Neat (pch id) ∧ Neat foolib ∧ Neat externalLib ∧
      Neat customTarget ∧ Neat targetInfo ∧ Neat (generic type) := by
  refine ⟨by decide +kernel, ?_, ?_, by decide +kernel, by decide +kernel, by decide +kernel,
    by decide +kernel, ?_⟩
  · cases id <;> decide +kernel
  · cases id <;> decide +kernel
  · cases type <;> decide +kernel

/-- C107: all of them but two keep to the rule for headers, so `C107_covered` holds of them. -/
theorem C107_samples (id : ToolchainId) (type : TargetType) :
    Globbed single ∧ Globbed (simple id) ∧ Globbed foolib ∧ Globbed externalLib ∧
      Globbed customTarget ∧ Globbed targetInfo ∧ ¬ Globbed (pch id) ∧ ¬ Globbed (generic type) := by
  refine ⟨by decide +kernel, ?_, by decide +kernel, by decide +kernel, by decide +kernel,
    by decide +kernel, ?_, ?_⟩
  · cases id <;> decide +kernel
  · cases id <;> decide +kernel
  · cases type <;> decide +kernel

end Verif.Sample
