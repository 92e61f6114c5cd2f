import Verif.Reg.Tests
import Verif.Reg.Graph
import Verif.Cli.Model
import Verif.Toolchain.FindProps
import Verif.Target.Api
import Verif.Schema.Model

/-! # The unit tests of the remaining libraries, run on the model

As in `Conform.Target`, each example transcribes a unit test of the repository.  They are
no proofs of a property, they compare the model with what the authors of the code wrote
down. -/

namespace Verif.Conform.Rest
open Verif Verif.Command Verif.Schema Verif.Env Verif.Toolchain

/-! ## `test_command.cpp` -/

/-- `Construct_InvalidFormat`. -/
example : construct [] b!"{test}" [] = .fatal := by decide +kernel
/-- `Construct_MultipleArgs`. -/
example : construct (addDefaults [] [(b!"h", b!"hello"), (b!"w", b!"world")])
    b!"{h} {w} {f} {c}" [(b!"f", b!"from"), (b!"c", b!"coder137")] =
    .value b!"hello world from coder137" := by decide +kernel
/-- `GetDefaultValueByKey`. -/
example : getDefault (addDefault [] b!"key" b!"value") b!"key" = some b!"value" := by decide +kernel
/-- `GetDefaultValueByKey_BadKey`. -/
example : getDefault (addDefault [] b!"key" b!"value") b!"bad_key" = none := by decide +kernel
/-- `Construct_Basic` uses an automatic argument, which the model leaves open. -/
example : construct [] b!"{}" [([], b!"hi")] = .unspecified := by decide +kernel

/-! ## `test_env_util.cpp`, `Util_Split` -/

example : split [] c!":" = [] := by decide +kernel
example : split b!"path1" c!":" = [b!"path1"] := by decide +kernel
example : split b!"path1:path2:path3" c!":" = [b!"path1", b!"path2", b!"path3"] := by
  decide +kernel

/-! ## `test_storage.cpp` -/

/-- Storage of the tests: two objects of one type. -/
def stored : Storage :=
  storageAfter [.add b!"identifier" b!"Big", .add b!"identifier2" b!"Big"]

/-- `BasicUsage`. -/
example : (stored.ref b!"identifier" b!"Big").isSome ∧ (stored.ref b!"identifier2" b!"Big").isSome ∧
    stored.contains b!"identifier" = true ∧ stored.contains b!"identifier_does_not_exist" = false ∧
    stored.valid b!"identifier" b!"Big" = true ∧ stored.valid b!"wrong_identifier" b!"Big" = false ∧
    stored.valid b!"identifier" b!"int" = false ∧
    stored.clear.contains b!"identifier" = false := by decide +kernel
/-- `IncorrectUsage`. -/
example : stored.ref b!"identifier" b!"Other" = none ∧
    stored.ref b!"identifier3" b!"Big" = none := by decide +kernel

/-! ## `test_path_schema.cpp` -/

/-- `Path_ToPathString`. -/
example : Path.toPathString b!"hello/\\first.txt" = b!"hello/\\first.txt" := by decide +kernel
/-- `Path_ToPathDisplayString`. -/
example : Path.displayString b!"hello/\\first/hello world.txt" =
    b!"\"hello/\\first/hello world.txt\"" := by decide +kernel
/-- `PathInfoList_GetChanged`. -/
example : ([⟨b!"first.txt", b!"1"⟩, ⟨b!"second.txt", b!"2"⟩] : List PathInfo) ≠
      [⟨b!"first.txt", b!"1"⟩] ∧
    ([⟨b!"first.txt", b!"1"⟩, ⟨b!"second.txt", b!"2"⟩] : List PathInfo) ≠
      [⟨b!"first.txt", b!"1"⟩, ⟨b!"second.txt", b!"4"⟩] ∧
    ([⟨b!"first.txt", b!"1"⟩, ⟨b!"second.txt", b!"2"⟩] : List PathInfo) ≠
      [⟨b!"second.txt", b!"2"⟩, ⟨b!"first.txt", b!"1"⟩] := by decide +kernel

/-! ## `test_target_serialization.cpp`, `test_custom_generator_serialization.cpp` -/

/-- `TargetType`. -/
example : getType (.str b!"executable") = .executable ∧
    getType (.str b!"static_library") = .staticLibrary ∧
    getType (.str b!"dynamic_library") = .dynamicLibrary ∧
    getType (.str b!"should_not_exist") = .undefined ∧ getType .null = .undefined := by
  decide +kernel

/-- Store, then load. -/
def reload (t : TargetType) : Option TargetType :=
  ((targetText { TargetSchema.empty with type := t }).bind loadTarget).map (·.type)

/-- `TargetSerialization_TargetType`, `FormatEmptyCheck`. -/
example : reload .executable = some .executable ∧ reload .staticLibrary = some .staticLibrary ∧
    reload .dynamicLibrary = some .dynamicLibrary ∧ reload .undefined = some .undefined := by
  decide +kernel
/-- `JsonParse_Failure`, `EmptyFile_Failure`. -/
example : loadTargetFile (some []) = none ∧ loadTargetFile none = none ∧
    loadTargetFile (some b!"{\"name\": \"\"}") = none := by decide +kernel
example : (loadGenFile (some [])).isNone ∧ (loadGenFile none).isNone ∧
    (loadGenFile (some b!"{\"name\": \"\"}")).isNone := by decide +kernel
example : ((genText ⟨[], []⟩).bind loadGen).isSome := by decide +kernel

/-! ## `test_register.cpp` -/

section
open Verif.Reg

/-- The two conditions of the tests. -/
def yes : Condition := ⟨true, true⟩
def no : Condition := ⟨false, false⟩
def t : Str := b!"[gcc] dummyT"
def d : Str := b!"[gcc] depT"
def d2 : Str := b!"[gcc] dep2T"

/-- The outcome of calls on a new registry. -/
def reg (l : List Call) : Outcome := calls 100 ⟨Graph.empty, []⟩ l
def ok (l : List Call) : Bool := match reg l with | .ok _ => true | _ => false

/-- `Register_Clean`. -/
example : reg [.callFunc false 0] = .ok ⟨.empty, []⟩ ∧
    reg [.callFunc true 0] = .ok ⟨.empty, [0]⟩ := by decide +kernel
/-- `Register_Build`. -/
example : reg [.build no t] = .ok ⟨.empty, []⟩ ∧
    reg [.build yes t] = .ok ⟨⟨[t], [], []⟩, []⟩ := by decide +kernel
/-- `Register_NoBuildAndDep`: neither, only one, or both of the targets are registered. -/
example : reg [.dep yes t d] = .fatal ∧ reg [.build yes d, .dep yes t d] = .fatal ∧
    reg [.build yes t, .dep yes t d] = .fatal ∧
    ok [.build yes t, .build yes d, .dep yes t d] = true := by decide +kernel
/-- `Register_BuildAndDep`, all calls with a false condition. -/
example : reg [.build no t, .build no d, .dep no t d] = .ok ⟨.empty, []⟩ := by decide +kernel
/-- `Register_BuildAndDep`: target or dependency not built. -/
example : reg [.build no t, .build yes d, .dep yes t d] = .fatal ∧
    reg [.build yes t, .build no d, .dep yes t d] = .fatal ∧
    ok [.build yes t, .build yes d, .dep yes t d] = true := by decide +kernel
/-- `Register_DepDuplicate`. -/
example : reg [.build yes t, .build yes d, .dep yes t d, .dep yes t d] = .fatal := by
  decide +kernel
def three : List Call :=
  [.build yes t, .build yes d, .build yes d2, .dep yes d d2, .dep yes t d, .dep yes t d2]
example : ok three = true ∧ reg (three ++ [.dep yes t d]) = .fatal ∧
    reg (three ++ [.dep yes t d2]) = .fatal ∧ reg (three ++ [.dep yes d d2]) = .fatal := by
  decide +kernel
/-- `Register_DepCyclic`. -/
example : reg [.build yes t, .build yes d, .dep yes t d, .dep yes d t] = .fatal := by
  decide +kernel
example : reg [.build yes t, .build yes d, .build yes d2, .dep yes d d2, .dep yes t d,
    .dep yes d2 t] = .fatal := by decide +kernel
/-- `Register_Test`. -/
example : ok [.test no t] = true ∧ ok [.test ⟨true, false⟩ t] = true ∧
    ok [.test ⟨false, true⟩ t] = true ∧ reg [.test yes t] = .fatal ∧
    reg [.build yes t, .test yes t] = .ok ⟨⟨[t], [], [t]⟩, []⟩ := by decide +kernel

/-- `Register_TestWithOutput`: what the mocked command reports. -/
def sh : Shell := fun _ _ => ⟨[b!"out"], [b!"err"], true⟩
def info (type : OutputType) (o e : Bool) : TestInfo :=
  ⟨b!"/b/t", b!"{executable}", ⟨[], none, type, o, e⟩⟩

example : (testRunner sh (info .defaultBehaviour false false)).out = .console ∧
    (testRunner sh (info .defaultBehaviour false false)).err = .console := by decide +kernel
example : (testRunner sh (info .printStderr false false)).out = .console ∧
    (testRunner sh (info .printStderr false false)).err = .captured [b!"err"] := by decide +kernel
example : (testRunner sh (info .printStdout false false)).out = .captured [b!"out"] ∧
    (testRunner sh (info .printStdout false false)).err = .console := by decide +kernel
example : (testRunner sh (info .printBoth false false)).out = .captured [b!"out"] ∧
    (testRunner sh (info .printBoth false false)).err = .captured [b!"err"] := by decide +kernel
example : (testRunner sh (info .userRedirect false false)).out = .console ∧
    (testRunner sh (info .userRedirect true true)).out = .user [b!"out"] ∧
    (testRunner sh (info .userRedirect true true)).err = .user [b!"err"] := by decide +kernel
example : (testRunner sh (info .printBoth false false)).executed = some (b!"/b/t", none) := by
  decide +kernel
end

/-! ## `test_args.cpp` -/

section
open Verif.Cli

/-- A section of a file of `--config`. -/
def given (values : List (Str × Str)) (flags : List (Str × Bool)) : Given :=
  ⟨fun k => values.lookup k, fun k => flags.lookup k⟩

def nothing : Given := given [] []
/-- `configs/gcc_toolchain.toml`. -/
def gccFile : Given := given
  [(b!"--id", b!"gcc"), (b!"--name", b!"gcc"), (b!"--asm_compiler", b!"as"),
   (b!"--c_compiler", b!"gcc"), (b!"--cpp_compiler", b!"g++"), (b!"--archiver", b!"ar"),
   (b!"--linker", b!"ld")] [(b!"--build", true), (b!"--test", false)]
/-- `configs/msvc_toolchain.toml`. -/
def msvcFile : Given := given
  [(b!"--id", b!"msvc"), (b!"--name", b!"msvc"), (b!"--asm_compiler", b!"cl"),
   (b!"--c_compiler", b!"cl"), (b!"--cpp_compiler", b!"cl"), (b!"--archiver", b!"lib"),
   (b!"--linker", b!"link")] [(b!"--build", true), (b!"--test", true)]
/-- `configs/gcc_target.toml`, abbreviated. -/
def gccTargetFile : Given := given
  [(b!"--compile_command", b!"{compiler} -c {input}"),
   (b!"--link_command", b!"{cpp_compiler} -o {output}")] []
/-- `configs/msvc_target.toml`, abbreviated. -/
def msvcTargetFile : Given := given
  [(b!"--compile_command", b!"{compiler} /c {input}"),
   (b!"--link_command", b!"{linker} /OUT:{output}")] []

def line : Line :=
  ⟨fun n => if n = b!"gcc" then gccFile else if n = b!"msvc" then msvcFile else nothing,
   fun n => if n = b!"gcc" then gccTargetFile else if n = b!"msvc" then msvcTargetFile else nothing⟩

def vars : Vars := ⟨fun _ => {}, fun _ => {}⟩

def gccArg : ArgToolchain :=
  ⟨true, false, .gcc, b!"gcc", ⟨b!"as", b!"gcc", b!"g++", b!"ar", b!"ld"⟩, {}⟩
def msvcArg : ArgToolchain :=
  ⟨true, true, .msvc, b!"msvc", ⟨b!"cl", b!"cl", b!"cl", b!"lib", b!"link"⟩, {}⟩

/-- `Args_CustomToolchain`. -/
example : (args line vars [.toolchain b!"gcc" 0 {}]).map (·.toolchains 0) = some gccArg := by
  decide +kernel
/-- `Args_MultipleCustomToolchain`. -/
example : (args line vars [.toolchain b!"gcc" 0 {}, .toolchain b!"msvc" 1 {}]).map
    (fun v => (v.toolchains 0, v.toolchains 1)) = some (gccArg, msvcArg) := by decide +kernel
/-- `Args_DuplicateCustomToolchain`. -/
example : (args line vars [.toolchain b!"gcc" 0 {}, .toolchain b!"gcc" 1 {}]).isNone := by
  decide +kernel
/-- `Args_CustomTarget`, `Args_MultipleCustomTarget`. -/
example : (args line vars [.toolchain b!"gcc" 0 {}, .target b!"gcc" 0 {},
    .toolchain b!"msvc" 1 {}, .target b!"msvc" 1 {}]).map
    (fun v => (v.toolchains 0, v.toolchains 1, v.targets 0, v.targets 1)) =
    some (gccArg, msvcArg, ⟨b!"{compiler} -c {input}", b!"{cpp_compiler} -o {output}"⟩,
      ⟨b!"{compiler} /c {input}", b!"{linker} /OUT:{output}"⟩) := by decide +kernel
end

/-! ## The tests of the toolchain -/

section
open Verif.Target

/-- The directories of the tests of the toolchain. -/
def host : Host where
  getenv v := if v = b!"CUSTOM_BUILDCC_PATH" then some b!"/toolchains/gcc" else none
  dir p :=
    if p = b!"/toolchains/gcc" then
      .entries [(b!"ar", true), (b!"as", true), (b!"g++", true), (b!"gcc", true), (b!"ld", true)]
    else if p = b!"/toolchains/gcc/ar" then .unreadable
    else if p = b!"/locked" then .unreadable
    else if p = b!"/toolchains" then .entries [(b!"gcc", false)]
    else .missing

def exes : Executables := ⟨b!"as", b!"gcc", b!"g++", b!"ar", b!"ld"⟩

/-- Found through a variable and through an absolute path. -/
example : find host exes ⟨[b!"CUSTOM_BUILDCC_PATH"], []⟩ = some [b!"/toolchains/gcc"] ∧
    find host exes ⟨[], [b!"/toolchains/gcc"]⟩ = some [b!"/toolchains/gcc"] := by decide +kernel
/-- A directory that does not exist, a path that is a file, a directory with other entries. -/
example : find host exes ⟨[], [b!"/none"]⟩ = some [] ∧
    find host exes ⟨[], [b!"/toolchains/gcc/ar"]⟩ = some [] ∧
    find host exes ⟨[], [b!"/toolchains"]⟩ = some [] := by decide +kernel
/-- `Verify` with a folder that cannot be read, and without a function for the version. -/
example : verify host exes (some fun _ => some ⟨[], b!"v", b!"a"⟩) ⟨[], [b!"/locked"]⟩ = none ∧
    verify host exes none ⟨[], [b!"/toolchains/gcc"]⟩ = none := by decide +kernel
/-- `Verify` with a function of the user. -/
example : (verify host exes (some fun _ => some ⟨[], b!"version", b!"arch"⟩)
    ⟨[], [b!"/toolchains/gcc"]⟩).map (·.1) =
    some ⟨b!"/toolchains/gcc", b!"version", b!"arch"⟩ := by decide +kernel

/-- `GetFileExt`. -/
example : ({} : Config).fileExt b!"random/file.asm" = .asm ∧
    ({} : Config).fileExt b!"file.c" = .c ∧ ({} : Config).fileExt b!"file.cpp" = .cpp ∧
    ({} : Config).fileExt b!"file.h" = .header ∧ ({} : Config).fileExt b!"file.invalid" = .invalid ∧
    ({} : Config).fileExt b!"random/directory" = .invalid := by decide +kernel

/-- `BuildccFind`: `Search`, `BadEnv`. -/
example : searchHostExecutable { host with getenv := fun v =>
        (if v = b!"PATH" then some b!"/none:/toolchains/gcc" else none) }
    (· = b!"gcc") [b!"PATH"] [] = (true, [b!"/toolchains/gcc/gcc"]) := by decide +kernel
example : searchHostExecutable host (· = b!"cmake") [b!"FIND_RANDOM_ENV"] [] = (false, []) := by
  decide +kernel

/-! ## The functions that fill a target -/

/-- `data` of the tests of the target. -/
def env : ApiEnv where
  cfg := gccConfig
  root := b!"/data"
  list p :=
    if p = b!"/data/" then
      some [b!"asm", b!"dummy_main.c", b!"dummy_main.cpp", b!"empty_main.cpp", b!"fileext", b!"foo",
        b!"foo_main.cpp", b!"include", b!"include_header.cpp", b!"new_source.cpp", b!"pch",
        b!"template"]
    else if p = b!"/data/include" then some [b!"include_header.h"]
    else none

def built (ops : List ApiOp) : Option TargetSchema := applyAll env TargetSchema.empty ops

/-- `Target_AddSource`, `Target_SourceRegex` and the like: what is accepted. -/
example : [b!"f.c", b!"f.cpp", b!"f.cxx", b!"f.cc", b!"f.s", b!"f.S", b!"f.asm", b!"f.h", b!"f.hpp",
      b!"f.invalid"].map (fun f => (built [.addSource f b!"fileext"]).isSome) =
    [true, true, true, true, true, true, true, false, false, false] := by decide +kernel
example : [b!"f.c", b!"f.cpp", b!"f.cxx", b!"f.cc", b!"f.s", b!"f.S", b!"f.asm", b!"f.h", b!"f.hpp",
      b!"f.invalid"].map (fun f => (built [.addHeader f b!"fileext"]).isSome) =
    [false, false, false, false, false, false, false, true, true, false] := by decide +kernel
/-- `Target_GlobSource`. -/
example : (built [.globSources []]).map (·.sources.length) = some 6 := by decide +kernel

/-- The source of the tests of `Copy` and `Insert`. -/
def src : Option TargetSchema := built
  [.addSource b!"dummy_main.c" [], .addIncludeDir b!"include" true,
   .addPch b!"include/include_header.h" [], .addLib b!"/b/srcTarget", .addExternalLib b!"testLib.a",
   .addLibDir b!"include", .addFlag .preprocessor b!"-DTEST", .addFlag .commonCompile b!"-O0",
   .addFlag .pchCompile b!"-pch_compile", .addFlag .pchObject b!"-pch_object",
   .addFlag .asmCompile b!"-march=test", .addFlag .cCompile b!"-std=c11",
   .addFlag .cppCompile b!"-std=c++17", .addFlag .link b!"-nostdinc",
   .addCompileDependency b!"new_source.cpp", .addLinkDependency b!"new_source.cpp"]

def options : List SyncOption :=
  [.sources, .headers, .pchs, .libs, .includeDirs, .libDirs, .externalLibs, .preprocessorFlags,
   .commonCompileFlags, .pchCompileFlags, .pchObjectFlags, .asmCompileFlags, .cCompileFlags,
   .cppCompileFlags, .linkFlags, .compileDeps, .linkDeps]

def sizes (t : TargetSchema) : List Nat :=
  [t.sources.length, t.headers.length, t.pchs.length, t.libs.length, t.externalLibs.length,
   t.includeDirs.length, t.libDirs.length, t.preprocessorFlags.length, t.commonCompileFlags.length,
   t.pchCompileFlags.length, t.pchObjectFlags.length, t.asmCompileFlags.length,
   t.cCompileFlags.length, t.cppCompileFlags.length, t.linkFlags.length, t.compileDeps.length,
   t.linkDeps.length]

/-- `CopyByConstRef`, `InsertByConstRef`. -/
example : (src.bind fun s => built [.copy s options]).map sizes = some (List.replicate 17 1) ∧
    (src.bind fun s => built [.insert s options]).map sizes = some (List.replicate 17 1) := by
  decide +kernel

/-- `ToolchainFlagApi`, `BasicTargetTest`. -/
example : (sizes (newTargetInfo ([(.preprocessor, b!"-preprocessor"), (.asmCompile, b!"-asm"),
      (.pchCompile, b!"-pchcompile"), (.pchObject, b!"-pchobject"), (.commonCompile, b!"-common"),
      (.cCompile, b!"-c"), (.cppCompile, b!"-cpp"), (.link, b!"-link")].foldl
      (fun f (x : FlagKind × Str) => Flags.add f x.2 x.1) {}))) =
    [0, 0, 0, 0, 0, 0, 0, 1, 1, 1, 1, 1, 1, 1, 1, 0, 0] := by decide +kernel
end

end Verif.Conform.Rest
