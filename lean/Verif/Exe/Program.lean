import Verif.Cli.Model
import Verif.Exe.Script
import Verif.Exe.Host
import Verif.Toolchain.Info

/-!
# `buildexe` from the command line to its end

`exeMain` with the arguments that `BuildExeArgs::Setup` reads, the toolchain that is made of them and
verified, and the check of the toolchain.  What CLI11 does is described in `Cli/Model`; the options
of `add_option` for vectors take any number of values.
-/

namespace Verif.Exe
open Verif Verif.Env Verif.Schema Verif.Target Verif.Toolchain

/-- A command line.  `ends` is the status with which CLI11 ends the program before it looks at the
values: for `--help`, for options and subcommands that it does not know and for options without
values. -/
structure ExeLine where
  ends : Option Nat := none
  root : Option Str
  build : Option Str
  clean : Bool := false
  /-- What is given after `toolchain host`. -/
  toolchain : Cli.Given
  value : Str → Option Str
  values : Str → List Str
  /-- `script --configs`. -/
  configs : List Str := []
  /-- `libs --<library>`. -/
  libs : Str → List Str

/-- The machine.  `accepts` says which names of options CLI11 takes; `entries` lists directories,
with whether the entries are directories. -/
structure Machine where
  host : Host
  present : Str → Bool
  accepts : Str → Bool
  entries : Str → Option (List (Str × Bool))
  list : Str → Option (List Str)
  cwd : Str
  shell : Shell

/-- `kBuildExeModeMap` (`args_setup.cpp:24-27`) under `CheckedTransformer`. -/
def modeOf (text : Str) : Option Mode :=
  if text.map Cli.lower = b!"immediate" ∨ text = b!"0" then some .immediate
  else if text.map Cli.lower = b!"script" ∨ text = b!"1" then some .script
  else none

/-- `kTargetTypeMap` (`args_setup.cpp:29-33`) under `CheckedTransformer`. -/
def typeOf (text : Str) : Option TargetType :=
  if text.map Cli.lower = b!"executable" ∨ text = b!"0" then some .executable
  else if text.map Cli.lower = b!"staticlibrary" ∨ text = b!"1" then some .staticLibrary
  else if text.map Cli.lower = b!"dynamiclibrary" ∨ text = b!"2" then some .dynamicLibrary
  else none

/-- `ArgTargetInputs::Add` (`args_setup.cpp:70-96`). -/
def readInputs (values : Str → List Str) : Inputs where
  sources := values b!"--srcs"
  includeDirs := values b!"--includes"
  libDirs := values b!"--lib_dirs"
  externalLibs := values b!"--external_libs"
  preprocessorFlags := values b!"--preprocessor_flags"
  commonCompileFlags := values b!"--common_compile_flags"
  asmCompileFlags := values b!"--asm_compile_flags"
  cCompileFlags := values b!"--c_compile_flags"
  cppCompileFlags := values b!"--cpp_compile_flags"
  linkFlags := values b!"--link_flags"

/-- What `BuildExeArgs::Setup` leaves. -/
structure Read where
  args : ExeArgs
  project : Project
  clean : Bool
  toolchain : Cli.ArgToolchain

/-- `BuildExeArgs::Setup` (`args_setup.cpp:35-68`, `98-132`) and the project directories of
`Reg::Init` (`register.cpp:71-83`); `none` is the end of the program. -/
def readArgs (mach : Machine) (home : Home) (line : ExeLine) : Option Read := do
  let dirs ← mach.entries home.libs
  let libs := libsInfo home.libs dirs
  if libs.all fun l => mach.accepts (b!"--" ++ l.name) then
    let root ← line.root
    let build ← line.build
    let name ← line.value b!"--name"
    let type ← (line.value b!"--type").bind typeOf
    let relative ← line.value b!"--relative_to_root"
    let mode ← (line.value b!"--mode").bind modeOf
    let vars ← Cli.args ⟨fun _ => line.toolchain, fun _ => ⟨fun _ => none, fun _ => none⟩⟩
      ⟨fun _ => {}, fun _ => {}⟩ [.toolchain b!"host" 0 {}]
    return {
      args := {
        name := name
        type := type
        relativeToRoot := relative
        inputs := readInputs line.values
        mode := mode
        configs := line.configs
        libs := libs
        libFiles := libFiles home.libs (libs.map fun l => (l.name, line.libs l.name)) }
      project := ⟨true, Path.append mach.cwd root, Path.append mach.cwd build⟩
      clean := line.clean
      toolchain := vars.toolchains 0 }
  else none

/-- The host toolchain (`buildexe.cpp:51-52`), with an empty storage; `none` is fatal. -/
def hostToolchain (mach : Machine) (a : Cli.ArgToolchain) : Option Toolchain := do
  let (t, _, _) ← Cli.construct Storage.init a
  let (_, t) ← verifyToolchain mach.host mach.shell t {}
  return t

/-- `host_toolchain_verify` (`buildexe.cpp:54-56`); `hostRun` gives the state of the target when the
executor is done. -/
def hostOk (junk : Nat → TargetSchema) (mach : Machine) (p : Project)
    (hostRun : Made → TargetSchema → Sys) (tc : Toolchain) : Bool :=
  match hostTarget junk p mach.list tc with
  | none => false
  | some (m, u) => hostPasses mach.shell m (hostRun m u)

/-- `main` (`buildexe.cpp:30-75`): what was done and the exit status, where 1 stands for every fatal
end.  `buildOk` says whether `Reg::Run` returns.  In script mode the package of the library is made
after the check of the toolchain; both are fatal in the same way. -/
def exeProgram (junk : Nat → TargetSchema) (mach : Machine) (hostRun : Made → TargetSchema → Sys)
    (buildOk : Bool) (line : ExeLine) : List ExeDid × Nat :=
  match homeInit mach.host.getenv mach.present with
  | none => ([], 1)
  | some home =>
    match line.ends, mach.entries home.libs with
    | some status, some _ => ([], status)
    | _, none => ([], 1)
    | none, some _ =>
      match readArgs mach home line with
      | none => ([], 1)
      | some r =>
        let tc := hostToolchain mach r.toolchain
        let ok := match tc with
          | none => false
          | some tc => hostOk junk mach r.project hostRun tc
        let w : World := ⟨mach.list, tc, ok, buildOk, mach.shell⟩
        match r.args.mode, tc with
        | .script, some tc =>
          match Boot.buildBuildCC junk r.project ⟨home.base, homeBuild home⟩ mach.list tc with
          | none => (if r.clean then [.cleaned r.project.buildDir] else [], 1)
          | some pkg =>
            exeMain junk w r.project r.clean r.args ⟨outputPath pkg.buildcc.made.fixed, pkg.buildcc.cfg⟩
        | _, _ => exeMain junk w r.project r.clean r.args ⟨[], .empty⟩

end Verif.Exe
