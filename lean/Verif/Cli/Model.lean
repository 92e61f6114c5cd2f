import Verif.Toolchain.Create

/-!
# Toolchains and targets from the command line

`Args::AddToolchain`, `Args::AddTarget`, `Args::Parse` and what `ArgToolchain` and `ArgTarget`
make of it.

What CLI11 does is not in /repo.  Used of it:
* `add_option(name, variable)->default_val(x)` puts `x` into the variable at once, `Parse` puts the
  given value into it, and leaves it alone when no value is given (so does `add_flag`);
* two subcommands of one name are an exception;
* `CheckedTransformer(map, ignore_case)` takes the names of the map in upper or lower case and the
  numbers of the values; other texts end the program.
-/

namespace Verif.Cli
open Verif Verif.Env Verif.Target Verif.Toolchain

/-- `ArgToolchain` (`args.h:50-71`) with its `ArgToolchainState` (`args.h:39-43`). -/
structure ArgToolchain where
  build : Bool := false
  test : Bool := false
  id : ToolchainId := .undefined
  name : Str := []
  executables : Executables := ⟨[], [], [], [], []⟩
  config : Config := {}
deriving DecidableEq, Repr

/-- `ArgTarget` (`args.h:75-87`). -/
structure ArgTarget where
  compileCommand : Str := []
  linkCommand : Str := []
deriving DecidableEq, Repr

/-- What is given for one toolchain or target on the command line and in the files of
`--config`. -/
structure Given where
  value : Str → Option Str
  flag : Str → Option Bool

/-- A command line: what is given for each toolchain and each target. -/
structure Line where
  toolchain : Str → Given
  target : Str → Given

/-- The variables of the script. -/
structure Vars where
  toolchains : Nat → ArgToolchain
  targets : Nat → ArgTarget

/-- A call of `AddToolchain` or `AddTarget`; `out` is the variable it is given. -/
inductive Decl where
  | toolchain (name : Str) (out : Nat) (initial : ArgToolchain)
  | target (name : Str) (out : Nat) (initial : ArgTarget)

/-- The variable `n` gets a new value. -/
def put {α : Type} (f : Nat → α) (n : Nat) (a : α) : Nat → α := fun m => if m = n then a else f m

/-- ASCII letters in lower case. -/
def lower (c : UInt8) : UInt8 := if c!"A" ≤ c ∧ c ≤ c!"Z" then c + 32 else c

/-- `kToolchainIdMap` (`args.cpp:82-89`) under `CheckedTransformer`. -/
def idNames : List (Str × Str × ToolchainId) :=
  [(b!"gcc", b!"0", .gcc), (b!"msvc", b!"1", .msvc), (b!"mingw", b!"3", .mingw),
    (b!"clang", b!"2", .clang), (b!"custom", b!"4", .custom), (b!"undefined", b!"5", .undefined)]

/-- The id that a text stands for. -/
def idOf (text : Str) : Option ToolchainId :=
  (idNames.find? fun x => x.1 = text.map lower ∨ x.2.1 = text).map fun x => x.2.2

/-- The defaults of `AddToolchain` (`args.cpp:166-196`) and `AddTarget` (`args.cpp:204-216`). -/
def declare (v : Vars) : Decl → Vars
  | .toolchain _ out initial =>
    let a := v.toolchains out
    { v with toolchains := put v.toolchains out { a with
        id := initial.id, name := initial.name, executables := initial.executables } }
  | .target _ out initial => { v with targets := put v.targets out initial }

/-- The values that are given (`args.cpp:175-192`). -/
def readToolchain (g : Given) (a : ArgToolchain) : Option ArgToolchain :=
  let id := match g.value b!"--id" with
    | none => some a.id
    | some text => idOf text
  id.map fun id =>
  { build := (g.flag b!"--build").getD a.build
    test := (g.flag b!"--test").getD a.test
    id := id
    name := (g.value b!"--name").getD a.name
    executables :=
      { assembler := (g.value b!"--asm_compiler").getD a.executables.assembler
        cCompiler := (g.value b!"--c_compiler").getD a.executables.cCompiler
        cppCompiler := (g.value b!"--cpp_compiler").getD a.executables.cppCompiler
        archiver := (g.value b!"--archiver").getD a.executables.archiver
        linker := (g.value b!"--linker").getD a.executables.linker }
    config := a.config }

/-- The values that are given (`args.cpp:211-214`). -/
def readTarget (g : Given) (a : ArgTarget) : ArgTarget where
  compileCommand := (g.value b!"--compile_command").getD a.compileCommand
  linkCommand := (g.value b!"--link_command").getD a.linkCommand

/-- The values for one declaration. -/
def read (line : Line) (v : Vars) : Decl → Option Vars
  | .toolchain name out _ => (readToolchain (line.toolchain name) (v.toolchains out)).map fun a =>
      { v with toolchains := put v.toolchains out a }
  | .target name out _ => some
      { v with targets := put v.targets out (readTarget (line.target name) (v.targets out)) }

/-- The values for all declarations. -/
def readAll (line : Line) : Vars → List Decl → Option Vars
  | v, [] => some v
  | v, d :: l =>
    match read line v d with
    | none => none
    | some v => readAll line v l

/-- The subcommands of `toolchain` (`args.cpp:170-172`). -/
def toolchainNames (ds : List Decl) : List Str :=
  ds.filterMap fun | .toolchain n _ _ => some n | _ => none

/-- The subcommands of `target` (`args.cpp:208-210`). -/
def targetNames (ds : List Decl) : List Str :=
  ds.filterMap fun | .target n _ _ => some n | _ => none

/-- `Args::Init()` with the declarations, then `Parse` (`args.cpp:103-113`, `parse.cpp:21-28`);
`none` is the end of the program. -/
def args (line : Line) (v : Vars) (ds : List Decl) : Option Vars :=
  if (toolchainNames ds).Nodup ∧ (targetNames ds).Nodup then
    readAll line (ds.foldl declare v) ds
  else none

/-- `ArgToolchain::ConstructToolchain` (`args.h:61-63`). -/
def construct (s : Storage) (a : ArgToolchain) : Option (Toolchain × Nat × Storage) :=
  newToolchain s a.id a.name (some a.executables) (some a.config)

/-- The default `TargetConfig` (`target_config.h:28-38`). -/
def defaultConfig : TargetConfig where
  targetExt := []
  pchCommand := b!"{compiler} {preprocessor_flags} {include_dirs} {common_compile_flags} {pch_compile_flags} {compile_flags} -o {output} -c {input}"
  compileCommand := b!"{compiler} {preprocessor_flags} {include_dirs} {common_compile_flags} {pch_object_flags} {compile_flags} -o {output} -c {input}"
  linkCommand := b!"{cpp_compiler} {link_flags} {compiled_sources} -o {output} {lib_dirs} {lib_deps}"

/-- `ArgTarget::GetTargetConfig` (`args.h:78-83`). -/
def targetConfig (a : ArgTarget) : TargetConfig :=
  { defaultConfig with compileCommand := a.compileCommand, linkCommand := a.linkCommand }

end Verif.Cli
