import Verif.Target.Special
import Verif.Env.Execute

/-!
# Model of the command line tool `buildexe`

The values of the options are those that CLI11 hands over.  The library `buildcc` that a script
is linked with (`bootstrap`) is a parameter: its path and its `TargetInfo`.
-/

namespace Verif.Exe
open Verif Verif.Env Verif.Schema Verif.Target Verif.Toolchain

/-! ## `BuildccHome` -/

/-- `BuildccHome` (`build_env_home.h:28-60`) after `Init`. -/
structure Home where
  home : Str
  base : Str
  libs : Str
  extensions : Str
deriving DecidableEq, Repr

/-- `BuildccHome::Init` (`build_env_home.cpp:27-49`), called once by `main`; `none` is fatal. -/
def homeInit (getenv : Str → Option Str) (present : Str → Bool) : Option Home :=
  match getenv b!"BUILDCC_HOME" with
  | none => none
  | some h =>
    let r : Home := ⟨h, Path.append h b!"buildcc", Path.append h b!"libs",
      Path.append h b!"extensions"⟩
    if present r.home && present r.base && present r.libs && present r.extensions then some r
    else none

/-! ## Arguments -/

/-- `BuildExeMode` (`args_setup.h:24-27`). -/
inductive Mode where
  | immediate | script
deriving DecidableEq, Repr

/-- `ArgTargetInputs` (`args_setup.h:37-55`). -/
structure Inputs where
  sources : List Str := []
  includeDirs : List Str := []
  libDirs : List Str := []
  externalLibs : List Str := []
  preprocessorFlags : List Str := []
  commonCompileFlags : List Str := []
  asmCompileFlags : List Str := []
  cCompileFlags : List Str := []
  cppCompileFlags : List Str := []
  linkFlags : List Str := []
deriving DecidableEq, Repr

/-- `LibInfo` (`args_setup.h:63-66`). -/
structure LibInfo where
  name : Str
  path : Str
deriving DecidableEq, Repr

/-- `BuildExeArgs` (`args_setup.h:75-103`). -/
structure ExeArgs where
  name : Str
  type : TargetType
  relativeToRoot : Str
  inputs : Inputs
  mode : Mode
  configs : List Str := []
  libs : List LibInfo := []
  libFiles : List Str := []
deriving DecidableEq, Repr

/-- The loop of `ArgLibsInfo::Add` (`args_setup.cpp:108-118`); the entries of the directory are
names, with whether they are directories. -/
def libsInfo (libsDir : Str) (entries : List (Str × Bool)) : List LibInfo :=
  (entries.filter (·.2)).map fun e =>
    let p := Path.append libsDir e.1
    ⟨Path.filename p, Path.displayString p⟩

/-- The callbacks of the options `--<library>` (`args_setup.cpp:120-126`), one for each option
that is given. -/
def libFiles (libsDir : Str) (given : List (Str × List Str)) : List Str :=
  given.flatMap fun g => g.2.map fun p => Path.append (Path.append libsDir g.1) p

/-! ## The target -/

/-- `UserTargetCb` (`build_env_setup.cpp:105-139`). -/
def userOps (i : Inputs) : List ApiOp :=
  i.sources.map (fun s => .addSource s []) ++
  i.includeDirs.map (fun d => .addIncludeDir d false) ++
  i.libDirs.map .addLibDir ++
  i.externalLibs.map .addExternalLib ++
  i.preprocessorFlags.map (.addFlag .preprocessor) ++
  i.commonCompileFlags.map (.addFlag .commonCompile) ++
  i.asmCompileFlags.map (.addFlag .asmCompile) ++
  i.cCompileFlags.map (.addFlag .cCompile) ++
  i.cppCompileFlags.map (.addFlag .cppCompile) ++
  i.linkFlags.map (.addFlag .link)

/-- The library that scripts are linked with: its output and its inputs. -/
structure Buildcc where
  path : Str
  info : TargetSchema

/-- `UserTargetWithBuildccSetup` (`build_env_setup.cpp:141-160`). -/
def buildccOps (b : Buildcc) (id : ToolchainId) : List ApiOp :=
  [.addLib b.path,
   .insert b.info [.preprocessorFlags, .cppCompileFlags, .includeDirs, .linkFlags, .headers,
     .includeDirs, .libs, .externalLibs]] ++
  (match id with
   | .mingw => [.addFlag .link b!"-Wl,--allow-multiple-definition"]
   | _ => [])

/-- The second loop of `UserTargetWithLibsSetup` (`build_env_setup.cpp:197-205`). -/
def libFileOps (cfg : Config) (files : List Str) : List ApiOp :=
  files.flatMap fun f =>
    (if cfg.isValidSource f then [.addSourceAbsolute f] else []) ++
    (if cfg.isValidHeader f then
      [.addIncludeDirAbsolute (Path.parentPath f) false, .addHeaderAbsolute f] else [])

/-- The name of the generated header (`build_env_setup.cpp:187-188`). -/
def libDirsFile (buildDir : Str) : Str := Path.append buildDir b!"buildexe_lib_dirs.h"

/-- One line of the header (`build_env_setup.cpp:168-170`, `182-184`). -/
def libConstant (l : LibInfo) : Str :=
  b!"static constexpr const char *const " ++ l.name ++ b!" = \"" ++ l.path ++ b!"\";"

/-- `fmt::join(lib_constants, "\r\n")` (`build_env_setup.cpp:190`). -/
def joinLines : List Str → Str
  | [] => []
  | [x] => x
  | x :: y :: xs => x ++ b!"\r\n" ++ joinLines (y :: xs)

/-- The text of `buildexe_lib_dirs.h` (`build_env_setup.cpp:171-190`). -/
def libDirsText (libs : List LibInfo) : Str :=
  b!"// Generated by BuildCC\n#pragma once\n\nstruct BuildExeLibDir {\n" ++
    joinLines (libs.map libConstant) ++ b!"\n};\n"

/-- The calls on the user's target: `ConstructUserTarget`, `ConstructUserTargetWithBuildcc`
(`build_env_setup.cpp:60-76`), with `AddIncludeDirAbsolute(build_dir, true)` at line 193. -/
def targetOps (a : ExeArgs) (b : Buildcc) (tc : Toolchain) (buildDir : Str) : List ApiOp :=
  match a.mode with
  | .immediate => userOps a.inputs
  | .script =>
    userOps a.inputs ++ buildccOps b tc.id ++ [.addIncludeDirAbsolute buildDir true] ++
      libFileOps tc.config a.libFiles

/-- `BuildEnvSetup::Setup` (`build_env_setup.cpp:23-33`, `84-89`): the target and its inputs;
`none` is fatal.  `list` lists directories after `buildexe_lib_dirs.h` is written. -/
def setup (junk : Nat → TargetSchema) (p : Project) (list : Str → Option (List Str)) (tc : Toolchain)
    (a : ExeArgs) (b : Buildcc) : Option (Made × TargetSchema) :=
  match targetGeneric junk p a.name a.type tc (TargetEnv.relative p a.relativeToRoot) with
  | none => none
  | some m =>
    match applyAll ⟨tc.config, m.rootDir, list⟩ m.info (targetOps a b tc m.buildDir) with
    | none => none
    | some u => some (m, u)

/-- The command of `RunUserTarget` (`build_env_setup.cpp:35-56`). -/
def scriptCommand (m : Made) (configs : List Str) : Str :=
  Path.displayString (outputPath m.fixed) ++ b!" " ++
    Command.aggregate (configs.map (b!"--config " ++ ·))

/-! ## `main` -/

/-- What `buildexe` does that can be seen from outside, in order. -/
inductive ExeDid where
  | cleaned (dir : Str)
  | header (file text : Str)
  | built (target : Str)
  | ran (command : Str)
  | compileCommands
deriving DecidableEq, Repr

/-- How the world answers: the entries of directories, the toolchain after `Verify`, whether
`host_toolchain_verify` passes (`toolchain_setup.cpp:30-79`), whether all builds end with
SUCCESS, and what processes do. -/
structure World where
  list : Str → Option (List Str)
  toolchain : Option Toolchain
  hostOk : Bool
  buildOk : Bool
  shell : Shell

/-- `main` after the command line is parsed (`buildexe.cpp:46-75`): what was done and the exit
status.  Files under the directory that `--clean` removes are not tracked. -/
def exeMain (junk : Nat → TargetSchema) (w : World) (p : Project) (clean : Bool) (a : ExeArgs)
    (b : Buildcc) : List ExeDid × Nat :=
  let did := if clean then [ExeDid.cleaned p.buildDir] else []
  match w.toolchain with
  | none => (did, 1)
  | some tc =>
    if a.mode = .script ∧ w.hostOk = false then (did, 1) else
    match setup junk p w.list tc a b with
    | none => (did, 1)
    | some (m, _) =>
      let did := did ++
        (if a.mode = .script then [.header (libDirsFile m.buildDir) (libDirsText a.libs)] else [])
      if w.buildOk = false then (did, 1) else
      let did := did ++ [.built (outputPath m.fixed)]
      match a.mode with
      | .immediate => (did ++ [.compileCommands], 0)
      | .script =>
        let command := scriptCommand m a.configs
        match execute w.shell command none with
        | none => (did, 1)
        | some _ => (did ++ [.ran command, .compileCommands], 0)

end Verif.Exe
