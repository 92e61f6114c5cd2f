import Verif.Env.Util
import Verif.Target.Commands

/-!
# Model of `Toolchain::Find`, `Toolchain::Verify` and `BuildccFind::Search`

Paths are POSIX paths.  A result `none` means that the call does not return: it is an
`assert_fatal` or an exception of `std::filesystem`.  The content of the directories does
not change during a call.
-/

namespace Verif.Toolchain
open Verif Verif.Env Verif.Target

/-- What a search meets at a path. -/
inductive DirState where
  /-- `fs::exists` is false. -/
  | missing
  /-- `fs::exists` throws, for example because a parent cannot be searched. -/
  | statError
  /-- `fs::directory_iterator` reports an error: not a directory, or not readable. -/
  | unreadable
  /-- The entries, in the order of the iteration, and whether `is_regular_file` holds
  without an error. -/
  | entries (l : List (Str × Bool))
deriving DecidableEq, Repr

/-- The machine that is searched: the environment and the directories. -/
structure Host where
  getenv : Str → Option Str
  dir : Str → DirState
  /-- `get_os_envvar_delim()[0]` (`host_os_util.h:45-53`). -/
  delim : UInt8 := c!":"
  /-- `get_os_executable_extension()` (`host_os_util.h:67-76`). -/
  exeExt : Str := []

/-- `ToolchainFindConfig` (`toolchain_find.h:44-51`). -/
structure FindConfig where
  envVars : List Str := [b!"PATH"]
  absoluteSearchPaths : List Str := []

/-- `ParseEnvVarToPaths` (`toolchain_find.cpp:28-40`). -/
def parseEnvVarToPaths (h : Host) (envVar : Str) : Option (List Str) :=
  match h.getenv envVar with
  | none => none
  | some v => some (split v h.delim)

/-- The five executables of a toolchain, as the initial set of
`ContainsToolchainExecutables`. -/
def Exes.all (e : Executables) : List Str :=
  [e.assembler, e.cCompiler, e.cppCompiler, e.archiver, e.linker]

/-- `ContainsToolchainExecutables` (`toolchain_find.cpp:42-59`) on the entries of `dir`:
every regular file erases its stem from the set. -/
def containsExecutables (dir : Str) (l : List (Str × Bool)) (exes : List Str) : Bool :=
  (l.foldl (fun exes e =>
    if e.2 = false then exes
    else exes.filter (· ≠ Path.stem (Path.append dir e.1))) exes).isEmpty

/-- The search paths (`toolchain_find.cpp:71-78`). -/
def searchPaths (h : Host) : List Str → List Str → Option (List Str)
  | paths, [] => some paths
  | paths, v :: vs =>
    match parseEnvVarToPaths h v with
    | none => none
    | some l => searchPaths h (paths ++ l) vs

/-- The loop over the search paths (`toolchain_find.cpp:85-101`). -/
def findLoop (h : Host) (exes : Executables) : List Str → List Str → Option (List Str)
  | found, [] => some found
  | found, p :: ps =>
    match h.dir p with
    | .missing => findLoop h exes found ps
    | .statError => none
    | .unreadable => findLoop h exes found ps
    | .entries l =>
      findLoop h exes (if containsExecutables p l (Exes.all exes) then found ++ [p] else found) ps

/-- `ToolchainFind::Find` (`toolchain_find.cpp:65-104`). -/
def find (h : Host) (exes : Executables) (cfg : FindConfig) : Option (List Str) :=
  match searchPaths h cfg.absoluteSearchPaths cfg.envVars with
  | none => none
  | some paths => findLoop h exes [] paths

/-- `ToolchainCompilerInfo` (`toolchain_verify.h:45-51`). -/
structure CompilerInfo where
  path : Str
  compilerVersion : Str
  targetArch : Str
deriving DecidableEq, Repr

/-- `ToolchainInfoCb` (`toolchain_verify.h:54`); a callback that throws is not modelled. -/
abbrev InfoCb := Executables → Option CompilerInfo

/-- `CreateToolchainExecutables` (`toolchain_verify.cpp:37-69`). -/
def createExecutables (h : Host) (dir : Str) (e : Executables) : Executables where
  assembler := Path.append dir (e.assembler ++ h.exeExt)
  cCompiler := Path.append dir (e.cCompiler ++ h.exeExt)
  cppCompiler := Path.append dir (e.cppCompiler ++ h.exeExt)
  archiver := Path.append dir (e.archiver ++ h.exeExt)
  linker := Path.append dir (e.linker ++ h.exeExt)

/-- `ToolchainVerify::Verify` (`toolchain_verify.cpp:75-98`): the information it returns and
the executables of the toolchain afterwards. -/
def verify (h : Host) (exes : Executables) (cb : Option InfoCb) (cfg : FindConfig) :
    Option (CompilerInfo × Executables) :=
  match find h exes cfg with
  | none => none
  | some [] => none
  | some (d :: _) =>
    let new := createExecutables h d exes
    match cb with
    | none => none
    | some f =>
      match f new with
      | none => none
      | some info => some ({ info with path := d }, new)

/-! ## `BuildccFind` -/

/-- `SearchEnv` (`buildcc_find.cpp:37-80`); `match_` is `std::regex_match` with the pattern.
The entries of a directory have file names. -/
def searchEnv (h : Host) (match_ : Str → Bool) (envVar : Str) : List Str :=
  match h.getenv envVar with
  | none => []
  | some v =>
    (split v h.delim).flatMap fun p =>
      match h.dir p with
      | .entries l =>
        (l.map fun e => Path.append p e.1).filter fun f => match_ (Path.filename f)
      | _ => []

/-- `BuildccFind::SearchHostExecutable` (`buildcc_find.cpp:105-113`): the result and the
accumulated matches. -/
def searchHostExecutable (h : Host) (match_ : Str → Bool) (envVars : List Str)
    (matches_ : List Str) : Bool × List Str :=
  let m := envVars.foldl (fun acc v => acc ++ searchEnv h match_ v) matches_
  (!m.isEmpty, m)

end Verif.Toolchain
