import Verif.Target.Sync
import Verif.Toolchain.Create

/-!
# Model of the functions that fill a `TargetInfo`

`none` is the end of the program: an `assert_fatal` on the main thread, or an exception of
`fs::directory_iterator`.
-/

namespace Verif.Target
open Verif Verif.Schema Verif.Toolchain

/-- What the functions use: the toolchain's configuration, the root directory, and the
entries of the directories, `none` when `fs::directory_iterator` throws. -/
structure ApiEnv where
  cfg : Config
  root : Str
  list : Str → Option (List Str)

/-- The eight kinds of flags of `FlagApi` (`flag_api.h:27-67`). -/
inductive FlagKind where
  | preprocessor | commonCompile | pchCompile | pchObject | asmCompile | cCompile | cppCompile
  | link
deriving DecidableEq, Repr

/-- `AddPreprocessorFlag` … `AddLinkFlag` of a target (`flag_api.h:29-67`). -/
def addFlag (t : TargetSchema) (flag : Str) : FlagKind → TargetSchema
  | .preprocessor => { t with preprocessorFlags := t.preprocessorFlags ++ [flag] }
  | .commonCompile => { t with commonCompileFlags := t.commonCompileFlags ++ [flag] }
  | .pchCompile => { t with pchCompileFlags := t.pchCompileFlags ++ [flag] }
  | .pchObject => { t with pchObjectFlags := t.pchObjectFlags ++ [flag] }
  | .asmCompile => { t with asmCompileFlags := t.asmCompileFlags ++ [flag] }
  | .cCompile => { t with cCompileFlags := t.cCompileFlags ++ [flag] }
  | .cppCompile => { t with cppCompileFlags := t.cppCompileFlags ++ [flag] }
  | .link => { t with linkFlags := t.linkFlags ++ [flag] }

/-- The same functions of a toolchain (`flag_api.h:29-67`). -/
def Flags.add (t : Flags) (flag : Str) : FlagKind → Flags
  | .preprocessor => { t with preprocessorFlags := t.preprocessorFlags ++ [flag] }
  | .commonCompile => { t with commonCompileFlags := t.commonCompileFlags ++ [flag] }
  | .pchCompile => { t with pchCompileFlags := t.pchCompileFlags ++ [flag] }
  | .pchObject => { t with pchObjectFlags := t.pchObjectFlags ++ [flag] }
  | .asmCompile => { t with asmCompileFlags := t.asmCompileFlags ++ [flag] }
  | .cCompile => { t with cCompileFlags := t.cCompileFlags ++ [flag] }
  | .cppCompile => { t with cppCompileFlags := t.cppCompileFlags ++ [flag] }
  | .link => { t with linkFlags := t.linkFlags ++ [flag] }

/-- `TargetInfo::Initialize` (`target_info.cpp:23-48`) on a new `TargetInfo`
(`target_info.h:50-53`). -/
def newTargetInfo (f : Flags) : TargetSchema :=
  let t := TargetSchema.empty
  let t := f.preprocessorFlags.foldl (fun t x => addFlag t x .preprocessor) t
  let t := f.commonCompileFlags.foldl (fun t x => addFlag t x .commonCompile) t
  let t := f.pchCompileFlags.foldl (fun t x => addFlag t x .pchCompile) t
  let t := f.pchObjectFlags.foldl (fun t x => addFlag t x .pchObject) t
  let t := f.asmCompileFlags.foldl (fun t x => addFlag t x .asmCompile) t
  let t := f.cCompileFlags.foldl (fun t x => addFlag t x .cCompile) t
  let t := f.cppCompileFlags.foldl (fun t x => addFlag t x .cppCompile) t
  f.linkFlags.foldl (fun t x => addFlag t x .link) t

/-- `PathInfoList::Emplace(p, "")` (`path.h:162-165`). -/
def emplaceInfo (l : List PathInfo) (p : Str) : List PathInfo := l ++ [⟨Path.toPathString p, []⟩]

/-- `PathList::Emplace(p)` (`path.h:111-114`). -/
def emplace (l : List Str) (p : Str) : List Str := l ++ [Path.toPathString p]

/-- `AddSourceAbsolute` (`source_api.h:39-44`) with `ExpectsValidSource`
(`toolchain_config.cpp:63-67`). -/
def addSourceAbsolute (e : ApiEnv) (t : TargetSchema) (p : Str) : Option TargetSchema :=
  if e.cfg.isValidSource p then some { t with sources := emplaceInfo t.sources p } else none

/-- The loop of `GlobSourcesAbsolute` and `GlobSources` (`source_api.h:49-53`, `71-75`). -/
def globSourcesLoop (e : ApiEnv) (dir : Str) : List Str → TargetSchema → Option TargetSchema
  | [], t => some t
  | f :: fs, t =>
    if e.cfg.isValidSource (Path.append dir f) then
      match addSourceAbsolute e t (Path.append dir f) with
      | none => none
      | some t => globSourcesLoop e dir fs t
    else globSourcesLoop e dir fs t

/-- `GlobSourcesAbsolute` (`source_api.h:46-54`). -/
def globSourcesAbsolute (e : ApiEnv) (t : TargetSchema) (dir : Str) : Option TargetSchema :=
  match e.list dir with
  | none => none
  | some l => globSourcesLoop e dir l t

/-- `AddHeaderAbsolute` (`include_api.h:45-50`) with `ExpectsValidHeader`
(`toolchain_config.cpp:82-86`). -/
def addHeaderAbsolute (e : ApiEnv) (t : TargetSchema) (p : Str) : Option TargetSchema :=
  if e.cfg.isValidHeader p then some { t with headers := emplaceInfo t.headers p } else none

/-- The loop of `GlobHeadersAbsolute` (`include_api.h:55-59`). -/
def globHeadersLoop (e : ApiEnv) (dir : Str) : List Str → TargetSchema → Option TargetSchema
  | [], t => some t
  | f :: fs, t =>
    if e.cfg.isValidHeader (Path.append dir f) then
      match addHeaderAbsolute e t (Path.append dir f) with
      | none => none
      | some t => globHeadersLoop e dir fs t
    else globHeadersLoop e dir fs t

/-- `GlobHeadersAbsolute` (`include_api.h:52-60`). -/
def globHeadersAbsolute (e : ApiEnv) (t : TargetSchema) (dir : Str) : Option TargetSchema :=
  match e.list dir with
  | none => none
  | some l => globHeadersLoop e dir l t

/-- `AddIncludeDirAbsolute` (`include_api.h:62-71`). -/
def addIncludeDirAbsolute (e : ApiEnv) (t : TargetSchema) (dir : Str) (glob : Bool) :
    Option TargetSchema :=
  let t := { t with includeDirs := emplace t.includeDirs dir }
  if glob then globHeadersAbsolute e t dir else some t

/-- `AddPchAbsolute` (`pch_api.h:39-46`); `make_preferred` does nothing on POSIX. -/
def addPchAbsolute (e : ApiEnv) (t : TargetSchema) (p : Str) : Option TargetSchema :=
  if e.cfg.isValidHeader p then some { t with pchs := emplaceInfo t.pchs p } else none

/-- A call of one of the functions that fill a target. -/
inductive ApiOp where
  | addSourceAbsolute (p : Str)
  | addSource (p dir : Str)
  | globSourcesAbsolute (dir : Str)
  | globSources (dir : Str)
  | addHeaderAbsolute (p : Str)
  | addHeader (p dir : Str)
  | globHeadersAbsolute (dir : Str)
  | globHeaders (dir : Str)
  | addIncludeDirAbsolute (dir : Str) (glob : Bool)
  | addIncludeDir (dir : Str) (glob : Bool)
  | addPchAbsolute (p : Str)
  | addPch (p dir : Str)
  | addLibDirAbsolute (dir : Str)
  | addLibDir (dir : Str)
  /-- `AddLibDep(const std::string &)`. -/
  | addExternalLib (lib : Str)
  /-- `AddLibDep(const Target &)`, with the path of the other target's output. -/
  | addLib (targetPath : Str)
  | addFlag (kind : FlagKind) (flag : Str)
  | addCompileDependencyAbsolute (p : Str)
  | addCompileDependency (p : Str)
  | addLinkDependencyAbsolute (p : Str)
  | addLinkDependency (p : Str)
  /-- `Copy` from another target by constant reference. -/
  | copy (src : TargetSchema) (options : List SyncOption)
  /-- `Insert` from another target by constant reference. -/
  | insert (src : TargetSchema) (options : List SyncOption)

/-- One call: `source_api.h:39-76`, `include_api.h:45-98`, `pch_api.h:39-57`,
`lib_api.h:59-73`, `lib_api.cpp:24-28`, `deps_api.h:52-88`, `flag_api.h:29-67`,
`sync_api.cpp:25-36`, `106-117`. -/
def apply (e : ApiEnv) (t : TargetSchema) : ApiOp → Option TargetSchema
  | .addSourceAbsolute p => addSourceAbsolute e t p
  | .addSource p dir => addSourceAbsolute e t (Path.append (Path.append e.root dir) p)
  | .globSourcesAbsolute dir => globSourcesAbsolute e t dir
  | .globSources dir => globSourcesAbsolute e t (Path.append e.root dir)
  | .addHeaderAbsolute p => addHeaderAbsolute e t p
  | .addHeader p dir => addHeaderAbsolute e t (Path.append (Path.append e.root dir) p)
  | .globHeadersAbsolute dir => globHeadersAbsolute e t dir
  | .globHeaders dir => globHeadersAbsolute e t (Path.append e.root dir)
  | .addIncludeDirAbsolute dir glob => addIncludeDirAbsolute e t dir glob
  | .addIncludeDir dir glob => addIncludeDirAbsolute e t (Path.append e.root dir) glob
  | .addPchAbsolute p => addPchAbsolute e t p
  | .addPch p dir => addPchAbsolute e t (Path.append (Path.append e.root dir) p)
  | .addLibDirAbsolute dir => some { t with libDirs := emplace t.libDirs dir }
  | .addLibDir dir => some { t with libDirs := emplace t.libDirs (Path.append e.root dir) }
  | .addExternalLib lib => some { t with externalLibs := t.externalLibs ++ [lib] }
  | .addLib p => some { t with libs := emplaceInfo t.libs p }
  | .addFlag k f => some (addFlag t f k)
  | .addCompileDependencyAbsolute p => some { t with compileDeps := emplaceInfo t.compileDeps p }
  | .addCompileDependency p =>
    some { t with compileDeps := emplaceInfo t.compileDeps (Path.append e.root p) }
  | .addLinkDependencyAbsolute p => some { t with linkDeps := emplaceInfo t.linkDeps p }
  | .addLinkDependency p => some { t with linkDeps := emplaceInfo t.linkDeps (Path.append e.root p) }
  | .copy src options => some (copy t src options)
  | .insert src options => some (insert t src options)

/-- A sequence of calls. -/
def applyAll (e : ApiEnv) : TargetSchema → List ApiOp → Option TargetSchema
  | t, [] => some t
  | t, op :: ops =>
    match apply e t op with
    | none => none
    | some t => applyAll e t ops

end Verif.Target
