import Verif.Target.Api
import Verif.Target.Commands

/-!
# Model of the constructors of targets: `Target` and the specialised and generic targets

`none` is fatal.  The constructors run on the main thread.
-/

namespace Verif.Target
open Verif Verif.Schema Verif.Toolchain

/-- `Project` (`env.cpp:22-61`): initialised or not, root and build directory. -/
structure Project where
  init : Bool
  rootDir : Str
  buildDir : Str
deriving DecidableEq, Repr

/-- `TargetEnv` (`target_env.h:27-83`). -/
structure TargetEnv where
  rootDir : Str
  buildDir : Str
deriving DecidableEq, Repr

/-- `TargetEnv(const fs::path &)` (`target_env.h:55-57`). -/
def TargetEnv.relative (p : Project) (dir : Str) : TargetEnv :=
  ⟨Path.append p.rootDir dir, p.buildDir⟩

/-- A `Target` object after its constructor (`target.h:65-78`, `122-135`). -/
structure Made where
  name : Str
  type : TargetType
  toolchain : Toolchain
  rootDir : Str
  buildDir : Str
  config : TargetConfig
  info : TargetSchema
deriving DecidableEq, Repr

/-- The view of a target that its commands depend on. -/
def Made.fixed (m : Made) : Fixed :=
  ⟨m.name, m.rootDir, m.buildDir, m.toolchain.config, m.toolchain.executables, m.config⟩

/-- `GetPchHeaderPath` (`target_getter.cpp:55-58`, `compile_pch.cpp:123-127`). -/
def Made.pchHeaderPath (m : Made) : Str :=
  Path.pchHeaderPath m.buildDir m.toolchain.config.pchHeaderExt

/-- `GetPchCompilePath` (`target_getter.cpp:60-64`, `compile_pch.cpp:129-133`). -/
def Made.pchCompilePath (m : Made) : Str :=
  Path.pchCompilePath m.buildDir m.toolchain.config.pchHeaderExt m.toolchain.config.pchCompileExt

/-- `IsValidTargetType` (`target.cpp:32-43`). -/
def validType : TargetType → Bool
  | .executable | .staticLibrary | .dynamicLibrary => true
  | _ => false

/-- The constructor of `Target` (`target.h:65-78`) with `Initialize` (`target.cpp:49-62`).
Creating the build directory is left out here; see `Disk.newTarget`. -/
def makeTarget (p : Project) (name : Str) (type : TargetType) (tc : Toolchain) (env : TargetEnv)
    (config : TargetConfig) : Option Made :=
  if p.init = false then none
  else if validType type = false then none
  else some
    { name, type, toolchain := tc, rootDir := env.rootDir
      buildDir := Path.targetBuildDir env.buildDir tc.name name
      config, info := newTargetInfo tc.user }

/-- `AddPreprocessorFlag` … `AddLinkFlag` on a target (`flag_api.h:29-67`). -/
def Made.addFlag (m : Made) (k : FlagKind) (flag : Str) : Made :=
  { m with info := Target.addFlag m.info flag k }

/-- `DefaultGccOptions` (`target_gcc.h:74-79`). -/
def defaultGccOptions (m : Made) : Made :=
  let m := m.addFlag .pchObject
    (b!"-include " ++ Path.displayString (Path.replaceExtension m.pchCompilePath []))
  m.addFlag .pchObject b!"-H"

/-- `DefaultMsvcOptions` (`target_msvc.h:86-94`). -/
def defaultMsvcOptions (m : Made) : Made :=
  let m := m.addFlag .cCompile b!"/nologo"
  let m := m.addFlag .cppCompile b!"/nologo"
  let m := m.addFlag .cppCompile b!"/EHsc"
  let m := m.addFlag .link b!"/nologo"
  let m := m.addFlag .pchObject (b!"/Yu" ++ Path.displayString m.pchHeaderPath)
  let m := m.addFlag .pchObject (b!"/FI" ++ Path.displayString m.pchHeaderPath)
  m.addFlag .pchObject (b!"/Fp" ++ Path.displayString m.pchCompilePath)

/-- `ExecutableTarget_gcc` (`target_gcc.h:81-89`). -/
def executableGcc (p : Project) (name : Str) (tc : Toolchain) (env : TargetEnv)
    (config : TargetConfig := gccExe) : Option Made :=
  (makeTarget p name .executable tc env config).map defaultGccOptions

/-- `StaticTarget_gcc` (`target_gcc.h:91-99`). -/
def staticGcc (p : Project) (name : Str) (tc : Toolchain) (env : TargetEnv)
    (config : TargetConfig := gccStatic) : Option Made :=
  (makeTarget p name .staticLibrary tc env config).map defaultGccOptions

/-- `DynamicTarget_gcc` (`target_gcc.h:101-110`). -/
def dynamicGcc (p : Project) (name : Str) (tc : Toolchain) (env : TargetEnv)
    (config : TargetConfig := gccDynamic) : Option Made :=
  (makeTarget p name .dynamicLibrary tc env config).map fun m =>
    defaultGccOptions (m.addFlag .commonCompile b!"-fpic")

/-- `ExecutableTarget_mingw` (`target_mingw.h:64-70`). -/
def executableMingw (p : Project) (name : Str) (tc : Toolchain) (env : TargetEnv)
    (config : TargetConfig := mingwExe) : Option Made := executableGcc p name tc env config

/-- `StaticTarget_mingw` (`target_mingw.h:72`). -/
def staticMingw (p : Project) (name : Str) (tc : Toolchain) (env : TargetEnv)
    (config : TargetConfig := gccStatic) : Option Made := staticGcc p name tc env config

/-- `DynamicTarget_mingw` (`target_mingw.h:74-80`). -/
def dynamicMingw (p : Project) (name : Str) (tc : Toolchain) (env : TargetEnv)
    (config : TargetConfig := mingwDynamic) : Option Made := dynamicGcc p name tc env config

/-- `ExecutableTarget_msvc` (`target_msvc.h:96-104`). -/
def executableMsvc (p : Project) (name : Str) (tc : Toolchain) (env : TargetEnv)
    (config : TargetConfig := msvcExe) : Option Made :=
  (makeTarget p name .executable tc env config).map defaultMsvcOptions

/-- `StaticTarget_msvc` (`target_msvc.h:106-114`). -/
def staticMsvc (p : Project) (name : Str) (tc : Toolchain) (env : TargetEnv)
    (config : TargetConfig := msvcStatic) : Option Made :=
  (makeTarget p name .staticLibrary tc env config).map defaultMsvcOptions

/-- `DynamicTarget_msvc` (`target_msvc.h:116-130`). -/
def dynamicMsvc (p : Project) (name : Str) (tc : Toolchain) (env : TargetEnv)
    (config : TargetConfig := msvcDynamic) : Option Made :=
  (makeTarget p name .dynamicLibrary tc env config).map defaultMsvcOptions

/-- `kGenericCopyOptions` (`target_generic.h:31-36`). -/
def genericCopyOptions : List SyncOption :=
  [.commonCompileFlags, .pchCompileFlags, .pchObjectFlags, .asmCompileFlags, .cCompileFlags,
   .cppCompileFlags, .linkFlags]

/-- `GenericConfig::Executable` (`target_generic.h:60-62`, `71-90`). -/
def genericExecutableConfig : ToolchainId → Option TargetConfig
  | .gcc => some gccExe
  | .msvc => some msvcExe
  | .mingw => some mingwExe
  | _ => none

/-- `GenericConfig::StaticLib` (`target_generic.h:63-65`, `92-111`). -/
def genericStaticConfig : ToolchainId → Option TargetConfig
  | .gcc => some gccStatic
  | .msvc => some msvcStatic
  | .mingw => some mingwStatic
  | _ => none

/-- `GenericConfig::DynamicLib` (`target_generic.h:66-68`, `113-132`). -/
def genericDynamicConfig : ToolchainId → Option TargetConfig
  | .gcc => some gccDynamic
  | .msvc => some msvcDynamic
  | .mingw => some mingwDynamic
  | _ => none

/-- `GenericConfig::Generic` (`target_generic.h:40-58`). -/
def genericConfig (type : TargetType) (id : ToolchainId) : Option TargetConfig :=
  match type with
  | .executable => genericExecutableConfig id
  | .staticLibrary => genericStaticConfig id
  | .dynamicLibrary => genericDynamicConfig id
  | _ => none

/-- `config.value_or(f(…))`: the argument is evaluated also when a configuration is given
(`target_generic.h:141`, `167`, `192`, `218`). -/
def valueOr (config : Option TargetConfig) (default : Option TargetConfig) :
    Option TargetConfig :=
  match default with
  | none => none
  | some d => some (config.getD d)

/-- `Copy(other, options)` on a temporary target (`target_generic.h:144`): a copy by move,
`junk` is what the moves leave in the temporary. -/
def Made.copyFrom (m : Made) (junk : Nat → TargetSchema) (other : Made) : Made :=
  { m with info := (copyMove junk 0 m.info other.info genericCopyOptions).1 }

/-- A target and the temporary target that its flags are copied from. -/
def madeWith (junk : Nat → TargetSchema) (m : Option Made) (other : Option Made) : Option Made :=
  match m with
  | none => none
  | some m =>
    match other with
    | none => none
    | some o => some (m.copyFrom junk o)

/-- `ExecutableTarget_generic` (`target_generic.h:135-159`). -/
def executableGeneric (junk : Nat → TargetSchema) (p : Project) (name : Str) (tc : Toolchain)
    (env : TargetEnv) (config : Option TargetConfig := none) : Option Made :=
  match valueOr config (genericExecutableConfig tc.id) with
  | none => none
  | some c =>
    madeWith junk (makeTarget p name .executable tc env c)
      (match tc.id with
       | .gcc => executableGcc p name tc env
       | .msvc => executableMsvc p name tc env
       | .mingw => executableMingw p name tc env
       | _ => none)

/-- `StaticTarget_generic` (`target_generic.h:161-184`). -/
def staticGeneric (junk : Nat → TargetSchema) (p : Project) (name : Str) (tc : Toolchain)
    (env : TargetEnv) (config : Option TargetConfig := none) : Option Made :=
  match valueOr config (genericStaticConfig tc.id) with
  | none => none
  | some c =>
    madeWith junk (makeTarget p name .staticLibrary tc env c)
      (match tc.id with
       | .gcc => staticGcc p name tc env
       | .msvc => staticMsvc p name tc env
       | .mingw => staticMingw p name tc env
       | _ => none)

/-- `DynamicTarget_generic` (`target_generic.h:186-209`). -/
def dynamicGeneric (junk : Nat → TargetSchema) (p : Project) (name : Str) (tc : Toolchain)
    (env : TargetEnv) (config : Option TargetConfig := none) : Option Made :=
  match valueOr config (genericDynamicConfig tc.id) with
  | none => none
  | some c =>
    madeWith junk (makeTarget p name .dynamicLibrary tc env c)
      (match tc.id with
       | .gcc => dynamicGcc p name tc env
       | .msvc => dynamicMsvc p name tc env
       | .mingw => dynamicMingw p name tc env
       | _ => none)

/-- `Target_generic` (`target_generic.h:211-234`). -/
def targetGeneric (junk : Nat → TargetSchema) (p : Project) (name : Str) (type : TargetType)
    (tc : Toolchain) (env : TargetEnv) (config : Option TargetConfig := none) : Option Made :=
  match valueOr config (genericConfig type tc.id) with
  | none => none
  | some c =>
    madeWith junk (makeTarget p name type tc env c)
      (match type with
       | .executable => executableGeneric junk p name tc env
       | .staticLibrary => staticGeneric junk p name tc env
       | .dynamicLibrary => dynamicGeneric junk p name tc env
       | _ => none)

end Verif.Target
