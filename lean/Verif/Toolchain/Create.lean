import Verif.Env.Storage
import Verif.Toolchain.Find

/-! # Model of the constructors of toolchains and of `Toolchain_generic::New` -/

namespace Verif.Toolchain
open Verif Verif.Env Verif.Target

/-- `ToolchainId` (`toolchain_id.h:24-31`). -/
inductive ToolchainId where
  | gcc | msvc | clang | mingw | custom | undefined
deriving DecidableEq, Repr

/-- `Toolchain::UserSchema` (`toolchain.h:74-83`). -/
structure Flags where
  preprocessorFlags : List Str := []
  commonCompileFlags : List Str := []
  pchCompileFlags : List Str := []
  pchObjectFlags : List Str := []
  asmCompileFlags : List Str := []
  cCompileFlags : List Str := []
  cppCompileFlags : List Str := []
  linkFlags : List Str := []
deriving DecidableEq, Repr

/-- The callbacks that report the version of a compiler (`toolchain_infos.cpp:63-78`,
`118-131`, `135-143`). -/
inductive InfoKind where
  | none | gcc | msvc | error
deriving DecidableEq, Repr

/-- `Toolchain` (`toolchain.h:90-96`), with the callback of `ToolchainVerify`
(`toolchain_verify.h:81`). -/
structure Toolchain where
  id : ToolchainId
  name : Str
  executables : Executables
  config : Config
  user : Flags := {}
  infoCb : InfoKind := .none
deriving DecidableEq, Repr

/-- The constructor of `Toolchain` (`toolchain.h:40-43`). -/
def Toolchain.base (id : ToolchainId) (name : Str) (executables : Executables)
    (config : Config := {}) : Toolchain := { id, name, executables, config }

/-- `GetGccToolchainConfig` (`toolchain_infos.cpp:31-39`). -/
def gccConfig : Config :=
  { ({} : Config) with
    objExt := b!".o", pchHeaderExt := b!".h", pchCompileExt := b!".gch"
    prefixIncludeDir := b!"-I", prefixLibDir := b!"-L" }

/-- `GetMsvcToolchainConfig` (`toolchain_infos.cpp:87-95`). -/
def msvcConfig : Config :=
  { ({} : Config) with
    objExt := b!".obj", pchHeaderExt := b!".h", pchCompileExt := b!".pch"
    prefixIncludeDir := b!"/I", prefixLibDir := b!"/LIBPATH:" }

/-- `GlobalToolchainMetadata::GetConfig` (`toolchain_infos.cpp:149-168`); every id has an
entry. -/
def globalConfig : ToolchainId → Config
  | .gcc => gccConfig
  | .mingw => gccConfig
  | .clang => gccConfig
  | .msvc => msvcConfig
  | .custom => {}
  | .undefined => {}

/-- `GlobalToolchainMetadata::GetInfoCb` (`toolchain_infos.cpp:149-163`, `169-172`). -/
def globalInfo : ToolchainId → InfoKind
  | .gcc => .gcc
  | .mingw => .gcc
  | .clang => .gcc
  | .msvc => .msvc
  | .custom => .error
  | .undefined => .error

/-- `Toolchain_gcc::Initialize`, `Toolchain_mingw::Initialize` (`toolchain_gcc.cpp:26-34`),
`Toolchain_msvc::Initialize` (`toolchain_msvc.cpp:23-26`), `Toolchain_custom::Initialize`
(`toolchain_aggregate.cpp:45-49`). -/
def Toolchain.initialize (t : Toolchain) (id : ToolchainId) : Toolchain :=
  { t with config := globalConfig id, infoCb := globalInfo id }

/-- `Toolchain_gcc` (`toolchain_gcc.h:37-45`). -/
def toolchainGcc (name : Str) (opExe : Option Executables) (opConfig : Option Config) : Toolchain :=
  (Toolchain.base .gcc name (opExe.getD ⟨b!"as", b!"gcc", b!"g++", b!"ar", b!"ld"⟩)
    (opConfig.getD {})).initialize .gcc

/-- `Toolchain_mingw` (`toolchain_mingw.h:39-48`). -/
def toolchainMingw (name : Str) (opExe : Option Executables) (opConfig : Option Config) :
    Toolchain :=
  (Toolchain.base .mingw name (opExe.getD ⟨b!"as", b!"gcc", b!"g++", b!"ar", b!"ld"⟩)
    (opConfig.getD {})).initialize .mingw

/-- `Toolchain_msvc` (`toolchain_msvc.h:37-45`). -/
def toolchainMsvc (name : Str) (opExe : Option Executables) (opConfig : Option Config) :
    Toolchain :=
  (Toolchain.base .msvc name (opExe.getD ⟨b!"cl", b!"cl", b!"cl", b!"lib", b!"link"⟩)
    (opConfig.getD {})).initialize .msvc

/-- `Toolchain_custom` (`toolchain_custom.h:27-33`). -/
def toolchainCustom (id : ToolchainId) (name : Str) (exe : Executables)
    (opConfig : Option Config) : Toolchain :=
  (Toolchain.base id name exe (opConfig.getD {})).initialize id

/-- `AddIf` (`toolchain_aggregate.cpp:31-39`): the object that was added and the new storage,
or `none` for a null pointer. -/
def addIf (s : Storage) (identifier typeName : Str) (t : Toolchain) :
    Option (Toolchain × Nat × Storage) :=
  if s.contains identifier then none
  else some (t, (s.add identifier typeName).1, (s.add identifier typeName).2)

/-- `Toolchain_generic::New` (`toolchain_aggregate.cpp:51-82`): the toolchain, its object in
the storage and the storage; `none` is fatal. -/
def newToolchain (s : Storage) (id : ToolchainId) (identifier : Str)
    (opExe : Option Executables) (opConfig : Option Config) :
    Option (Toolchain × Nat × Storage) :=
  match id with
  | .gcc => addIf s identifier b!"Toolchain_gcc" (toolchainGcc identifier opExe opConfig)
  | .msvc => addIf s identifier b!"Toolchain_msvc" (toolchainMsvc identifier opExe opConfig)
  | .mingw => addIf s identifier b!"Toolchain_mingw" (toolchainMingw identifier opExe opConfig)
  | .clang | .custom =>
    match opExe with
    | none => none
    | some exe =>
      addIf s identifier b!"Toolchain_custom" (toolchainCustom id identifier exe opConfig)
  | .undefined => none

end Verif.Toolchain
