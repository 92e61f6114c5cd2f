import Verif.Json.Model

/-!
# Model of the stored state

`buildcc/schema/include/schema/{path,target_type,target_schema,custom_generator_schema}.h`
and `buildcc/schema/src/{target,custom_generator}_serialization.cpp`.

`to_json`/`from_json` are modelled as functions from and to `JVal`; `none` is a
thrown `json::exception` (caught by `Load`, see `loadTarget`).
-/

namespace Verif.Schema
open Verif Verif.Json

/-! ## Data -/

/-- `PathInfo` (`path.h:38-97`). -/
structure PathInfo where
  path : Str
  hash : Str
deriving DecidableEq, Repr

/-- `TargetType` (`target_type.h:26-31`). -/
inductive TargetType where
  | executable
  | staticLibrary
  | dynamicLibrary
  | undefined
deriving DecidableEq, Repr

/-- `TargetSchema` (`target_schema.h:28-60`).  `PathInfoList` and `PathList` are
their only field, a vector (`path.h:102-145`, `path.h:151-231`). -/
structure TargetSchema where
  name : Str
  type : TargetType
  sources : List PathInfo
  headers : List PathInfo
  pchs : List PathInfo
  libs : List PathInfo
  externalLibs : List Str
  includeDirs : List Str
  libDirs : List Str
  preprocessorFlags : List Str
  commonCompileFlags : List Str
  pchCompileFlags : List Str
  pchObjectFlags : List Str
  asmCompileFlags : List Str
  cCompileFlags : List Str
  cppCompileFlags : List Str
  linkFlags : List Str
  compileDeps : List PathInfo
  linkDeps : List PathInfo
  pchCompiled : Bool
  targetLinked : Bool
deriving DecidableEq, Repr

/-- A default constructed `TargetSchema` (`target_schema.h:28-60`). -/
def TargetSchema.empty : TargetSchema where
  name := []
  type := .undefined
  sources := []
  headers := []
  pchs := []
  libs := []
  externalLibs := []
  includeDirs := []
  libDirs := []
  preprocessorFlags := []
  commonCompileFlags := []
  pchCompileFlags := []
  pchObjectFlags := []
  asmCompileFlags := []
  cCompileFlags := []
  cppCompileFlags := []
  linkFlags := []
  compileDeps := []
  linkDeps := []
  pchCompiled := false
  targetLinked := false

/-- `CustomGeneratorSchema::IdInfo` (`custom_generator_schema.h:33-56`). -/
structure IdInfo where
  inputs : List PathInfo
  outputs : List Str
  userblob : List UInt8
deriving DecidableEq, Repr

/-- `CustomGeneratorSchema` (`custom_generator_schema.h:26-72`).  The
`unordered_map` of ids is a list with distinct keys, in iteration order. -/
structure GenSchema where
  name : Str
  ids : List (Str × IdInfo)
deriving DecidableEq, Repr

/-! ## `to_json` -/

/-- `to_json(json&, const std::vector<std::string>&)` (nlohmann). -/
def strsJ (l : List Str) : JVal := .arr (l.map .str)

/-- `to_json(json&, const PathInfo&)` (`path.h:85-88`). -/
def pathInfoJ (i : PathInfo) : JVal :=
  .obj [(b!"path", .str i.path), (b!"hash", .str i.hash)]

/-- `to_json(json&, const PathInfoList&)` (`path.h:223`). -/
def pathInfosJ (l : List PathInfo) : JVal := .arr (l.map pathInfoJ)

/-- `kTargetTypeInfo` (`target_type.h:33-38`). -/
def typeName : TargetType → Option Str
  | .executable => some b!"executable"
  | .staticLibrary => some b!"static_library"
  | .dynamicLibrary => some b!"dynamic_library"
  | .undefined => none

/-- `to_json(JsonType&, TargetType)` (`target_type.h:40-48`). -/
def typeJ (t : TargetType) : JVal :=
  match typeName t with
  | some s => .str s
  | none => .null

/-- `to_json(json&, const TargetSchema&)` (`target_schema.h:91-114`). -/
def targetJ (s : TargetSchema) : JVal := .obj [
  (b!"name", .str s.name),
  (b!"type", typeJ s.type),
  (b!"sources", pathInfosJ s.sources),
  (b!"headers", pathInfosJ s.headers),
  (b!"pchs", pathInfosJ s.pchs),
  (b!"libs", pathInfosJ s.libs),
  (b!"external_libs", strsJ s.externalLibs),
  (b!"include_dirs", strsJ s.includeDirs),
  (b!"lib_dirs", strsJ s.libDirs),
  (b!"preprocessor_flags", strsJ s.preprocessorFlags),
  (b!"common_compile_flags", strsJ s.commonCompileFlags),
  (b!"pch_compile_flags", strsJ s.pchCompileFlags),
  (b!"pch_object_flags", strsJ s.pchObjectFlags),
  (b!"asm_compile_flags", strsJ s.asmCompileFlags),
  (b!"c_compile_flags", strsJ s.cCompileFlags),
  (b!"cpp_compile_flags", strsJ s.cppCompileFlags),
  (b!"link_flags", strsJ s.linkFlags),
  (b!"compile_dependencies", pathInfosJ s.compileDeps),
  (b!"link_dependencies", pathInfosJ s.linkDeps),
  (b!"pch_compiled", .bool s.pchCompiled),
  (b!"target_linked", .bool s.targetLinked)]

/-- `to_json(json&, const std::vector<uint8_t>&)`: an array of numbers (nlohmann
keeps its binary type for `json::binary_t` only). -/
def blobJ (l : List UInt8) : JVal := .arr (l.map fun b => .num (.uint b.toNat))

/-- `to_json(json&, const IdInfo&)` (`custom_generator_schema.h:44-48`). -/
def idInfoJ (i : IdInfo) : JVal := .obj [
  (b!"inputs", pathInfosJ i.inputs),
  (b!"outputs", strsJ i.outputs),
  (b!"userblob", blobJ i.userblob)]

/-- `to_json(json&, const CustomGeneratorSchema&)`
(`custom_generator_schema.h:62-65`). -/
def genJ (s : GenSchema) : JVal := .obj [
  (b!"name", .str s.name),
  (b!"ids", .obj (s.ids.map fun (k, i) => (k, idInfoJ i)))]

/-! ## `from_json` -/

/-- Look a key up in a list of members. -/
def lookup (k : Str) : List (Str × JVal) → Option JVal
  | [] => none
  | (k', v) :: l => if k' = k then some v else lookup k l

/-- `j.at(key)`: throws when `j` is not an object (`type_error.304`) or has no
such key (`out_of_range.403`). -/
def at? (j : JVal) (k : Str) : Option JVal :=
  match j with
  | .obj l => lookup k l
  | _ => none

/-- `j.at(key).get_to(x)` with the conversion `g` of the type of `x`. -/
def field {α : Type} (j : JVal) (k : Str) (g : JVal → Option α) : Option α := (at? j k).bind g

/-- `get_to(std::string&)`: throws `type_error.302` unless a string. -/
def getStr : JVal → Option Str
  | .str s => some s
  | _ => none

/-- `get_to(bool&)`. -/
def getBool : JVal → Option Bool
  | .bool b => some b
  | _ => none

/-- `get_to(std::vector<T>&)`: throws unless an array; converts every element. -/
def getArr {α : Type} (f : JVal → Option α) : JVal → Option (List α)
  | .arr l => l.mapM f
  | _ => none

/-- `from_json(const json&, PathInfo&)` (`path.h:90-93`). -/
def getPathInfo (j : JVal) : Option PathInfo := do
  let p ← field j b!"path" getStr
  let h ← field j b!"hash" getStr
  pure ⟨p, h⟩

/-- `from_json(const JsonType&, TargetType&)` (`target_type.h:50-63`): never
throws; anything unknown is `Undefined`. -/
def getType : JVal → TargetType
  | .str s =>
    if s = b!"executable" then .executable
    else if s = b!"static_library" then .staticLibrary
    else if s = b!"dynamic_library" then .dynamicLibrary
    else .undefined
  | _ => .undefined

/-- `from_json(const json&, TargetSchema&)` (`target_schema.h:116-139`). -/
def getTarget (j : JVal) : Option TargetSchema := do
  let name ← field j b!"name" getStr
  let type ← at? j b!"type"
  let sources ← field j b!"sources" (getArr getPathInfo)
  let headers ← field j b!"headers" (getArr getPathInfo)
  let pchs ← field j b!"pchs" (getArr getPathInfo)
  let libs ← field j b!"libs" (getArr getPathInfo)
  let externalLibs ← field j b!"external_libs" (getArr getStr)
  let includeDirs ← field j b!"include_dirs" (getArr getStr)
  let libDirs ← field j b!"lib_dirs" (getArr getStr)
  let preprocessorFlags ← field j b!"preprocessor_flags" (getArr getStr)
  let commonCompileFlags ← field j b!"common_compile_flags" (getArr getStr)
  let pchCompileFlags ← field j b!"pch_compile_flags" (getArr getStr)
  let pchObjectFlags ← field j b!"pch_object_flags" (getArr getStr)
  let asmCompileFlags ← field j b!"asm_compile_flags" (getArr getStr)
  let cCompileFlags ← field j b!"c_compile_flags" (getArr getStr)
  let cppCompileFlags ← field j b!"cpp_compile_flags" (getArr getStr)
  let linkFlags ← field j b!"link_flags" (getArr getStr)
  let compileDeps ← field j b!"compile_dependencies" (getArr getPathInfo)
  let linkDeps ← field j b!"link_dependencies" (getArr getPathInfo)
  let pchCompiled ← field j b!"pch_compiled" getBool
  let targetLinked ← field j b!"target_linked" getBool
  pure { name, type := getType type, sources, headers, pchs, libs, externalLibs, includeDirs,
         libDirs, preprocessorFlags, commonCompileFlags, pchCompileFlags, pchObjectFlags,
         asmCompileFlags, cCompileFlags, cppCompileFlags, linkFlags, compileDeps, linkDeps,
         pchCompiled, targetLinked }

/-- `static_cast<uint8_t>` of a floating point number (undefined behaviour when
out of range): left unspecified. -/
opaque floatByte : Str → UInt8

/-- `get_to(uint8_t&)`: nlohmann converts any number, and booleans. -/
def getByte : JVal → Option UInt8
  | .num (.uint n) => some (UInt8.ofNat n)
  | .num (.nint n) => some (0 - UInt8.ofNat n)
  | .num (.flt s) => some (floatByte s)
  | .bool b => some (if b then 1 else 0)
  | _ => none

/-- `from_json(const json&, IdInfo&)` (`custom_generator_schema.h:50-54`). -/
def getIdInfo (j : JVal) : Option IdInfo := do
  let inputs ← field j b!"inputs" (getArr getPathInfo)
  let outputs ← field j b!"outputs" (getArr getStr)
  let userblob ← field j b!"userblob" (getArr getByte)
  pure { inputs, outputs, userblob }

/-- `get_to(std::unordered_map<IdKey, IdInfo>&)`. -/
def getIds : JVal → Option (List (Str × IdInfo))
  | .obj l => l.mapM fun (k, v) => (getIdInfo v).map fun i => (k, i)
  | _ => none

/-- `from_json(const json&, CustomGeneratorSchema&)`
(`custom_generator_schema.h:67-70`). -/
def getGen (j : JVal) : Option GenSchema := do
  let name ← field j b!"name" getStr
  let ids ← field j b!"ids" getIds
  pure { name, ids }

/-! ## Serialization -/

/-- Text written by `TargetSerialization::Store`
(`target_serialization.cpp:68-73`); `none` when `dump` throws, which happens
before the file is opened. -/
def targetText (s : TargetSchema) : Option Str := dump (targetJ s)

/-- `TargetSerialization::Load` (`target_serialization.cpp:53-66`) on the content
of the file: `none` means it returned false and `load_` kept its value. -/
def loadTarget (b : Str) : Option TargetSchema := (parse b).bind getTarget

/-- Text written by `CustomGeneratorSerialization::Store`
(`custom_generator_serialization.cpp:44-50`). -/
def genText (s : GenSchema) : Option Str := dump (genJ s)

/-- `CustomGeneratorSerialization::Load` (`custom_generator_serialization.cpp:29-42`). -/
def loadGen (b : Str) : Option GenSchema := (parse b).bind getGen

/-! ## Files -/

/-- `env::load_file(name, true, &buf)` (`env/util.h:76-109`): a missing file (or a
directory) gives `false`.  `none` is "not there". -/
def loadFile (f : Option Str) : Option Str := f

/-- Outcome of `StoreToFile`: an exception, `false`, or `true`. -/
inductive StoreResult where
  | threw | failed | stored
deriving DecidableEq, Repr

/-- `Store` on a file system where opening for writing succeeds or not:
`dump` throws first; `save_file` (`env/util.h:50-67`) returns false without
touching the file when it cannot be opened; otherwise the file is replaced. -/
def storeText (text : Option Str) (canOpen : Bool) (old : Option Str) :
    StoreResult × Option Str :=
  match text with
  | none => (.threw, old)
  | some t => if canOpen then (.stored, some t) else (.failed, old)

/-- `SerializationInterface::LoadFromFile` (`serialization_interface.h:37-55`) for
a target. -/
def loadTargetFile (f : Option Str) : Option TargetSchema := (loadFile f).bind loadTarget

/-- `SerializationInterface::LoadFromFile` for a generator. -/
def loadGenFile (f : Option Str) : Option GenSchema := (loadFile f).bind loadGen

/-! ## `TargetSerialization` updates -/

/-- `UpdatePchCompiled` (`target_serialization.cpp:22-25`). -/
def updatePchCompiled (store user : TargetSchema) : TargetSchema :=
  { store with pchs := user.pchs, pchCompiled := true }

/-- `AddSource` (`target_serialization.cpp:28-32`).  The path was normalised when
it was added to the target; `Emplace` normalises it again, which changes nothing
(C20). -/
def addSource (store : TargetSchema) (path hash : Str) : TargetSchema :=
  { store with sources := store.sources ++ [⟨path, hash⟩] }

/-- `UpdateTargetCompiled` (`target_serialization.cpp:34-36`). -/
def updateTargetCompiled (store : TargetSchema) : TargetSchema :=
  { store with targetLinked := true }

/-- `UpdateStore` (`target_serialization.cpp:38-45`). -/
def updateStore (store user : TargetSchema) : TargetSchema :=
  { user with
    pchs := store.pchs
    pchCompiled := store.pchCompiled
    sources := store.sources
    targetLinked := store.targetLinked }

end Verif.Schema
