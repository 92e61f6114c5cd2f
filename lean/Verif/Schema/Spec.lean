import Verif.Schema.Model

/-! # Vocabulary for the properties of stored state -/

namespace Verif.Schema
open Verif Verif.Json

/-- The strings of a list of path infos. -/
def infoStrings (l : List PathInfo) : List Str := l.flatMap fun i => [i.path, i.hash]

/-- All strings held by a target state. -/
def TargetSchema.strings (s : TargetSchema) : List Str :=
  s.name :: (infoStrings s.sources ++ infoStrings s.headers ++ infoStrings s.pchs
    ++ infoStrings s.libs ++ s.externalLibs ++ s.includeDirs ++ s.libDirs
    ++ s.preprocessorFlags ++ s.commonCompileFlags ++ s.pchCompileFlags ++ s.pchObjectFlags
    ++ s.asmCompileFlags ++ s.cCompileFlags ++ s.cppCompileFlags ++ s.linkFlags
    ++ infoStrings s.compileDeps ++ infoStrings s.linkDeps)

/-- All strings held by a generator state. -/
def GenSchema.strings (s : GenSchema) : List Str :=
  s.name :: s.ids.flatMap fun (k, i) => k :: (infoStrings i.inputs ++ i.outputs)

/-- The string is the UTF-8 encoding of a sequence of characters. -/
def Utf8 (s : Str) : Prop := ∃ cs : List Char, s = cs.flatMap String.utf8EncodeChar

/-- Every string is well-formed UTF-8. -/
def AllUtf8 (l : List Str) : Prop := ∀ s ∈ l, Utf8 s

/-- Two lists of the same length, related element by element. -/
inductive Each {α β : Type} (R : α → β → Prop) : List α → List β → Prop where
  | nil : Each R [] []
  | cons {a b l m} : R a b → Each R l m → Each R (a :: l) (b :: m)

/-- The value is a JSON string holding `s`. -/
def IsStr (v : JVal) (s : Str) : Prop := v = .str s
/-- The value is a JSON boolean. -/
def IsBool (v : JVal) (b : Bool) : Prop := v = .bool b
/-- The value is a JSON array of strings. -/
def IsStrs (v : JVal) (l : List Str) : Prop := ∃ a, v = .arr a ∧ Each IsStr a l
/-- The member `k` of the object is there and related to `x`. -/
def Has {β : Type} (o : List (Str × JVal)) (k : Str) (R : JVal → β → Prop) (x : β) : Prop :=
  ∃ v, lookup k o = some v ∧ R v x
/-- The value is an object with a string `path` and a string `hash`. -/
def IsInfo (v : JVal) (i : PathInfo) : Prop :=
  ∃ o, v = .obj o ∧ Has o b!"path" IsStr i.path ∧ Has o b!"hash" IsStr i.hash
/-- The value is an array of path infos. -/
def IsInfos (v : JVal) (l : List PathInfo) : Prop := ∃ a, v = .arr a ∧ Each IsInfo a l
/-- The value stands for a target type; unknown values stand for `undefined`. -/
def IsType (v : JVal) (t : TargetType) : Prop :=
  (v = .str b!"executable" ∧ t = .executable) ∨
  (v = .str b!"static_library" ∧ t = .staticLibrary) ∨
  (v = .str b!"dynamic_library" ∧ t = .dynamicLibrary) ∨
  (v ≠ .str b!"executable" ∧ v ≠ .str b!"static_library" ∧ v ≠ .str b!"dynamic_library" ∧
    t = .undefined)

/-- Every field of the target schema is present in the object with its type. -/
structure HoldsTarget (o : List (Str × JVal)) (s : TargetSchema) : Prop where
  name : Has o b!"name" IsStr s.name
  type : Has o b!"type" IsType s.type
  sources : Has o b!"sources" IsInfos s.sources
  headers : Has o b!"headers" IsInfos s.headers
  pchs : Has o b!"pchs" IsInfos s.pchs
  libs : Has o b!"libs" IsInfos s.libs
  externalLibs : Has o b!"external_libs" IsStrs s.externalLibs
  includeDirs : Has o b!"include_dirs" IsStrs s.includeDirs
  libDirs : Has o b!"lib_dirs" IsStrs s.libDirs
  preprocessorFlags : Has o b!"preprocessor_flags" IsStrs s.preprocessorFlags
  commonCompileFlags : Has o b!"common_compile_flags" IsStrs s.commonCompileFlags
  pchCompileFlags : Has o b!"pch_compile_flags" IsStrs s.pchCompileFlags
  pchObjectFlags : Has o b!"pch_object_flags" IsStrs s.pchObjectFlags
  asmCompileFlags : Has o b!"asm_compile_flags" IsStrs s.asmCompileFlags
  cCompileFlags : Has o b!"c_compile_flags" IsStrs s.cCompileFlags
  cppCompileFlags : Has o b!"cpp_compile_flags" IsStrs s.cppCompileFlags
  linkFlags : Has o b!"link_flags" IsStrs s.linkFlags
  compileDeps : Has o b!"compile_dependencies" IsInfos s.compileDeps
  linkDeps : Has o b!"link_dependencies" IsInfos s.linkDeps
  pchCompiled : Has o b!"pch_compiled" IsBool s.pchCompiled
  targetLinked : Has o b!"target_linked" IsBool s.targetLinked

/-- The value is a number or boolean that nlohmann converts to the byte. -/
def IsByte (v : JVal) (b : UInt8) : Prop :=
  (∃ n, v = .num (.uint n) ∧ b = UInt8.ofNat n) ∨
  (∃ n, v = .num (.nint n) ∧ b = 0 - UInt8.ofNat n) ∨
  (∃ s, v = .num (.flt s) ∧ b = floatByte s) ∨
  (v = .bool true ∧ b = 1) ∨ (v = .bool false ∧ b = 0)

/-- The value is an object with `inputs`, `outputs` and `userblob`. -/
def IsIdInfo (v : JVal) (i : IdInfo) : Prop :=
  ∃ o, v = .obj o ∧ Has o b!"inputs" IsInfos i.inputs ∧ Has o b!"outputs" IsStrs i.outputs ∧
    Has o b!"userblob" (fun v l => ∃ a, v = .arr a ∧ Each IsByte a l) i.userblob

/-- Every field of the generator schema is present with its type. -/
structure HoldsGen (o : List (Str × JVal)) (s : GenSchema) : Prop where
  name : Has o b!"name" IsStr s.name
  ids : Has o b!"ids" (fun v l => ∃ a, v = .obj a ∧
    Each (fun p q => p.1 = q.1 ∧ IsIdInfo p.2 q.2) a l) s.ids

end Verif.Schema
