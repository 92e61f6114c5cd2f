import Verif.Str.Basic

/-!
# Model of the paths used by the library

POSIX `std::filesystem::path` (libstdc++), where the native form is the byte
string itself, and the functions of /repo that build paths.
`make_preferred` does nothing on POSIX.
-/

namespace Verif.Path
open Verif

/-- The separator. -/
abbrev slash : UInt8 := c!"/"

/-- Split at every separator; `"a//b/"` gives `["a", "", "b", ""]`. -/
def splitSlash : Str → List Str
  | [] => [[]]
  | b :: r =>
    if b = slash then [] :: splitSlash r
    else
      match splitSlash r with
      | [] => [[b]]
      | c :: cs => (b :: c) :: cs

/-- Inverse of `splitSlash`. -/
def joinSlash : List Str → Str
  | [] => []
  | [c] => c
  | c :: cs => c ++ slash :: joinSlash cs

/-- `path::is_absolute` on POSIX. -/
def isAbs (s : Str) : Bool :=
  match s with
  | [] => false
  | b :: _ => b = slash

abbrev dot : Str := b!"."
abbrev dotdot : Str := b!".."

/-- Working state of `lexically_normal`: the components kept so far (last first)
and whether the text read so far ends in a separator. -/
structure NState where
  stack : List Str
  trail : Bool
deriving DecidableEq, Repr

/-- One component of the input of `lexically_normal`. -/
def nstep (abs : Bool) (st : NState) (c : Str) : NState :=
  if c = [] ∨ c = dot then { st with trail := true }
  else if c = dotdot then
    match st.stack with
    | top :: rest => if top = dotdot then ⟨c :: st.stack, false⟩ else ⟨rest, true⟩
    | [] => if abs then ⟨[], true⟩ else ⟨[c], false⟩
  else ⟨c :: st.stack, false⟩

/-- Text of a normalised path. -/
def render (abs : Bool) (st : NState) : Str :=
  match st.stack with
  | [] => if abs then [slash] else dot
  | top :: _ =>
    (if abs then [slash] else []) ++ joinSlash st.stack.reverse
      ++ (if st.trail ∧ top ≠ dotdot then [slash] else [])

/-- `path::lexically_normal` ([fs.path.generic] normal form): drop `.` and empty
components, resolve `name/..`, drop `..` after the root, keep a final separator
except after `..`; an empty result becomes `.`. -/
def lexNormal (s : Str) : Str :=
  if s = [] then []
  else render (isAbs s) ((splitSlash s).foldl (nstep (isAbs s)) ⟨[], false⟩)

/-- `PathInfo::ToPathString`, `path_as_string` (`path.h:59-61`, `path.h:237-239`). -/
def toPathString (s : Str) : Str := lexNormal s

/-- `PathInfo::ToPathDisplayString`, `path_as_display_string` and the
`fmt::formatter<fs::path>` (`path.h:76-83`, `path.h:241-243`, `path.h:253-259`). -/
def displayString (s : Str) : Str :=
  let p := toPathString s
  if c!" " ∈ p then c!"\"" :: (p ++ [c!"\""]) else p

/-! ## Decomposition -/

/-- Everything up to and including the last separator, and the rest
(`remove_filename` and `filename`). -/
def splitFile : Str → Str × Str
  | [] => ([], [])
  | b :: r =>
    let (d, f) := splitFile r
    if d = [] then if b = slash then ([b], f) else ([], b :: f)
    else (b :: d, f)

def dirPart (s : Str) : Str := (splitFile s).1
def filename (s : Str) : Str := (splitFile s).2

/-- `path::operator/` on POSIX. -/
def append (p q : Str) : Str :=
  if isAbs q then q
  else if filename p = [] then p ++ q
  else p ++ slash :: q

/-- `path::parent_path` of a path with a file name ([fs.path.decompose]): without the file name
and the separators before it, except for the root. -/
def parentPath (p : Str) : Str :=
  match ((dirPart p).reverse.dropWhile (· = slash)).reverse with
  | [] => if dirPart p = [] then [] else [slash]
  | d => d

/-- `path::replace_filename`. -/
def replaceFilename (p f : Str) : Str := append (dirPart p) f

/-- Extension of a path: from the last dot of the filename, unless the filename
is `.` or `..` or its only dot is the first byte (`path::extension`). -/
def lastDot : Str → Option (Str × Str)
  | [] => none
  | b :: r =>
    match lastDot r with
    | some (s, e) => some (b :: s, e)
    | none => if b = c!"." then some ([], b :: r) else none

def stemExt (f : Str) : Str × Str :=
  if f = dot ∨ f = dotdot then (f, [])
  else
    match lastDot f with
    | some ([], _) => (f, [])
    | some (s, e) => (s, e)
    | none => (f, [])

def stem (p : Str) : Str := (stemExt (filename p)).1
def extension (p : Str) : Str := (stemExt (filename p)).2

/-- `path::replace_extension(ext)`: the extension is removed, then `ext` is
appended with a dot added when it is not empty and does not start with one. -/
def replaceExtension (p e : Str) : Str :=
  dirPart p ++ stem p ++
    (match e with
     | [] => []
     | b :: _ => if b = c!"." then e else c!"." :: e)

/-- Elements of the path iterator: the root directory, the names, and an empty
element for a final separator (`path::begin`). -/
def elems (s : Str) : List Str :=
  let names := (splitSlash s).filter (· ≠ [])
  (if isAbs s then [[slash]] else []) ++ names
    ++ (if names ≠ [] ∧ filename s = [] then [[]] else [])

/-- Drop the common prefix of two element lists (`std::mismatch`). -/
def mismatch : List Str → List Str → List Str × List Str
  | a :: l, b :: m => if a = b then mismatch l m else (a :: l, b :: m)
  | l, m => (l, m)

/-- Count of the elements of `base` to climb: names minus `..`
(`path::lexically_relative`). -/
def climb (l : List Str) : Int :=
  l.foldl (fun n e =>
    if e = dotdot then n - 1
    else if e = [] ∨ e = dot then n
    else n + 1) 0

/-- `path / elem / elem …` starting from an empty path. -/
def appendAll (l : List Str) : Str := l.foldl append []

/-- `path::lexically_relative` (libstdc++ `fs_path.cc`). -/
def lexRelative (p base : Str) : Str :=
  if isAbs p ≠ isAbs base then []
  else
    let (a, b) := mismatch (elems p) (elems base)
    if a = [] ∧ b = [] then dot
    else
      let n := climb b
      if n < 0 then []
      else if n = 0 ∧ (a = [] ∨ a.head? = some []) then dot
      else appendAll (List.replicate n.toNat dotdot ++ a)

/-! ## Paths of /repo -/

/-- The string contains `".."` (`relstr.find("..")`). -/
def hasDotDot : Str → Bool
  | a :: b :: r => (a = c!"." && b = c!".") || hasDotDot (b :: r)
  | _ => false

/-- `std::replace(relstr.begin(), relstr.end(), '.', '_')`. -/
def dotsToUnderscores (s : Str) : Str := s.map fun b => if b = c!"." then c!"_" else b

/-- `CompileObject::ConstructObjectPath` (`compile_object.cpp:109-164`). -/
def objectPath (root build objExt source : Str) : Str :=
  let rel := lexRelative source root
  let rel := if hasDotDot rel then dotsToUnderscores rel else rel
  replaceFilename (append build rel) (filename source ++ objExt)

/-- Build directory of a target: `env.GetTargetBuildDir() / toolchain.GetName() /
name` (`target.h:68-71`). -/
def targetBuildDir (envBuild toolchain name : Str) : Str :=
  append (append envBuild toolchain) name

/-- State file of a target: `build dir / "{name}.bin"` (`target.h:73`). -/
def targetStateFile (envBuild toolchain name : Str) : Str :=
  append (targetBuildDir envBuild toolchain name) (name ++ b!".bin")

/-- `LinkTarget::ConstructOutputPath` (`link_target.cpp:52-58`). -/
def targetOutput (envBuild toolchain name ext : Str) : Str :=
  append (targetBuildDir envBuild toolchain name) (name ++ ext)

/-- `Target::unique_id_` (`target.cpp:58`). -/
def targetId (toolchain name : Str) : Str := b!"[" ++ toolchain ++ b!"] " ++ name

/-- Build directory of a generator (`custom_generator.h:68`). -/
def genBuildDir (envBuild name : Str) : Str := append envBuild name

/-- State file of a generator (`custom_generator.h:69-70`). -/
def genStateFile (envBuild name : Str) : Str :=
  append (genBuildDir envBuild name) (name ++ b!".json")

/-- `CompilePch::ConstructHeaderPath` (`compile_pch.cpp:123-127`). -/
def pchHeaderPath (build hdrExt : Str) : Str := append build (b!"buildcc_pch" ++ hdrExt)

/-- `CompilePch::ConstructCompilePath` (`compile_pch.cpp:129-133`). -/
def pchCompilePath (build hdrExt compExt : Str) : Str :=
  replaceExtension (pchHeaderPath build hdrExt) (hdrExt ++ compExt)

/-- `CompilePch::ConstructSourcePath` (`compile_pch.cpp:135-138`). -/
def pchSourcePath (build hdrExt : Str) (hasCpp : Bool) : Str :=
  replaceExtension (pchHeaderPath build hdrExt) (if hasCpp then b!".cpp" else b!".c")

/-- `CompilePch::ConstructObjectPath` (`compile_pch.cpp:140-143`). -/
def pchObjectPath (build hdrExt objExt : Str) : Str :=
  replaceExtension (pchHeaderPath build hdrExt) objExt

end Verif.Path
