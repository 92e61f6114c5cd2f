import Verif.Path.Model

/-!
# Model of the paths used by the library, on Windows

`std::filesystem::path` of the Microsoft library: `/` and `\` both separate components, `\` is the preferred
separator, and a path may begin with a drive such as `C:`.  Each function reduces to the one of
`Path/Model.lean` on the part behind the drive, written with `/`.

Simplification: paths that begin with two separators (`\\server\share`, `\\?\C:\…`), which have other root
names, are not modelled; nor is that the file system does not distinguish upper and lower case.
-/

namespace Verif.WinPath
open Verif

/-- The preferred separator. -/
abbrev back : UInt8 := c!"\\"

/-- The same text with `/` for every separator. -/
def fwd (s : Str) : Str := s.map fun b => if b = back then Path.slash else b

/-- `path::make_preferred` on Windows: the same text with `\` for every separator. -/
def bwd (s : Str) : Str := s.map fun b => if b = Path.slash then back else b

/-- A letter of a drive. -/
def isLetter (b : UInt8) : Bool := (65 ≤ b && b ≤ 90) || (97 ≤ b && b ≤ 122)

/-- `path::root_name`: the drive, a letter and a colon, or nothing. -/
def drive : Str → Str
  | a :: b :: _ => if isLetter a && b = c!":" then [a, b] else []
  | _ => []

/-- What is behind the drive. -/
def tail (s : Str) : Str := s.drop (drive s).length

/-- `path::has_root_directory`: a separator behind the drive. -/
def rooted (s : Str) : Bool := Path.isAbs (fwd (tail s))

/-- `path::lexically_normal`: the drive stays, and the rest is as in [fs.path.generic]; `.` is written for
an empty result only if there is no drive either. -/
def lexNormal (s : Str) : Str :=
  let n := Path.lexNormal (fwd (tail s))
  drive s ++ bwd (if drive s ≠ [] ∧ n = Path.dot then [] else n)

/-- `PathInfo::ToPathString`, `path_as_string`: `make_preferred().lexically_normal()` (`path.h:59-61`,
`path.h:237-239`). -/
def toPathString (s : Str) : Str := lexNormal (bwd s)

/-- `PathInfo::ToPathDisplayString` (`path.h:76-83`). -/
def displayString (s : Str) : Str :=
  let p := toPathString s
  if c!" " ∈ p then c!"\"" :: (p ++ [c!"\""]) else p

/-- `path::filename`: what is behind the last separator and behind the drive. -/
def filename (s : Str) : Str := Path.filename (fwd (tail s))

/-- `path::remove_filename`. -/
def dirPart (s : Str) : Str := s.take (s.length - (filename s).length)

/-- `path::operator/` on Windows: a path with a root directory and a drive, or with another drive, replaces
the first path; one with a root directory only keeps the drive of the first path. -/
def append (p q : Str) : Str :=
  if drive q ≠ [] ∧ (rooted q = true ∨ drive q ≠ drive p) then q
  else if rooted q then drive p ++ tail q
  else if filename p = [] then p ++ tail q
  else p ++ back :: tail q

/-- `path::replace_filename`. -/
def replaceFilename (p f : Str) : Str := append (dirPart p) f

/-- `path::lexically_relative` on Windows: nothing if the drives are not the same text.  Simplification:
also nothing for a path with a root directory but no drive and a relative base, where the library returns the
path itself; the paths of a target are all absolute. -/
def lexRelative (p base : Str) : Str :=
  if drive p ≠ drive base then []
  else bwd (Path.lexRelative (fwd (tail p)) (fwd (tail base)))

/-- `CompileObject::ConstructObjectPath` (`compile_object.cpp:109-164`). -/
def objectPath (root build objExt source : Str) : Str :=
  let rel := lexRelative source root
  let rel := if Path.hasDotDot rel then Path.dotsToUnderscores rel else rel
  replaceFilename (append build rel) (filename source ++ objExt)

end Verif.WinPath
