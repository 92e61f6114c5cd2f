import Verif.Disk.Model
import Verif.Path.Lemmas

/-!
# What the properties about directories and files say
-/

namespace Verif.Disk
open Verif Verif.Schema Verif.Target
open Verif.Path (splitSlash dirPart filename isAbs slash dot dotdot IsName)

/-! ## Lookup -/

/-- From the directory at a place, the components lead through existing directories to another
place. -/
inductive Lookup (d : Disk) : Place → List Str → Place → Prop
  | done (at_) : Lookup d at_ [] at_
  | stay (at_ c l x) : c = [] ∨ c = b!"." → Lookup d at_ l x → Lookup d at_ (c :: l) x
  | up (at_ l x) : Lookup d at_.tail l x → Lookup d at_ (b!".." :: l) x
  | into (at_ c l x) : c ≠ [] → c ≠ b!"." → c ≠ b!".." → d.isDir (c :: at_) = true →
      Lookup d (c :: at_) l x → Lookup d at_ (c :: l) x

/-- The directory of the file `p` is at the place `at_`. -/
def DirAt (d : Disk) (p : Str) (at_ : Place) : Prop :=
  Lookup d (if isAbs p then [] else d.cwd) (splitSlash (dirPart p)) at_

/-- The file `p` can be created: its directory exists. -/
def DirReady (d : Disk) (p : Str) : Prop := ∃ at_, DirAt d p at_

/-- There is a file or a directory at `p`. -/
def OnDisk (d : Disk) (p : Str) : Prop :=
  ∃ at_, DirAt d p at_ ∧ (d.isDir (filename p :: at_) = true ∨ d.file (filename p :: at_) ≠ none)

/-- `p` is a directory. -/
def IsDirectory (d : Disk) (p : Str) : Prop := ∃ at_, DirAt d p at_ ∧ d.isDir (filename p :: at_) = true

/-- The file `p` has these contents. -/
def HoldsFile (d : Disk) (p text : Str) : Prop :=
  ∃ at_, DirAt d p at_ ∧ d.file (filename p :: at_) = some text

/-! ## States -/

/-- Where components lead when the directories on the way are there. -/
def resolve : Place → List Str → Place
  | at_, [] => at_
  | at_, c :: l =>
    if c = [] ∨ c = dot then resolve at_ l
    else if c = dotdot then resolve at_.tail l
    else resolve (c :: at_) l

/-- A tree: the root and the working directory are directories, and what contains a directory
is a directory. -/
structure Disk.Wf (d : Disk) : Prop where
  root : d.isDir [] = true
  cwd : d.isDir d.cwd = true
  closed : ∀ c at_, d.isDir (c :: at_) = true → d.isDir at_ = true

/-- No directory of `d` is missing in `e`, and the process is in the same directory. -/
structure Disk.Keeps (d e : Disk) : Prop where
  dirs : ∀ at_, d.isDir at_ = true → e.isDir at_ = true
  cwd : e.cwd = d.cwd

/-! ## Targets -/

/-- The files that a build of a target with these sources writes. -/
inductive Writes (m : Made) (srcs : List Str) : Str → Prop
  | object (src) : src ∈ srcs →
      Writes m srcs (Path.objectPath m.rootDir m.buildDir m.toolchain.config.objExt src)
  | output : Writes m srcs (Path.append m.buildDir (m.name ++ m.config.targetExt))
  | state : Writes m srcs (Path.append m.buildDir (m.name ++ b!".bin"))
  | pchHeader : Writes m srcs (Path.pchHeaderPath m.buildDir m.toolchain.config.pchHeaderExt)
  | pchSource (cpp) : Writes m srcs (Path.pchSourcePath m.buildDir m.toolchain.config.pchHeaderExt cpp)
  | pchCompiled : Writes m srcs
      (Path.pchCompilePath m.buildDir m.toolchain.config.pchHeaderExt m.toolchain.config.pchCompileExt)
  | pchObject : Writes m srcs
      (Path.pchObjectPath m.buildDir m.toolchain.config.pchHeaderExt m.toolchain.config.objExt)

/-- A place that is passed on the way to the directory of the file `f`. -/
def OnTheWay (d : Disk) (f : Str) (x : Place) : Prop :=
  ∃ l1 l2, splitSlash (dirPart f) = l1 ++ l2 ∧ x = resolve (if isAbs f then [] else d.cwd) l1

/-- The name of the target and the names of the sources are file names, and no extension has a
`/`. -/
structure Plain (m : Made) (srcs : List Str) : Prop where
  name : IsName m.name
  sources : ∀ src ∈ srcs, IsName (filename src)
  objExt : slash ∉ m.toolchain.config.objExt
  targetExt : slash ∉ m.config.targetExt
  headerExt : slash ∉ m.toolchain.config.pchHeaderExt
  compileExt : slash ∉ m.toolchain.config.pchCompileExt

/-- A header that includes these files in this order. -/
def includeAll (headers : List Str) : Str :=
  b!"// Generated by BuildCC\n#ifndef BUILDCC_GENERATED_PCH_H_\n#define BUILDCC_GENERATED_PCH_H_\n\n// clang-format off\n"
    ++ (headers.map fun h => b!"#include \"" ++ h ++ b!"\"\r\n").flatten ++ b!"\n\n#endif\n"

end Verif.Disk
