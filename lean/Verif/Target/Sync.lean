import Verif.Schema.Model

/-!
# Model of `SyncApi`: `Copy` and `Insert`

The two targets are different objects: `t.Insert(t, …)` passes a vector iterators into
itself, which is undefined, and is not modelled.  A moved-from vector or string is valid
but unspecified, so the content that is left behind is a parameter.  The `default` case
(`sync_api.cpp:99-101`, `206-208`) cannot be reached with the enumerators of `SyncOption`.
-/

namespace Verif.Target
open Verif Verif.Schema

/-- `SyncOption` (`sync_api.h:24-42`). -/
inductive SyncOption where
  | sources
  | headers
  | pchs
  | libs
  | includeDirs
  | libDirs
  | externalLibs
  | preprocessorFlags
  | commonCompileFlags
  | pchCompileFlags
  | pchObjectFlags
  | asmCompileFlags
  | cCompileFlags
  | cppCompileFlags
  | linkFlags
  | compileDeps
  | linkDeps
deriving DecidableEq, Repr

/-- One iteration of `SpecializedCopy` (`sync_api.cpp:44-103`): the new fields of the
receiving target. -/
def copyOne (t src : TargetSchema) : SyncOption → TargetSchema
  | .preprocessorFlags => { t with preprocessorFlags := src.preprocessorFlags }
  | .commonCompileFlags => { t with commonCompileFlags := src.commonCompileFlags }
  | .pchCompileFlags => { t with pchCompileFlags := src.pchCompileFlags }
  | .pchObjectFlags => { t with pchObjectFlags := src.pchObjectFlags }
  | .asmCompileFlags => { t with asmCompileFlags := src.asmCompileFlags }
  | .cCompileFlags => { t with cCompileFlags := src.cCompileFlags }
  | .cppCompileFlags => { t with cppCompileFlags := src.cppCompileFlags }
  | .linkFlags => { t with linkFlags := src.linkFlags }
  | .compileDeps => { t with compileDeps := src.compileDeps }
  | .linkDeps => { t with linkDeps := src.linkDeps }
  | .sources => { t with sources := src.sources }
  | .headers => { t with headers := src.headers }
  | .pchs => { t with pchs := src.pchs }
  | .libs => { t with libs := src.libs }
  | .includeDirs => { t with includeDirs := src.includeDirs }
  | .libDirs => { t with libDirs := src.libDirs }
  | .externalLibs => { t with externalLibs := src.externalLibs }

/-- `Copy(const T &, …)` (`sync_api.cpp:25-30`): `std::move` of a constant object copies. -/
def copy (t src : TargetSchema) (options : List SyncOption) : TargetSchema :=
  options.foldl (fun t o => copyOne t src o) t

/-- What moving the selected field out of the source leaves in the source: the field has the
content that it has in `junk`. -/
def copyLeaves (src junk : TargetSchema) : SyncOption → TargetSchema
  | .preprocessorFlags => { src with preprocessorFlags := junk.preprocessorFlags }
  | .commonCompileFlags => { src with commonCompileFlags := junk.commonCompileFlags }
  | .pchCompileFlags => { src with pchCompileFlags := junk.pchCompileFlags }
  | .pchObjectFlags => { src with pchObjectFlags := junk.pchObjectFlags }
  | .asmCompileFlags => { src with asmCompileFlags := junk.asmCompileFlags }
  | .cCompileFlags => { src with cCompileFlags := junk.cCompileFlags }
  | .cppCompileFlags => { src with cppCompileFlags := junk.cppCompileFlags }
  | .linkFlags => { src with linkFlags := junk.linkFlags }
  | .compileDeps => { src with compileDeps := junk.compileDeps }
  | .linkDeps => { src with linkDeps := junk.linkDeps }
  | .sources => { src with sources := junk.sources }
  | .headers => { src with headers := junk.headers }
  | .pchs => { src with pchs := junk.pchs }
  | .libs => { src with libs := junk.libs }
  | .includeDirs => { src with includeDirs := junk.includeDirs }
  | .libDirs => { src with libDirs := junk.libDirs }
  | .externalLibs => { src with externalLibs := junk.externalLibs }

/-- `Copy(T &&, …)` (`sync_api.cpp:32-36`), on the receiving target and the source; `junk n`
is what the `n`-th move leaves behind. -/
def copyMove (junk : Nat → TargetSchema) : Nat → TargetSchema → TargetSchema →
    List SyncOption → TargetSchema × TargetSchema
  | _, t, src, [] => (t, src)
  | n, t, src, o :: options =>
    copyMove junk (n + 1) (copyOne t src o) (copyLeaves src (junk n) o) options

/-- One iteration of `SpecializedInsert` (`sync_api.cpp:124-210`), with `PathInfoList::Insert`
(`path.h:170-172`) and `PathList::Insert` (`path.h:118-120`). -/
def insertOne (t src : TargetSchema) : SyncOption → TargetSchema
  | .preprocessorFlags => { t with preprocessorFlags := t.preprocessorFlags ++ src.preprocessorFlags }
  | .commonCompileFlags => { t with commonCompileFlags := t.commonCompileFlags ++ src.commonCompileFlags }
  | .pchCompileFlags => { t with pchCompileFlags := t.pchCompileFlags ++ src.pchCompileFlags }
  | .pchObjectFlags => { t with pchObjectFlags := t.pchObjectFlags ++ src.pchObjectFlags }
  | .asmCompileFlags => { t with asmCompileFlags := t.asmCompileFlags ++ src.asmCompileFlags }
  | .cCompileFlags => { t with cCompileFlags := t.cCompileFlags ++ src.cCompileFlags }
  | .cppCompileFlags => { t with cppCompileFlags := t.cppCompileFlags ++ src.cppCompileFlags }
  | .linkFlags => { t with linkFlags := t.linkFlags ++ src.linkFlags }
  | .compileDeps => { t with compileDeps := t.compileDeps ++ src.compileDeps }
  | .linkDeps => { t with linkDeps := t.linkDeps ++ src.linkDeps }
  | .sources => { t with sources := t.sources ++ src.sources }
  | .headers => { t with headers := t.headers ++ src.headers }
  | .pchs => { t with pchs := t.pchs ++ src.pchs }
  | .libs => { t with libs := t.libs ++ src.libs }
  | .includeDirs => { t with includeDirs := t.includeDirs ++ src.includeDirs }
  | .libDirs => { t with libDirs := t.libDirs ++ src.libDirs }
  | .externalLibs => { t with externalLibs := t.externalLibs ++ src.externalLibs }

/-- `Insert(const T &, …)` (`sync_api.cpp:106-111`): move iterators over a constant vector
copy. -/
def insert (t src : TargetSchema) (options : List SyncOption) : TargetSchema :=
  options.foldl (fun t o => insertOne t src o) t

/-- What inserting by move leaves in the source.  The vectors of strings keep their length
and their strings are moved from; `junk` has the same length there.  `Insert` of the path
lists takes a constant reference and leaves its argument alone
(`path.h:118-120`, `170-172`). -/
def insertLeaves (src junk : TargetSchema) : SyncOption → TargetSchema
  | .preprocessorFlags => { src with preprocessorFlags := (src.preprocessorFlags.zipWith (fun _ j => j) junk.preprocessorFlags) }
  | .commonCompileFlags => { src with commonCompileFlags := (src.commonCompileFlags.zipWith (fun _ j => j) junk.commonCompileFlags) }
  | .pchCompileFlags => { src with pchCompileFlags := (src.pchCompileFlags.zipWith (fun _ j => j) junk.pchCompileFlags) }
  | .pchObjectFlags => { src with pchObjectFlags := (src.pchObjectFlags.zipWith (fun _ j => j) junk.pchObjectFlags) }
  | .asmCompileFlags => { src with asmCompileFlags := (src.asmCompileFlags.zipWith (fun _ j => j) junk.asmCompileFlags) }
  | .cCompileFlags => { src with cCompileFlags := (src.cCompileFlags.zipWith (fun _ j => j) junk.cCompileFlags) }
  | .cppCompileFlags => { src with cppCompileFlags := (src.cppCompileFlags.zipWith (fun _ j => j) junk.cppCompileFlags) }
  | .linkFlags => { src with linkFlags := (src.linkFlags.zipWith (fun _ j => j) junk.linkFlags) }
  | .compileDeps => src
  | .linkDeps => src
  | .sources => src
  | .headers => src
  | .pchs => src
  | .libs => src
  | .includeDirs => src
  | .libDirs => src
  | .externalLibs => { src with externalLibs := (src.externalLibs.zipWith (fun _ j => j) junk.externalLibs) }

/-- `Insert(T &&, …)` (`sync_api.cpp:113-117`). -/
def insertMove (junk : Nat → TargetSchema) : Nat → TargetSchema → TargetSchema →
    List SyncOption → TargetSchema × TargetSchema
  | _, t, src, [] => (t, src)
  | n, t, src, o :: options =>
    insertMove junk (n + 1) (insertOne t src o) (insertLeaves src (junk n) o) options

end Verif.Target
