import Verif.Target.Commands
import Verif.Json.Model

/-! # Model of `ClangCompileCommands` -/

namespace Verif.Plugin
open Verif Verif.Schema Verif.Target Verif.Command

/-- What the plugin uses of a target: `IsBuilt`, `GetSourceFiles` and the commands in
`object_files_` of `CompileObject`, in the order of insertion. -/
structure PTarget where
  isBuilt : Bool
  sources : List Str
  objects : List (Str × Str)
deriving DecidableEq

/-- `AddObjectData` of each source (`build.cpp:62-69`, `compile_object.cpp:32-40`) and
`CacheCompileCommands` (`compile_object.cpp:42-64`); `none` is a fatal error. -/
def objectFiles (fx : Fixed) (u : TargetSchema) : List PathInfo → List (Str × Str) →
    Option (List (Str × Str))
  | [], m => some m
  | s :: l, m =>
    let key := Path.toPathString s.path
    if (lookupArg m key).isSome then objectFiles fx u l m
    else
      match compileCommand fx u key with
      | .value c => objectFiles fx u l (m ++ [(key, c)])
      | _ => none

/-- The target after `Target::Build` (`build.cpp:54-128`) and, if `isBuilt`, after a run that
rebuilt it. -/
def PTarget.of (fx : Fixed) (u : TargetSchema) (isBuilt : Bool) : Option PTarget :=
  (objectFiles fx u u.sources []).map fun m => ⟨isBuilt, u.sources.map (·.path), m⟩

/-- `GetCompileCommand` (`target_getter.cpp:77-82`, `compile_object.cpp:74-82`); `none` is a
fatal error. -/
def getCompileCommand (t : PTarget) (source : Str) : Option Str :=
  lookupArg t.objects (Path.toPathString source)

/-- `clang_compile_command_format` with its three arguments
(`clang_compile_commands.cpp:31-36`, `74-76`). -/
def entryText (directory command file : Str) : Str :=
  b!"{\n  \"directory\": \"" ++ directory ++ b!"\",\n  \"command\": \"" ++ command ++
    b!"\",\n  \"file\": \"" ++ file ++ b!"\"\n}"

/-- The entries of the sources of a target (`clang_compile_commands.cpp:64-78`). -/
def targetEntries (buildDir : Str) (t : PTarget) : List Str → Option (List Str)
  | [] => some []
  | s :: l =>
    match getCompileCommand t s, targetEntries buildDir t l with
    | some c, some r => some (entryText (Path.displayString buildDir) c s :: r)
    | _, _ => none

/-- The entries of all targets (`clang_compile_commands.cpp:62-79`). -/
def allEntries (buildDir : Str) : List PTarget → Option (List Str)
  | [] => some []
  | t :: l =>
    match targetEntries buildDir t t.sources, allEntries buildDir l with
    | some a, some b => some (a ++ b)
    | _, _ => none

/-- `fmt::format("[\n{}\n]", fmt::join(list, ",\n"))` (`clang_compile_commands.cpp:81-82`). -/
def fileText (l : List Str) : Str := b!"[\n" ++ b!",\n".intercalate l ++ b!"\n]"

/-- How `Generate` ends. -/
inductive Outcome where
  | skipped            -- returned early
  | fatal              -- the program ends
  | written
deriving DecidableEq, Repr

/-- `ClangCompileCommands::Generate` (`clang_compile_commands.cpp:49-92`): the outcome and the
content of `compile_commands.json` afterwards; `old` is its content before, `canOpen` says
whether the file can be opened.  Simplification: once it is open, writing it succeeds. -/
def generate (buildDir : Str) (targets : List PTarget) (canOpen : Bool) (old : Option Str) :
    Outcome × Option Str :=
  if !targets.any (·.isBuilt) then (.skipped, old)
  else
    match allEntries buildDir targets with
    | none => (.fatal, old)
    | some l => if canOpen then (.written, some (fileText l)) else (.fatal, old)

end Verif.Plugin
