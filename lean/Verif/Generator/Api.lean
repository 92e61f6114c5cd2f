import Verif.Generator.FileGen

/-!
# Model of the functions that fill a `CustomGenerator`

`none` is the end of the program (`assert_fatal` on the main thread).
-/

namespace Verif.Generator
open Verif Verif.Command

/-- The part of a generator that is filled before `Build`. -/
structure Filled where
  command : Defaults
  ids : Cfg

/-- The names of the four directories (`custom_generator.cpp:28-31`). -/
def dirNames : List Str :=
  [b!"project_root_dir", b!"project_build_dir", b!"current_root_dir", b!"current_build_dir"]

/-- `CustomGenerator::Initialize` (`custom_generator.cpp:241-258`); `dirs` are the project's
root and build directory and the generator's root and build directory. -/
def newGenerator (dirs : List Str) : Filled :=
  ⟨addDefaults [] (dirNames.zip (dirs.map Path.toPathString)), []⟩

/-- A call of one of the functions. -/
inductive GenOp where
  | addPattern (identifier pattern : Str)
  /-- `AddPatterns`, with the pairs in the order in which the hash map is iterated. -/
  | addPatterns (patterns : List (Str × Str))
  | addIdInfo (id : Str) (inputs outputs : List Str) (hasCb : Bool) (handler : Option Handler)

/-- `CustomGenerator::AddPattern` (`custom_generator.cpp:188-191`). -/
def addPattern (g : Filled) (identifier pattern : Str) : Option Filled :=
  match construct g.command pattern [] with
  | .value s => some { g with command := addDefault g.command identifier s }
  | _ => none

/-- `CustomGenerator::AddPatterns` (`custom_generator.cpp:193-198`). -/
def addPatterns : Filled → List (Str × Str) → Option Filled
  | g, [] => some g
  | g, (k, p) :: l =>
    match addPattern g k p with
    | none => none
    | some g => addPatterns g l

/-- One call. -/
def genApply (g : Filled) : GenOp → Option Filled
  | .addPattern k p => addPattern g k p
  | .addPatterns l => addPatterns g l
  | .addIdInfo id inputs outputs hasCb handler =>
    match addIdInfo g.command g.ids id inputs outputs hasCb handler with
    | some c => some { g with ids := c }
    | none => none

/-- A sequence of calls. -/
def genApplyAll : Filled → List GenOp → Option Filled
  | g, [] => some g
  | g, op :: ops =>
    match genApply g op with
    | none => none
    | some g => genApplyAll g ops

/-- `CustomGenerator::Get` (`custom_generator.cpp:206-209`). -/
def Filled.get (g : Filled) (k : Str) : Option Str := getDefault g.command k

end Verif.Generator
