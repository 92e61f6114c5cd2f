import Verif.Generator.Api

/-!
# Model of the functions that fill a `FileGenerator` and a `TemplateGenerator`

`none` is the end of the program (`assert_fatal` on the main thread).  Both classes hide
`AddIdInfo`, so the calls before `Build` are those listed here and `AddPattern(s)`.
-/

namespace Verif.Generator
open Verif Verif.Command

/-- `unordered_set::emplace`, with the elements in the order of insertion. -/
def setAdd (l : List Str) (x : Str) : List Str := if x ∈ l then l else l ++ [x]

/-- The members of a `FileGenerator` (`file_generator.h:74-77`) and those of the custom generator
it is. -/
structure FileGen where
  gen : Filled
  inputs : List Str
  outputs : List Str
  commands : List Str

/-- A call of one of the functions. -/
inductive FileOp where
  | addPattern (identifier pattern : Str)
  | addPatterns (patterns : List (Str × Str))
  | addInput (pattern : Str)
  | addOutput (pattern : Str)
  | addCommand (pattern : Str) (arguments : Args)

/-- One call: `CustomGenerator::AddPattern`, `AddPatterns` (`custom_generator.cpp:188-198`),
`FileGenerator::AddInput`, `AddOutput`, `AddCommand` (`file_generator.cpp:47-60`). -/
def fileApply (g : FileGen) : FileOp → Option FileGen
  | .addPattern k p => (addPattern g.gen k p).map fun x => { g with gen := x }
  | .addPatterns l => (addPatterns g.gen l).map fun x => { g with gen := x }
  | .addInput p => some { g with inputs := setAdd g.inputs p }
  | .addOutput p => some { g with outputs := setAdd g.outputs p }
  | .addCommand p args =>
    match construct g.gen.command p args with
    | .value s => some { g with commands := g.commands ++ [s] }
    | _ => none

/-- A sequence of calls. -/
def fileApplyAll : FileGen → List FileOp → Option FileGen
  | g, [] => some g
  | g, op :: ops =>
    match fileApply g op with
    | none => none
    | some g => fileApplyAll g ops

/-- The constructor. -/
def newFileGen (dirs : List Str) : FileGen := ⟨newGenerator dirs, [], [], []⟩

/-- `FileGenerator::Build` (`file_generator.cpp:61-68`) up to `CustomGenerator::Build`; `ins` and
`outs` are the elements of the two sets in the order in which they are iterated. -/
def FileGen.build (g : FileGen) (ins outs : List Str) : Option Cfg :=
  fileCfg g.gen.command ins outs g.commands

/-- The members of a `TemplateGenerator` (`template_generator.h:51-58`). -/
structure TemplateGen where
  gen : Filled
  templates : List (Str × Str)

/-- A call of one of the functions. -/
inductive TemplateOp where
  | addPattern (identifier pattern : Str)
  | addPatterns (patterns : List (Str × Str))
  | addTemplate (input output : Str)

/-- One call: `AddPattern`, `AddPatterns` and `TemplateGenerator::AddTemplate`
(`template_generator.cpp:47-53`). -/
def templateApply (g : TemplateGen) : TemplateOp → Option TemplateGen
  | .addPattern k p => (addPattern g.gen k p).map fun x => { g with gen := x }
  | .addPatterns l => (addPatterns g.gen l).map fun x => { g with gen := x }
  | .addTemplate i o => some { g with templates := g.templates ++ [(i, o)] }

/-- A sequence of calls. -/
def templateApplyAll : TemplateGen → List TemplateOp → Option TemplateGen
  | g, [] => some g
  | g, op :: ops =>
    match templateApply g op with
    | none => none
    | some g => templateApplyAll g ops

/-- The constructor. -/
def newTemplateGen (dirs : List Str) : TemplateGen := ⟨newGenerator dirs, []⟩

/-- `TemplateGenerator::Build` (`template_generator.cpp:64-73`) up to
`CustomGenerator::Build`; `root` is the root directory of the project. -/
def TemplateGen.build (g : TemplateGen) (root : Str) : Option Cfg :=
  templateCfg g.gen.command root [] g.templates

end Verif.Generator
