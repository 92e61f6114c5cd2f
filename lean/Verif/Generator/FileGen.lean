import Verif.Generator.Msgpack

/-!
# File and template generators

`FileGenerator` (`buildcc/lib/target/src/generator/file_generator.cpp`) and
`TemplateGenerator` (`buildcc/lib/target/src/generator/template_generator.cpp`): custom
generators with a fixed callback.
-/

namespace Verif.Generator
open Verif Verif.Command

/-! ## FileGenerator -/

/-- `FileGenerator::Build` (`file_generator.cpp:61-68`): the configuration of the custom
generator. -/
def fileCfg (cmd : Defaults) (inputs outputs : List Str) (commands : List Str) : Option Cfg :=
  addIdInfo cmd [] b!"Generate" inputs outputs true (some (typedHandler commands))

/-- The loop of the callback (`file_generator.cpp:31-39`): executed commands and result.
`sys n c` is what the `n`-th execution returns, `Command::Execute(c)`. -/
def runCommands (sys : Nat → Str → Bool) : Nat → List Str → List Str × Bool
  | _, [] => ([], true)
  | n, c :: l =>
    if sys n c then (c :: (runCommands sys (n + 1) l).1, (runCommands sys (n + 1) l).2)
    else ([c], false)

/-- `FileGeneratorGenerateCb` (`file_generator.cpp:25-41`); `none` is an exception. -/
def fileCb (sys : Nat → Str → Bool) (blob : Blob) : Option (List Str × Bool) :=
  (deserialize blob).map (runCommands sys 0)

/-! ## TemplateGenerator -/

/-- `TemplateGenerator::Build` (`template_generator.cpp:64-73`), with the templates in the
order of `AddTemplate` (47-53); `none` is a fatal error. -/
def templateCfg (cmd : Defaults) (root : Str) : Cfg → List (Str × Str) → Option Cfg
  | c, [] => some c
  | c, (input, output) :: l =>
    match construct cmd input [] with
    | .value p =>
      match addIdInfo cmd c (Path.lexRelative (Path.toPathString p) root) [input] [output] true
          none with
      | some c' => templateCfg cmd root c' l
      | none => none
    | _ => none

/-- Result of the callback of a template. -/
inductive Written where
  | ok
  | failed           -- the callback returned false
  | thrown           -- `Construct` failed
  | unspecified      -- outside of the modelled fragment of fmt
deriving DecidableEq, Repr

/-- `template_generate_cb` (`template_generator.cpp:23-41`) on the contents of the files (`none`:
not there or not readable); `canOpen` says whether the output can be opened.
Simplification: once a file is open, reading and writing it succeed. -/
def templateCb (cmd : Defaults) (input output : Str) (canOpen : Bool) (fs : Str → Option Str) :
    Written × (Str → Option Str) :=
  match fs input with
  | none => (.failed, fs)
  | some text =>
    match construct cmd text [] with
    | .value s => if canOpen then (.ok, Verif.Target.upd fs output (some s)) else (.failed, fs)
    | .fatal => (.thrown, fs)
    | .unspecified => (.unspecified, fs)

end Verif.Generator
