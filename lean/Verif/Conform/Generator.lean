import Verif.Generator.FileApi
import Verif.Generator.Examples

/-! # The unit tests of the generators, run on the model

Transcriptions of `lib/target/test/target/test_custom_generator.cpp`,
`test_file_generator.cpp` and `test_template_generator.cpp`; see `Conform/Target.lean` for
what they are for.  `CustomGeneratorRunner` runs the tasks with one thread, so the ids
are visited one after the other. -/

namespace Verif.Conform.Gen
open Verif Verif.Command Verif.Schema Verif.Json Verif.Generator

/-- The outcome of the callback of an id. -/
abbrev Oks := List Bool

/-- One block of a test. -/
structure Session where
  before : List Event := []
  cfg : Option Cfg
  oks : Oks := []
  healthy : Bool := true
  canOpen : Bool := true

/-- What a test sees: callbacks, task state, ids in the stored state. -/
structure Seen where
  calls : Nat
  ok : Bool
  ids : Option Nat
deriving DecidableEq, Repr

def callsOf (σ : Sys) : Nat :=
  (σ.log.filter fun e => match e with
    | .called _ _ => true
    | _ => false).length

/-- The ids one after the other; the next outcome goes to the next callback. -/
def visit (s : Sys × Oks) : List Str → Sys × Oks
  | [] => s
  | id :: l =>
    let σ := step (step s.1 (.task id)) (.call id (s.2.headD true))
    visit (if callsOf s.1 < callsOf σ then (σ, s.2.tail) else (σ, s.2)) l

/-- A session with one thread (`CustomGeneratorRunner`); a fatal error while the generator
is filled leaves everything as it was. -/
def runSession (σ : Sys) (x : Session) : Sys :=
  match x.cfg with
  | none => steps σ x.before
  | some c =>
    let σ₁ := steps σ (x.before ++ [.start c])
    let σ₂ := if x.healthy then σ₁ else step σ₁ .otherFail
    step (visit (step σ₂ .begin, x.oks) (keys c)).1 (.finish (keys c) x.canOpen)

def seen (σ : Sys) : Option Seen :=
  σ.done.map fun d => ⟨callsOf σ, d.ok, (loadGenFile σ.stateFile).map (·.ids.length)⟩

def observe : Sys → List Session → List (Option Seen)
  | _, [] => []
  | σ, x :: l =>
    let σ' := runSession σ x
    seen σ' :: observe σ' l

def after (l : List Session) : Sys := l.foldl runSession Sys.init

/-- The directories of the tests (`main` at the end of the test files). -/
def dirs : List Str := [b!"/t/data", b!"/b", b!"/t/data", b!"/b/gen"]

def mainC : Str := b!"/t/data/dummy_main.c"
def mainCpp : Str := b!"/t/data/dummy_main.cpp"
def newSource : Str := b!"/t/data/new_source.cpp"

def data : List Event := [mainC, mainCpp, newSource].map fun p => .edit p 1

/-- `AddIdInfo` with a callback. -/
def idInfo (id : Str) (inputs outputs : List Str) : GenOp := .addIdInfo id inputs outputs true none

/-- A `CustomGenerator` filled by these calls. -/
def cgen (ops : List GenOp) : Option Cfg := (genApplyAll (newGenerator dirs) ops).map (·.ids)

/-! ## `test_custom_generator.cpp` -/

def id1 : GenOp := idInfo b!"id1" [b!"{current_root_dir}/dummy_main.c"] [b!"{current_build_dir}/dummy_main.o"]
def id2 : GenOp := idInfo b!"id2" [b!"{current_root_dir}/dummy_main.cpp"] []

/-- Inputs and outputs of the stored ids. -/
def sizes (σ : Sys) : Option (List (Str × Nat × Nat)) :=
  (loadGenFile σ.stateFile).map fun s =>
    s.ids.map fun x => (x.1, x.2.inputs.length, x.2.outputs.length)

/-- `Basic` (35-64) and `BasicRebuild` (66-92). -/
example : observe Sys.init [ { before := data, cfg := cgen [id1, id2] }, { cfg := cgen [id1, id2] } ]
    = [some ⟨2, true, some 2⟩, some ⟨0, true, some 2⟩] := by decide +kernel
example : sizes (after [ { before := data, cfg := cgen [id1, id2] } ])
    = some [(b!"id1", 1, 1), (b!"id2", 1, 0)] := by decide +kernel

/-- `BasicRebuild_Add_Remove` (94-135). -/
example : observe Sys.init
    [ { before := data, cfg := cgen [id1, id2] }, { cfg := cgen [id1] }, { cfg := cgen [id1, id2] } ]
    = [some ⟨2, true, some 2⟩, some ⟨0, true, some 1⟩, some ⟨1, true, some 2⟩] := by decide +kernel

/-- `Basic_Failure` (137-158). -/
example : observe Sys.init
    [ { before := data, oks := [true, false],
        cfg := cgen [idInfo b!"id1" [b!"{current_root_dir}/dummy_main.c"] [], id2] } ]
    = [some ⟨2, false, some 1⟩] := by decide +kernel

/-- `DefaultArgumentUsage` (160-194). -/
def patterns : GenOp := .addPatterns
  [(b!"dummy_main_c", b!"{current_root_dir}/dummy_main.c"),
   (b!"dummy_main_o", b!"{current_build_dir}/dummy_main.o"),
   (b!"dummy_main_cpp", b!"{current_root_dir}/dummy_main.cpp"), (b!"hello", b!"world")]

example : (genApplyAll (newGenerator dirs) [patterns]).bind (·.get b!"hello") = some b!"world" := by
  decide +kernel
example : (genApplyAll (newGenerator dirs) [patterns]).map (fun g => construct g.command b!"{hello}" [])
    = some (.value b!"world") := by decide +kernel

def byName : List GenOp :=
  [patterns, idInfo b!"id1" [b!"{dummy_main_c}"] [b!"{dummy_main_o}"],
    idInfo b!"id2" [b!"{dummy_main_cpp}"] []]

example : observe Sys.init [ { before := data, cfg := cgen byName } ] = [some ⟨2, true, some 2⟩] := by
  decide +kernel
example : sizes (after [ { before := data, cfg := cgen byName } ])
    = some [(b!"id1", 1, 1), (b!"id2", 1, 0)] := by decide +kernel

/-- `FailureCases` (196-246): no callback; a state file that cannot be opened; no ids; the
task state is FAILURE from the start. -/
example : (cgen [.addIdInfo b!"id1" [] [] false none]).isNone = true := by decide +kernel
example : observe Sys.init [ { cfg := cgen [idInfo b!"id1" [] [], idInfo b!"id2" [] []], canOpen := false } ]
    = [some ⟨2, false, none⟩] := by decide +kernel
example : (observe Sys.init [ { cfg := cgen [] } ]).map (Option.map fun s => (s.calls, s.ok))
    = [some (0, true)] := by decide +kernel
example : observe Sys.init [ { cfg := cgen [idInfo b!"id1" [] []], healthy := false } ]
    = [some ⟨0, false, none⟩] := by decide +kernel

/-- `RealGenerate_Basic` (254-306): the state file is removed; then the first of two callbacks
fails, the second one is not called, and the stored state has no ids. -/
example : observe Sys.init
    [ { before := data, cfg := cgen [
          idInfo b!"id1" [b!"{current_root_dir}/dummy_main.cpp"] [b!"{current_build_dir}/dummy_main.o"],
          idInfo b!"id2" [b!"{current_root_dir}/dummy_main.c"] [b!"{current_build_dir}/dummy_main.o"]] },
      { before := [.dropState], oks := [false], cfg := cgen [
          idInfo b!"id1" [b!"{current_root_dir}/dummy_main.cpp"] [],
          idInfo b!"id2" [b!"{current_root_dir}/dummy_main.c"] []] } ]
    = [some ⟨2, true, some 2⟩, some ⟨1, false, some 0⟩] := by decide +kernel

/-- `RealGenerate_Update_Success` (308-411): an updated input and a renamed output call the
callback of their id only; the stored hash is the time stamp. -/
def updates (out2 : Str) : Option Cfg := cgen
  [ idInfo b!"id1" [b!"{current_build_dir}/dummy_main.c"] [b!"{current_build_dir}/dummy_main.o"],
    idInfo b!"id2" [b!"{current_build_dir}/dummy_main.cpp"] [out2] ]

def updateSessions : List Session :=
  [ { before := [.edit b!"/b/gen/dummy_main.c" 5, .edit b!"/b/gen/dummy_main.cpp" 6],
      cfg := updates b!"{current_build_dir}/other_dummy_main.o" },
    { before := [.edit b!"/b/gen/dummy_main.cpp" 789],
      cfg := updates b!"{current_build_dir}/other_dummy_main.o" },
    { cfg := updates b!"{current_build_dir}/rename_dummy_main.o" } ]

example : observe Sys.init updateSessions
    = [some ⟨2, true, some 2⟩, some ⟨1, true, some 2⟩, some ⟨1, true, some 2⟩] := by decide +kernel
example : ((loadGenFile (after (updateSessions.take 2)).stateFile).bind fun s =>
    (find b!"id2" s.ids).map fun i => i.inputs.map (·.hash)) = some [b!"789"] := by decide +kernel
example : sizes (after updateSessions) = some [(b!"id1", 1, 1), (b!"id2", 1, 1)] := by decide +kernel

/-- `RealGenerate_BasicBlobRecheck` (446-484): the handler of the test writes a number with
`to_msgpack`; 12 is the byte 0x0c, 200 is 0xcc 0xc8. -/
def numberHandler (bytes : Blob) : Handler where
  verify := fun b => !b.isEmpty
  isEqual := fun a b => some (a == b)
  serialize := some bytes

def withBlob (bytes : Blob) : Option Cfg := cgen
  [ .addIdInfo b!"id1" [b!"{current_root_dir}/dummy_main.cpp"] [b!"{current_build_dir}/dummy_main.o"] true
      (some (numberHandler bytes)) ]

example : observe Sys.init
    [ { before := data, cfg := withBlob [12] }, { cfg := withBlob [0xcc, 200] } ]
    = [some ⟨1, true, some 1⟩, some ⟨1, true, some 1⟩] := by decide +kernel

/-! ## `test_file_generator.cpp` -/

/-- A `FileGenerator` filled by these calls. -/
def fgen (ops : List FileOp) : Option Cfg :=
  (fileApplyAll (newFileGen dirs) ops).bind fun g => g.build g.inputs g.outputs

/-- The executed commands of the callback when every command returns `ok`. -/
def executes (c : Option Cfg) (ok : Bool) : Option (List Str × Bool) :=
  c.bind fun c => (find b!"Generate" c).bind fun i => (blobOf i.handler).bind (fileCb fun _ _ => ok)

def compiler : FileOp := .addPatterns [(b!"compiler", b!"gcc")]
def rootMain : FileOp := .addInput b!"{current_root_dir}/dummy_main.c"
def buildMain : FileOp := .addOutput b!"{current_build_dir}/dummy_main.exe"
def compile : Str := b!"{compiler} -o {current_build_dir}/dummy_main.exe {current_root_dir}/dummy_main.c"

/-- `Generator_Build` (30-48). -/
def buildOps : List FileOp := [compiler, rootMain, buildMain, .addCommand compile []]

example : observe Sys.init [ { before := data, cfg := fgen buildOps } ] = [some ⟨1, true, some 1⟩] := by
  decide +kernel
example : executes (fgen buildOps) true
    = some ([b!"gcc -o /b/gen/dummy_main.exe /t/data/dummy_main.c"], true) := by decide +kernel

/-- `Generator_Identifier` (50-69): the same command through named patterns. -/
example : executes (fgen
      [ compiler, .addPattern b!"dummy_main_c" b!"{current_root_dir}/dummy_main.c",
        .addPattern b!"dummy_main_exe" b!"{current_build_dir}/dummy_main.exe",
        .addInput b!"{dummy_main_c}", .addOutput b!"{dummy_main_exe}",
        .addCommand b!"{compiler} -o {dummy_main_exe} {dummy_main_c}" [] ]) true
    = some ([b!"gcc -o /b/gen/dummy_main.exe /t/data/dummy_main.c"], true) := by decide +kernel

/-- `Generator_Rebuild` (71-103): the argument of a command in place of a pattern; nothing to
do the second time. -/
def rebuildOps : List FileOp := [rootMain, buildMain, .addCommand compile [(b!"compiler", b!"gcc")]]

example : observe Sys.init
    [ { before := data, cfg := fgen rebuildOps }, { cfg := fgen rebuildOps } ]
    = [some ⟨1, true, some 1⟩, some ⟨0, true, some 1⟩] := by decide +kernel

/-- `Generator_Rebuild_Inputs` (105-167): an input is removed, added together with another
output, and updated. -/
def newExe (out : Str) (input : Bool) : Option Cfg := fgen
  ((if input then [.addInput b!"{current_root_dir}/new_source.cpp"] else []) ++
    [.addOutput (b!"{current_build_dir}/" ++ out),
      .addCommand (b!"gcc -o {current_build_dir}/" ++ out ++ b!" {current_root_dir}/new_source.cpp") []])

example : observe Sys.init
    [ { before := data, cfg := newExe b!"new_source.exe" true },
      { cfg := newExe b!"new_source.exe" false },
      { cfg := newExe b!"new_source.cpp.exe" true },
      { before := [.edit newSource 2], cfg := newExe b!"new_source.cpp.exe" true } ]
    = [some ⟨1, true, some 1⟩, some ⟨1, true, some 1⟩, some ⟨1, true, some 1⟩,
       some ⟨1, true, some 1⟩] := by decide +kernel

/-- `Generator_Rebuild_Outputs` (169-216): an output is removed and added. -/
example : observe Sys.init
    [ { before := data, cfg := fgen rebuildOps },
      { cfg := fgen [rootMain, .addCommand compile [(b!"compiler", b!"gcc")]] },
      { cfg := fgen rebuildOps } ]
    = [some ⟨1, true, some 1⟩, some ⟨1, true, some 1⟩, some ⟨1, true, some 1⟩] := by decide +kernel

/-- `Generator_Rebuild_Commands` (218-262): another command.  The third command has the text
of the first one and not of the second one. -/
example : observe Sys.init
    [ { before := data, cfg := fgen rebuildOps },
      { cfg := fgen [rootMain, buildMain, .addCommand b!"{compiler} {current_root_dir}/dummy_main.c"
          [(b!"compiler", b!"gcc")]] },
      { cfg := fgen [rootMain, buildMain, .addCommand
          b!"gcc -o {current_build_dir}/dummy_main.exe {current_root_dir}/dummy_main.c" []] } ]
    = [some ⟨1, true, some 1⟩, some ⟨1, true, some 1⟩, some ⟨1, true, some 1⟩] := by decide +kernel

/-- `Generator_AddDefaultArguments` (264-274). -/
example : (fileApplyAll (newFileGen dirs) [.addPatterns [(b!"key", b!"value")]]).bind (·.gen.get b!"key")
    = some b!"value" := by decide +kernel

/-- `Generator_FailedEnvTaskState` (278-299) and `FailedEnvTaskState_Rebuild` (374-416). -/
example : observe Sys.init
    [ { before := data, cfg := fgen buildOps, healthy := false }, { cfg := fgen buildOps } ]
    = [some ⟨0, false, none⟩, some ⟨1, true, some 1⟩] := by decide +kernel

/-- `Generator_FailedGenerateConvert` (301-322): an input does not exist. -/
example : (observe Sys.init
    [ { before := data,
        cfg := fgen [compiler, .addInput b!"{current_root_dir}/this_file_does_not_exist.c", buildMain,
          .addCommand compile []] } ]).map (Option.map fun s => (s.calls, s.ok))
    = [some (0, false)] := by decide +kernel

/-- `Generator_FailedGenerateCommand` (324-344) and `FailedGenerateCommand_Rebuild` (418-461):
the id was not stored (`IdAdded`) and runs again. -/
example : observe Sys.init
    [ { before := data, cfg := fgen buildOps, oks := [(executes (fgen buildOps) false).any (·.2)] },
      { cfg := fgen buildOps } ]
    = [some ⟨1, false, some 0⟩, some ⟨1, true, some 1⟩] := by decide +kernel

/-- `Generator_FailedStore` (346-372): the build directory is gone. -/
example : observe Sys.init [ { before := data, cfg := fgen buildOps, canOpen := false } ]
    = [some ⟨1, false, none⟩] := by decide +kernel

/-! ## `test_template_generator.cpp` -/

def tgen (ops : List TemplateOp) : Option TemplateGen := templateApplyAll (newTemplateGen dirs) ops

/-- `Basic` (27-32). -/
example : (observe Sys.init [ { cfg := (tgen []).bind (·.build b!"/t/data") } ]).map
    (Option.map fun s => (s.calls, s.ok)) = [some (0, true)] := by decide +kernel

/-- `Basic_Parse` (34-42). -/
def helloWorld : TemplateOp := .addPatterns [(b!"hello", b!"Hello"), (b!"world", b!"World")]

example : (tgen [helloWorld]).map (fun g => construct g.gen.command b!"{hello} {world}" [])
    = some (.value b!"Hello World") := by decide +kernel

/-- The text that a template produces. -/
def produces (g : Option TemplateGen) (input : Str) (text : Option Str) (canOpen : Bool) :
    Option (Written × Option Str) :=
  g.map fun g =>
    let r := templateCb g.gen.command input b!"/b/gen/out.txt" canOpen
      fun p => if p = input then text else none
    (r.1, r.2 b!"/b/gen/out.txt")

/-- `Basic_InputParse` (44-60), with the two files in `data/template`. -/
def templates : List TemplateOp :=
  [ helloWorld,
    .addTemplate b!"{current_root_dir}/template/default_values.txt.in" b!"{current_build_dir}/default_values.txt",
    .addTemplate b!"{current_root_dir}/template/hello_world.txt.in" b!"{current_build_dir}/hello_world.txt" ]

example : observe Sys.init [ {
      before := [.edit b!"/t/data/template/default_values.txt.in" 1,
        .edit b!"/t/data/template/hello_world.txt.in" 2],
      cfg := (tgen templates).bind (·.build b!"/t/data") } ]
    = [some ⟨2, true, some 2⟩] := by decide +kernel
example : produces (tgen templates) b!"/t/data/template/hello_world.txt.in" (some b!"{hello} {world}") true
    = some (.ok, some b!"Hello World") := by decide +kernel
example : produces (tgen templates) b!"/t/data/template/default_values.txt.in"
      (some b!"{current_root_dir}\n{current_build_dir}\n{project_root_dir}\n{project_build_dir}") true
    = some (.ok, some b!"/t/data\n/b/gen\n/t/data\n/b") := by decide +kernel

/-- `Basic_SaveFailure` (62-76) and `Basic_LoadFailure` (78-92). -/
example : produces (tgen templates) b!"/t/data/template/default_values.txt.in"
      (some b!"{current_root_dir}") false = some (.failed, none) := by decide +kernel
example : produces (tgen templates) b!"/b/gen/default_values.txt.in" none true
    = some (.failed, none) := by decide +kernel

end Verif.Conform.Gen
