import Verif.Reg.WorldSpec
import Verif.Reg.Props
import Verif.Target.Examples
import Verif.Generator.Examples

/-! # A generator, a library and a program

The generator `gen` makes a header that the library `lib` includes; the program `app`
links with the library. -/

namespace Verif.Reg
open Verif Verif.Schema
open Verif.Target (Fixed BinArt objPath outputPath upd paths Clean)

def exLibFx : Fixed :=
  { name := b!"liba", rootDir := b!"/p", buildDir := b!"/p/build/gcc/liba", cfg := {},
    exe := ⟨b!"as", b!"gcc", b!"g++", b!"ar", b!"ld"⟩, tcfg := Target.gccStatic }

def exAppFx : Fixed :=
  { name := b!"app", rootDir := b!"/p", buildDir := b!"/p/build/gcc/app", cfg := {},
    exe := ⟨b!"as", b!"gcc", b!"g++", b!"ar", b!"ld"⟩, tcfg := Target.gccExe }

def exLibCfg : TargetSchema :=
  { TargetSchema.empty with
    name := b!"liba", sources := [⟨b!"/p/a.cpp", []⟩], headers := [⟨b!"/p/gen/v.h", []⟩] }

def exAppCfg : TargetSchema :=
  { TargetSchema.empty with
    name := b!"app", sources := [⟨b!"/p/main.cpp", []⟩], libs := [⟨outputPath exLibFx, []⟩] }

def exGenCfg : Generator.Cfg := [ (b!"v", ⟨[b!"/p/v.in"], [b!"/p/gen/v.h"], none⟩) ]

def exKinds (j : Str) : Kind :=
  if j = b!"lib" then .target exLibFx else if j = b!"app" then .target exAppFx else .gen

def exSetup (j : Str) : Setup :=
  if j = b!"lib" then .target exLibCfg [b!"/p/a.cpp"]
  else if j = b!"app" then .target exAppCfg [b!"/p/main.cpp"] else .gen exGenCfg

def exWGraph : Graph :=
  ⟨[b!"gen", b!"lib", b!"app"], [(b!"gen", b!"lib"), (b!"lib", b!"app")], [b!"app"]⟩

def exWFiles : List WEvent :=
  [ .edit b!"/p/v.in" 1, .edit b!"/p/a.cpp" 1, .edit b!"/p/main.cpp" 1 ]

/-- The tasks of the generator; its header gets the stamp `t`. -/
def exGenTasks (t : Nat) : List WEvent :=
  [ .begin b!"gen", .task b!"gen" (.g .begin) [], .task b!"gen" (.g (.task b!"v")) [],
    .task b!"gen" (.g (.call b!"v" true)) [(b!"/p/gen/v.h", some t)],
    .task b!"gen" (.g (.finish [b!"v"] true)) [] ]

/-- The tasks of a target with one source, all of them with something to do. -/
def exTargetTasks (id out : Str) (t : Nat) : List WEvent :=
  [ .begin id, .task id (.t .objTask) [], .task id (.t (.exec 0 true none)) [],
    .task id (.t (.add 0)) [], .task id (.t .linkTask) [],
    .task id (.t (.linkExec true none)) [(out, some t)], .task id (.t (.finish true)) [] ]

/-- A first build. -/
def exWBuild : List WEvent :=
  .launch exWGraph exSetup :: exGenTasks 2 ++ exTargetTasks b!"lib" (outputPath exLibFx) 3
    ++ exTargetTasks b!"app" (outputPath exAppFx) 4

/-- The library fails to compile. -/
def exWFail : List WEvent :=
  .launch exWGraph exSetup :: exGenTasks 2 ++
  [ .begin b!"lib", .task b!"lib" (.t .objTask) [],
    .task b!"lib" (.t (.exec 0 false (some none))) [(objPath exLibFx b!"/p/a.cpp", none)],
    .task b!"lib" (.t .linkTask) [], .task b!"lib" (.t (.finish true)) [],
    .begin b!"app", .task b!"app" (.t .objTask) [], .task b!"app" (.t .linkTask) [],
    .task b!"app" (.t (.finish true)) [] ]

/-- After the first build only the source of the library is edited: in the second build the
program is linked again although nothing of its own has changed. -/
def exWBuild2 : List WEvent :=
  .join :: .edit b!"/p/a.cpp" 5 :: .launch exWGraph exSetup ::
    [ .begin b!"gen", .task b!"gen" (.g .begin) [], .task b!"gen" (.g (.task b!"v")) [],
      .task b!"gen" (.g (.finish [b!"v"] true)) [] ] ++
    exTargetTasks b!"lib" (outputPath exLibFx) 6 ++
    [ .begin b!"app", .task b!"app" (.t .objTask) [], .task b!"app" (.t .linkTask) [],
      .task b!"app" (.t (.linkExec true none)) [(outputPath exAppFx, some 7)],
      .task b!"app" (.t (.finish true)) [] ]

def exW0 : World := World.init exKinds

theorem exWGraph_valid : Valid exWGraph :=
  ⟨by decide, by decide, by decide, by decide, by decide⟩

theorem exWGraph_acyclic : Acyclic exWGraph.edges :=
  C37_acyclic_partial 10
    [ .callBuild true b!"gen", .callBuild true b!"lib", .callBuild true b!"app",
      .dep ⟨true, true⟩ b!"lib" b!"gen", .dep ⟨true, true⟩ b!"app" b!"lib",
      .test ⟨true, true⟩ b!"app" ] ⟨exWGraph, []⟩ (by decide +kernel) (by decide)

/-- The steps of the examples have an effect. -/
example : ((exW0.steps (exWFiles ++ exWBuild)).step .join).result = some true := by decide +kernel

example : ((exW0.steps (exWFiles ++ exWFail)).step .join).result = some false := by decide +kernel

example : ((exW0.steps (exWFiles ++ exWBuild ++ exWBuild2)).step .join).result = some true := by
  decide +kernel

end Verif.Reg
