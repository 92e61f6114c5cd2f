import Verif.Sample.Registered
import Verif.Generator.FileApiProps

/-!
# Model of build scripts with file generators given by their text

As in `Verif.Sample.Model`, with file generators that come before the targets, and targets that take
sources from them.
-/

namespace Verif.Sample
open Verif Verif.Schema Verif.Target Verif.Toolchain
open Verif.Boot (Filled)

/-- `FileGenerator generator(name, dir)` with the calls on it before `Build`
(`custom_generator.h:65-71`). -/
structure GenDecl where
  name : Str
  dir : Str
  ops : List Generator.FileOp

/-- A call on a target. -/
inductive MStep where
  | step (x : Step)
  /-- `AddSource(fs::path(generator.Get(id)).lexically_relative(Project::GetRootDir()))`, as in
  `example/hybrid/dep_chaining/build.cpp:81-83`. -/
  | genSource (i : Nat) (id : Str)

structure MDecl where
  name : Str
  type : TargetType
  dir : Str
  steps : List MStep

structure MText where
  gens : List GenDecl
  infos : List (Str × List ApiOp)
  targets : List MDecl
  deps : List (Nat × Nat)
  /-- `Reg::Dep(target, generator)`, by their numbers. -/
  uses : List (Nat × Nat)
  tests : List Nat

/-- A generator after its `Build`. -/
structure GenMade where
  name : Str
  filled : Generator.Filled
  commands : List Str
  cfg : Generator.Cfg

/-- The directory of a generator (`custom_generator.h:67`). -/
def genDir (p : Project) (name : Str) : Str := Path.append p.buildDir name

/-- The generators of the script: constructor (`custom_generator.h:65-71`, `custom_generator.cpp:241-258`),
calls and `FileGenerator::Build` (`file_generator.cpp:61-68`).  `ord` is the order in which hash sets are
iterated. -/
def runGens (p : Project) (ord : List Str → List Str) : List GenDecl → Option (List GenMade)
  | [] => some []
  | d :: l =>
    if !p.init then none else
    match Generator.fileApplyAll (Generator.newFileGen [p.rootDir, p.buildDir,
        Path.append p.rootDir d.dir, genDir p d.name]) d.ops with
    | none => none
    | some g =>
      match g.build (ord g.inputs) (ord g.outputs) with
      | none => none
      | some c => (runGens p ord l).map (⟨d.name, g.gen, g.commands, c⟩ :: ·)

/-- The call with what it takes from generators.  `Get` of an unknown name ends the program
(`command.cpp:39-44`). -/
def MStep.plain (p : Project) (gs : List GenMade) : MStep → Option Step
  | .step x => some x
  | .genSource i id =>
    match gs[i]? with
    | none => none
    | some g => (g.filled.get id).map fun v => .call (.addSource (Path.lexRelative v p.rootDir) [])

/-- The calls of a target. -/
def plainSteps (p : Project) (gs : List GenMade) : List MStep → Option (List Step)
  | [] => some []
  | x :: l =>
    match x.plain p gs with
    | none => none
    | some y => (plainSteps p gs l).map (y :: ·)

/-- The targets. -/
def plainDecls (p : Project) (gs : List GenMade) : List MDecl → Option (List Decl)
  | [] => some []
  | d :: l =>
    match plainSteps p gs d.steps with
    | none => none
    | some steps => (plainDecls p gs l).map (⟨d.name, d.type, d.dir, steps⟩ :: ·)

/-- The script up to `Reg::Run`.  All of what targets take from generators is read first, which makes no
difference, because it does not depend on the targets. -/
def MText.run (junk : Nat → TargetSchema) (p : Project) (list : Str → Option (List Str))
    (ord : List Str → List Str) (tc : Toolchain) (s : MText) : Option (List GenMade × List Filled) :=
  match runGens p ord s.gens with
  | none => none
  | some gs =>
    match plainDecls p gs s.targets with
    | none => none
    | some ds => (Text.run junk p list tc ⟨s.infos, ds, s.deps, s.tests⟩).map (gs, ·)

/-- The names under which the targets and the generators are registered. -/
def MText.idAt (s : MText) (tc : Toolchain) (i : Nat) : Str :=
  ((s.targets[i]?).map fun d => Path.targetId tc.name d.name).getD []

def MText.genAt (s : MText) (i : Nat) : Str := ((s.gens[i]?).map (·.name)).getD []

/-- What the script registers: generators with `Reg::Call().Build`, and the rest as in `Text.calls`. -/
def MText.calls (s : MText) (tc : Toolchain) (clean : Bool) (c : Reg.Condition) : List Reg.Call :=
  .callFunc clean 0 :: s.gens.map (fun g => .callBuild true g.name) ++
    (List.range (s.infos.length + 1)).map (fun k => .func c (k + 1)) ++
    s.targets.map (fun d => .build c (Path.targetId tc.name d.name)) ++
    s.deps.map (fun e => .dep c (s.idAt tc e.1) (s.idAt tc e.2)) ++
    s.uses.map (fun e => .dep c (s.idAt tc e.1) (s.genAt e.2)) ++
    s.tests.map (fun k => .test c (s.idAt tc k))

end Verif.Sample
