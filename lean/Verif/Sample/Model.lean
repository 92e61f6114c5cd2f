import Verif.Boot.Model

/-!
# Model of build scripts given by their text

The calls that a script makes between `Reg::Init` and `Reg::Run`, as data: header-only libraries
(`TargetInfo`), targets, and the calls on them in the order in which they are made.  `list` lists
directories.  `none` is the end of the program by a fatal error or an exception.

Simplified: a script has one toolchain.  The targets are made and filled one after the other; a script
may make all of them first, which makes no difference, because a constructor reads nothing of another
target.
-/

namespace Verif.Sample
open Verif Verif.Schema Verif.Target Verif.Toolchain
open Verif.Boot (Filled fill)

/-- A call on a target.  Other objects of the script are named by their numbers. -/
inductive Step where
  /-- A call that takes nothing from other objects. -/
  | call (op : ApiOp)
  /-- `AddLibDep(const Target &)` (`lib_api.cpp:24-28`). -/
  | libDep (i : Nat)
  /-- `Insert(const Target &, options)` (`sync_api.cpp:106-117`). -/
  | insert (i : Nat) (options : List SyncOption)
  /-- `Insert(const TargetInfo &, options)` (`sync_api.cpp:106-117`). -/
  | insertInfo (i : Nat) (options : List SyncOption)
  /-- `Copy(const TargetInfo &, options)` (`sync_api.cpp:25-36`). -/
  | copyInfo (i : Nat) (options : List SyncOption)

/-- A target: `Target_generic name(name, type, toolchain, dir)` (`target_generic.h:108-133`), or the
class for one kind of toolchain, which makes the same target (`C70_same`), and the calls on it. -/
structure Decl where
  name : Str
  type : TargetType
  dir : Str
  steps : List Step

/-- A script: its header-only libraries, `TargetInfo(toolchain, dir)` with the calls on it
(`target_info.h:60-72`), its targets, and what it registers. -/
structure Text where
  infos : List (Str × List ApiOp)
  targets : List Decl
  /-- `Reg::Dep(target, dependency)`, by their numbers. -/
  deps : List (Nat × Nat)
  /-- `Reg::Test(…, target)`. -/
  tests : List Nat

/-- The call with what it takes from other objects. -/
def Step.op (infos : List TargetSchema) (ts : List Filled) : Step → ApiOp
  | .call op => op
  | .libDep i => .addLib ((ts[i]?.map fun f => outputPath f.made.fixed).getD [])
  | .insert i o => .insert ((ts[i]?.map (·.cfg)).getD TargetSchema.empty) o
  | .insertInfo i o => .insert (infos[i]?.getD TargetSchema.empty) o
  | .copyInfo i o => .copy (infos[i]?.getD TargetSchema.empty) o

/-- The header-only libraries of the script. -/
def runInfos (p : Project) (list : Str → Option (List Str)) (tc : Toolchain) :
    List (Str × List ApiOp) → Option (List TargetSchema)
  | [] => some []
  | x :: l =>
    match applyAll ⟨tc.config, Path.append p.rootDir x.1, list⟩ (newTargetInfo tc.user) x.2 with
    | none => none
    | some c => (runInfos p list tc l).map (c :: ·)

/-- The targets of the script, after the targets `ts`. -/
def runTargets (junk : Nat → TargetSchema) (p : Project) (list : Str → Option (List Str))
    (tc : Toolchain) (infos : List TargetSchema) (ts : List Filled) : List Decl → Option (List Filled)
  | [] => some ts
  | d :: l =>
    match targetGeneric junk p d.name d.type tc (TargetEnv.relative p d.dir) with
    | none => none
    | some m =>
      match fill list m (d.steps.map (Step.op infos ts)) with
      | none => none
      | some f => runTargets junk p list tc infos (ts ++ [f]) l

/-- The script up to `Reg::Run`. -/
def Text.run (junk : Nat → TargetSchema) (p : Project) (list : Str → Option (List Str))
    (tc : Toolchain) (s : Text) : Option (List Filled) :=
  match runInfos p list tc s.infos with
  | none => none
  | some infos => runTargets junk p list tc infos [] s.targets

/-- The name under which a target is registered. -/
def Decl.id (tc : Toolchain) (d : Decl) : Str := Path.targetId tc.name d.name

def Text.idAt (s : Text) (tc : Toolchain) (i : Nat) : Str := ((s.targets[i]?).map (Decl.id tc)).getD []

/-- What the script registers, after the callback for `--clean`: its callbacks, here numbered, builders,
dependencies and tests, with the state `c` that the user gave to the toolchain.  Scripts may have
callbacks between builders, which makes no difference. -/
def Text.calls (s : Text) (tc : Toolchain) (clean : Bool) (c : Reg.Condition) : List Reg.Call :=
  .callFunc clean 0 :: (List.range (s.infos.length + 1)).map (fun k => .func c (k + 1)) ++
    s.targets.map (fun d => .build c (d.id tc)) ++
    s.deps.map (fun e => .dep c (s.idAt tc e.1) (s.idAt tc e.2)) ++
    s.tests.map (fun k => .test c (s.idAt tc k))

end Verif.Sample
