import Verif.Sample.MixedBuilt

/-!
# Model of build scripts with several toolchains given by their text

As in `Verif.Sample.MixedModel`, with one part for each toolchain, which the user turns on and off by the
state of the toolchain (`arg_gcc.state` and the like in `example/hybrid`).
-/

namespace Verif.Sample
open Verif Verif.Schema Verif.Target Verif.Toolchain
open Verif.Boot (Filled)

/-- What follows `Reg::Toolchain(state)` for one toolchain, for instance
`example/hybrid/dep_chaining/build.cpp:41-52`. -/
structure Part where
  tc : Toolchain
  state : Reg.Condition
  infos : List (Str × List ApiOp)
  targets : List MDecl
  deps : List (Nat × Nat)
  uses : List (Nat × Nat)
  tests : List Nat

/-- The generators, and a part for each toolchain. -/
structure Multi where
  gens : List GenDecl
  parts : List Part

/-- The script with this toolchain only. -/
def Part.text (gens : List GenDecl) (x : Part) : MText :=
  ⟨gens, x.infos, x.targets, x.deps, x.uses, x.tests⟩

/-- The parts, with their targets.  If a toolchain is off then the targets are made and no callback runs
(`register.h:54-80`).  `junk` is given by the name of the toolchain. -/
def runParts (junk : Str → Nat → TargetSchema) (p : Project) (list : Str → Option (List Str))
    (gs : List GenMade) : List Part → Option (List (Part × List Filled))
  | [] => some []
  | x :: l =>
    if x.state.build then
      match plainDecls p gs x.targets with
      | none => none
      | some ds =>
        match Text.run (junk x.tc.name) p list x.tc ⟨x.infos, ds, x.deps, x.tests⟩ with
        | none => none
        | some fs => (runParts junk p list gs l).map ((x, fs) :: ·)
    else if x.targets.all fun d => (targetGeneric (junk x.tc.name) p d.name d.type x.tc
        (TargetEnv.relative p d.dir)).isSome then
      runParts junk p list gs l
    else none

/-- The script up to `Reg::Run`. -/
def Multi.run (junk : Str → Nat → TargetSchema) (p : Project) (list : Str → Option (List Str))
    (ord : List Str → List Str) (m : Multi) : Option (List GenMade × List (Part × List Filled)) :=
  match runGens p ord m.gens with
  | none => none
  | some gs => (runParts junk p list gs m.parts).map (gs, ·)

/-- What a part registers. -/
def Part.calls (gens : List GenDecl) (x : Part) : List Reg.Call :=
  (List.range (x.infos.length + 1)).map (fun k => .func x.state (k + 1)) ++
    x.targets.map (fun d => .build x.state (Path.targetId x.tc.name d.name)) ++
    x.deps.map (fun e => .dep x.state ((x.text gens).idAt x.tc e.1) ((x.text gens).idAt x.tc e.2)) ++
    x.uses.map (fun e => .dep x.state ((x.text gens).idAt x.tc e.1) ((x.text gens).genAt e.2)) ++
    x.tests.map (fun k => .test x.state ((x.text gens).idAt x.tc k))

/-- What the script registers. -/
def Multi.calls (m : Multi) (clean : Bool) : List Reg.Call :=
  .callFunc clean 0 :: m.gens.map (fun g => .callBuild true g.name) ++ m.parts.flatMap (Part.calls m.gens)

end Verif.Sample
