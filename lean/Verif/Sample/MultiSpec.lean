import Verif.Sample.MultiModel

/-!
# Vocabulary for build scripts with several toolchains given by their text
-/

namespace Verif.Sample
open Verif Verif.Schema Verif.Target Verif.Toolchain
open Verif.Path (Inside targetId)
open Verif.Boot (Filled)

/-- The parts whose toolchain is on. -/
def Multi.on (m : Multi) : List Part := m.parts.filter (·.state.build)

/-- The text keeps to the rules of `NeatMixed`, for each toolchain that is on. -/
structure NeatMulti (m : Multi) : Prop where
  gens : ∀ g ∈ m.gens, g.Fine
  names : (m.gens.map (·.name)).Nodup
  parts : ∀ x ∈ m.on, NeatMixed (x.text m.gens)

/-- The place where the script runs.  The toolchains that are on have different names. -/
structure MultiPlace (p : Project) (m : Multi) : Prop where
  build : Reg.Absolute p.buildDir
  place : ∀ x ∈ m.on, MixedPlace p x.tc (x.text m.gens)
  names : (m.on.map (·.tc.name)).Nodup
  brackets : ∀ x ∈ m.on, c!"]" ∉ x.tc.name

/-- No file that is given is in the build directory, but for those that targets take from generators. -/
def OutsideAll (p : Project) (m : Multi) (gs : List GenMade) (r : List (Part × List Filled)) : Prop :=
  (∀ g ∈ gs, ∀ x ∈ g.cfg, ∀ q ∈ x.2.inputs, ¬ Inside p.buildDir q) ∧
  ∀ x ∈ r, Outside p (x.1.text m.gens) gs x.2

/-- The targets of the script, with the orders in which objects are linked, which are given by the names
under which the targets are registered. -/
def multiTargets (r : List (Part × List Filled)) (order : Str → List Str) : List Reg.ScriptTarget :=
  r.flatMap fun x => scriptTargets x.2 fun n => order (targetId x.1.tc.name n)

/-- What the script has registered: the generators, and for each toolchain that is on its targets,
dependencies and tests. -/
def Multi.graph (m : Multi) : Reg.Graph :=
  ⟨m.gens.map (·.name) ++ m.on.flatMap fun x => x.targets.map fun d => targetId x.tc.name d.name,
    m.on.flatMap fun x => ((x.text m.gens).graph x.tc x.state.test).edges,
    m.on.flatMap fun x => ((x.text m.gens).graph x.tc x.state.test).tests⟩

end Verif.Sample
