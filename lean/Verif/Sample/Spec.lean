import Verif.Sample.Model
import Verif.Reg.ProjectProps

/-!
# Vocabulary for build scripts given by their text

Conditions on the text of a script, which do not depend on the place where it is run.
-/

namespace Verif.Sample
open Verif Verif.Schema Verif.Target Verif.Toolchain
open Verif.Path (PlainName filename Inside)
open Verif.Reg (Absolute ScriptTarget Reaches)
open Verif.Boot (Filled)

/-- The file names of the sources that a call adds. -/
def opNames : ApiOp → List Str
  | .addSource f _ => [filename f]
  | .addSourceAbsolute f => [filename f]
  | _ => []

/-- A call that adds no other source and no library. -/
def Own : ApiOp → Prop
  | .globSources _ | .globSourcesAbsolute _ | .addLib _ | .copy .. | .insert .. => False
  | .addSource f _ => PlainName (filename f)
  | .addSourceAbsolute f => PlainName (filename f)
  | _ => True

instance : DecidablePred Own := fun op => by cases op <;> unfold Own <;> infer_instance

/-- The file names of the sources that a call on a target adds, when `infos` and `ts` are those of the
objects before it. -/
def stepNames (infos ts : List (List Str)) : Step → List Str
  | .call op => opNames op
  | .libDep _ => []
  | .insert i o => if .sources ∈ o then ts[i]?.getD [] else []
  | .insertInfo i o => if .sources ∈ o then infos[i]?.getD [] else []
  | .copyInfo _ _ => []

/-- The file names of the sources of all targets, after targets with the sources `ts`. -/
def namesFrom (infos ts : List (List Str)) : List Decl → List (List Str)
  | [] => ts
  | d :: l => namesFrom infos (ts ++ [d.steps.flatMap (stepNames infos ts)]) l

def Text.infoNames (s : Text) : List (List Str) := s.infos.map fun x => x.2.flatMap opNames

/-- The file names of the sources of each target. -/
def Text.names (s : Text) : List (List Str) := namesFrom s.infoNames [] s.targets

/-- The targets from which a call takes libraries. -/
def Step.linked : Step → List Nat
  | .libDep i => [i]
  | .insert i o => if .libs ∈ o then [i] else []
  | _ => []

/-- A call of the `k`th target. -/
def Step.Fine (k : Nat) : Step → Prop
  | .call op => Own op
  | .libDep i => i < k
  | .insert i o => i < k ∧ o.Nodup
  | .insertInfo _ o => o.Nodup
  | .copyInfo _ o => .sources ∉ o ∧ .libs ∉ o

instance (k : Nat) : DecidablePred (Step.Fine k) := fun s => by cases s <;> unfold Step.Fine <;> infer_instance

/-- The text of the script keeps to these rules. -/
structure Neat (s : Text) : Prop where
  /-- Targets have plain names without dots, which do not begin as that of the precompiled header. -/
  plain : ∀ d ∈ s.targets, PlainName d.name ∧ c!"." ∉ d.name ∧ ¬ b!"buildcc_pch" <+: d.name
  /-- Header-only libraries and targets are given single sources, and libraries from earlier targets. -/
  infos : ∀ x ∈ s.infos, ∀ op ∈ x.2, Own op
  steps : ∀ d ∈ s.targets.zipIdx, ∀ x ∈ d.1.steps, x.Fine d.2
  /-- The sources of a target have different file names, with an extension. -/
  sources : ∀ l ∈ s.names, l.Nodup ∧ ∀ n ∈ l, c!"." ∈ n
  /-- Targets have different names. -/
  names : (s.targets.map (·.name)).Nodup
  /-- Dependencies are on earlier targets, and declared once; so are tests. -/
  deps : s.deps.Nodup ∧ ∀ e ∈ s.deps, e.2 < e.1 ∧ e.1 < s.targets.length
  tests : s.tests.Nodup ∧ ∀ k ∈ s.tests, k < s.targets.length
  /-- Targets from which libraries are taken are declared as dependencies. -/
  linked : ∀ d ∈ s.targets.zipIdx, ∀ x ∈ d.1.steps, ∀ i ∈ x.linked, (d.2, i) ∈ s.deps

instance (s : Text) : Decidable (Neat s) :=
  decidable_of_iff ((∀ d ∈ s.targets, PlainName d.name ∧ c!"." ∉ d.name ∧
      ¬ b!"buildcc_pch" <+: d.name) ∧ (∀ x ∈ s.infos, ∀ op ∈ x.2, Own op) ∧
    (∀ d ∈ s.targets.zipIdx, ∀ x ∈ d.1.steps, x.Fine d.2) ∧
    (∀ l ∈ s.names, l.Nodup ∧ ∀ n ∈ l, c!"." ∈ n) ∧ (s.targets.map (·.name)).Nodup ∧
    (s.deps.Nodup ∧ ∀ e ∈ s.deps, e.2 < e.1 ∧ e.1 < s.targets.length) ∧
    (s.tests.Nodup ∧ ∀ k ∈ s.tests, k < s.targets.length) ∧
    ∀ d ∈ s.targets.zipIdx, ∀ x ∈ d.1.steps, ∀ i ∈ x.linked, (d.2, i) ∈ s.deps)
    ⟨fun ⟨a, b, c, d, e, f, g, h⟩ => ⟨a, b, c, d, e, f, g, h⟩,
      fun ⟨a, b, c, d, e, f, g, h⟩ => ⟨a, b, c, d, e, f, g, h⟩⟩

/-- Every target is declared to depend, directly or through others, on the targets from which it takes
libraries. -/
def Declared (s : Text) (tc : Toolchain) (deps : List (Str × Str)) : Prop :=
  ∀ d ∈ s.targets, ∀ x ∈ d.steps, ∀ i ∈ x.linked, ∀ e, s.targets[i]? = some e →
    Reaches deps (Decl.id tc e) (d.id tc)

/-- The place where the script runs: the build directory, and the name and the extensions of the
toolchain. -/
structure Place (p : Project) (tc : Toolchain) : Prop where
  build : Absolute p.buildDir
  name : PlainName tc.name
  exts : PlainExt tc.config.objExt ∧ PlainExt tc.config.pchHeaderExt ∧ PlainExt tc.config.pchCompileExt

/-- The targets of a script that ran to `Reg::Run`, with the orders in which objects are linked. -/
def scriptTargets (fs : List Filled) (order : Str → List Str) : List ScriptTarget :=
  fs.map fun f => ⟨f.made, f.cfg, order f.made.name⟩

end Verif.Sample
