import Verif.Sample.MixedModel
import Verif.Reg.MixedProps

/-!
# Vocabulary for build scripts with file generators given by their text
-/

namespace Verif.Sample
open Verif Verif.Schema Verif.Target Verif.Toolchain
open Verif.Path (PlainName filename Inside)
open Verif.Generator (FileOp dirNames)
open Verif.Boot (Filled)

/-- The pattern for the file `n` in the directory of a generator. -/
def inDir (n : Str) : Str := b!"{current_build_dir}/" ++ n

/-- The file of such a pattern. -/
def localName (pattern : Str) : Str := pattern.drop (inDir []).length

/-- A pattern for a file in the directory of the generator `gen`, which is not its state file. -/
def LocalPattern (gen pattern : Str) : Prop :=
  pattern = inDir (localName pattern) ∧ PlainName (localName pattern) ∧ c!"{" ∉ localName pattern ∧
    c!"}" ∉ localName pattern ∧ localName pattern ≠ gen ++ b!".json"

instance (g p : Str) : Decidable (LocalPattern g p) := inferInstanceAs (Decidable (_ ∧ _ ∧ _ ∧ _ ∧ _))

/-- The placeholders that a generator defines, with their patterns. -/
def GenDecl.patterns (g : GenDecl) : List (Str × Str) :=
  g.ops.filterMap fun | .addPattern k p => some (k, p) | _ => none

/-- A call on a generator: placeholders are for files in its directory, and so are its outputs. -/
def GenDecl.OpFine (g : GenDecl) : FileOp → Prop
  | .addPattern k p => Command.IsIdent k ∧ k ∉ dirNames ∧ LocalPattern g.name p
  | .addPatterns _ => False
  | .addOutput p => p ∈ g.patterns.map (fun x => b!"{" ++ x.1 ++ b!"}") ∨ LocalPattern g.name p
  | .addInput _ | .addCommand _ _ => True

instance (g : GenDecl) : DecidablePred g.OpFine := fun op => by
  cases op <;> unfold GenDecl.OpFine <;> infer_instance

/-- A generator with a plain name, whose placeholders are defined once. -/
def GenDecl.Fine (g : GenDecl) : Prop :=
  PlainName g.name ∧ c!"[" ∉ g.name ∧ (∀ op ∈ g.ops, g.OpFine op) ∧ (g.patterns.map (·.1)).Nodup

instance : DecidablePred GenDecl.Fine := fun _ => inferInstanceAs (Decidable (_ ∧ _ ∧ _ ∧ _))

/-- The pattern of the placeholder `id` of the `i`th generator. -/
def MText.patternAt (s : MText) (i : Nat) (id : Str) : Str :=
  (((s.gens[i]?.getD ⟨[], [], []⟩).patterns.find? (·.1 = id)).map (·.2)).getD []

/-- The call, with the name of the file that it takes from a generator. -/
def MStep.named (s : MText) : MStep → Step
  | .step x => x
  | .genSource i id => .call (.addSource (localName (s.patternAt i id)) [])

/-- The script without generators, in which a file from a generator is given by its name only. -/
def MText.named (s : MText) : Text :=
  ⟨s.infos, s.targets.map fun d => ⟨d.name, d.type, d.dir, d.steps.map (MStep.named s)⟩, s.deps, s.tests⟩

/-- The `k`th target, in `dir`, may take a file from a generator: it is declared to depend on the
generator, the file is an output of that, and the directory of the target is that of the project. -/
def MStep.Fine (s : MText) (k : Nat) (dir : Str) : MStep → Prop
  | .step _ => True
  | .genSource i id => (k, i) ∈ s.uses ∧ dir = [] ∧
      id ∈ (s.gens[i]?.getD ⟨[], [], []⟩).patterns.map (·.1) ∧
      b!"{" ++ id ++ b!"}" ∈ Generator.outputPatterns (s.gens[i]?.getD ⟨[], [], []⟩).ops

instance (s : MText) (k : Nat) (dir : Str) : DecidablePred (MStep.Fine s k dir) := fun x => by
  cases x <;> unfold MStep.Fine <;> infer_instance

/-- The text of the script keeps to these rules. -/
structure NeatMixed (s : MText) : Prop where
  gens : ∀ g ∈ s.gens, g.Fine
  /-- Generators have different names. -/
  names : (s.gens.map (·.name)).Nodup
  /-- Without its generators it keeps to the rules for scripts without generators. -/
  text : Neat s.named
  /-- Dependencies on generators are declared once. -/
  uses : s.uses.Nodup ∧ ∀ e ∈ s.uses, e.1 < s.targets.length ∧ e.2 < s.gens.length
  steps : ∀ d ∈ s.targets.zipIdx, ∀ x ∈ d.1.steps, x.Fine s d.2 d.1.dir

instance (s : MText) : Decidable (NeatMixed s) :=
  decidable_of_iff ((∀ g ∈ s.gens, g.Fine) ∧ (s.gens.map (·.name)).Nodup ∧ Neat s.named ∧
    (s.uses.Nodup ∧ ∀ e ∈ s.uses, e.1 < s.targets.length ∧ e.2 < s.gens.length) ∧
    ∀ d ∈ s.targets.zipIdx, ∀ x ∈ d.1.steps, x.Fine s d.2 d.1.dir)
    ⟨fun ⟨a, b, c, d, e⟩ => ⟨a, b, c, d, e⟩, fun ⟨a, b, c, d, e⟩ => ⟨a, b, c, d, e⟩⟩

/-- The place where the script runs: if there are generators then the build directory is below the root
directory, and the toolchain is not named as one of them. -/
structure MixedPlace (p : Project) (tc : Toolchain) (s : MText) : Prop where
  place : Place p tc
  below : s.gens ≠ [] → Reg.Absolute p.rootDir ∧ ∃ r, p.buildDir = p.rootDir ++ b!"/" ++ r
  names : ∀ g ∈ s.gens, g.name ≠ tc.name

/-- The file with the placeholder `id` of the `i`th generator. -/
def MText.fileAt (s : MText) (p : Project) (i : Nat) (id : Str) : Str :=
  p.buildDir ++ b!"/" ++ s.genAt i ++ b!"/" ++ localName (s.patternAt i id)

/-- The files that the `k`th target takes from generators. -/
def MText.generated (s : MText) (p : Project) (k : Nat) : List Str :=
  ((s.targets[k]?.map (·.steps)).getD []).filterMap fun
    | .genSource i id => some (s.fileAt p i id)
    | .step _ => none

/-- No file that is given is in the build directory, but for those that targets take from generators. -/
def Outside (p : Project) (s : MText) (gs : List GenMade) (fs : List Filled) : Prop :=
  (∀ g ∈ gs, ∀ x ∈ g.cfg, ∀ q ∈ x.2.inputs, ¬ Inside p.buildDir q) ∧
  ∀ k f, fs[k]? = some f → ∀ q ∈ Reg.given f.cfg, Inside p.buildDir q → q ∈ s.generated p k

/-- The generators of the script. -/
def scriptGens (gs : List GenMade) : List Reg.ScriptGen := gs.map fun g => ⟨g.name, g.cfg⟩

end Verif.Sample
