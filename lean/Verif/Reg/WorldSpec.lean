import Verif.Reg.Spec
import Verif.Reg.World
import Verif.Target.Commute
import Verif.Generator.SoundSpec

/-! # Vocabulary for builds of several targets and generators -/

namespace Verif.Reg
open Verif Verif.Schema
open Verif.Target (Fixed BinArt objPath outputPath upd paths Clean)
open Verif.Generator (Blob Cfg)

/-- The files that a builder reads. -/
def Setup.inputs : Setup → List Str
  | .target c _ =>
    paths c.sources ++ paths c.headers ++ paths c.pchs ++ paths c.libs ++ paths c.compileDeps
      ++ paths c.linkDeps
  | .gen c => c.flatMap fun x => x.2.inputs

/-- The files that a builder may write. -/
def outputs : Comp → Setup → List Str
  | .target fx _, .target c _ => pchFiles fx ++ (paths c.sources).map (objPath fx) ++ linkFiles fx
  | .gen _, .gen c => c.flatMap fun x => x.2.outputs
  | _, _ => []

/-- Whenever a builder reads a file that a builder writes, the dependency is declared,
directly or through others. -/
def Declared (w : World) (g : Graph) (s : Str → Setup) : Prop :=
  ∀ a ∈ g.ids, ∀ b ∈ g.ids, ∀ p, p ∈ outputs (w.comps a) (s a) → p ∈ (s b).inputs →
    Reaches g.edges a b

/-- The meaning of the data of each generator and its possible configurations. -/
structure Rules where
  means : Str → Str → Blob → Blob → Prop
  configs : Str → Cfg → Prop

/-- The data handlers of every generator are sound. -/
def Rules.Sound (r : Rules) : Prop := ∀ j, Generator.Family (r.means j) (r.configs j)

/-- The rules of the single builders, see `Target.Allowed` and `Generator.Allowed`. -/
def Rules.allowed (r : Rules) (j : Str) : Comp → Ev → Prop
  | .target fx σ, .t e => Target.Allowed fx σ e
  | .gen σ, .g e => Generator.Allowed (r.configs j) σ e
  | _, _ => True

/-- The rules allow to start the builder with this configuration. -/
def StartRule (r : Rules) (j : Str) (c : Comp) : Setup → Prop
  | .target cfg o => r.allowed j c (.t (.start cfg o))
  | .gen cfg => r.allowed j c (.g (.start cfg))

/-- The templates of every target are shipped ones. -/
def ShippedAll (kinds : Str → Kind) : Prop :=
  ∀ j fx, kinds j = .target fx → Target.Shipped fx

/-- What the history may do next.
* Files are changed from outside as the rules of each builder allow it.
* A process declares the dependencies between its builders, and starts each of them with
  a configuration that its rules allow. -/
def WAllowed (r : Rules) (w : World) : WEvent → Prop
  | .edit p t => ∀ j, r.allowed j (w.comps j) (.t (.edit p t)) ∧ r.allowed j (w.comps j) (.g (.edit p t))
  | .delete p => ∀ j, r.allowed j (w.comps j) (.g (.delete p))
  | .launch g s => w.active = false →
    Valid g ∧ Acyclic g.edges ∧ Declared w g s ∧
    ∀ j ∈ g.ids, StartRule r j (w.comps j) (s j)
  | _ => True

/-- Every event of the history is allowed when it happens. -/
def AllWAllowed (r : Rules) : World → List WEvent → Prop
  | _, [] => True
  | w, e :: l => WAllowed r w e ∧ AllWAllowed r (w.step e) l

/-- Everything the builder is for has been made from the present configuration and the
present versions of its input files. -/
def UpToDate (r : Rules) (j : Str) : Setup → Comp → Prop
  | .target c _, .target fx σ => Clean fx σ c
  | .gen c, .gen σ => ∀ id i, Generator.find id c = some i → Generator.Current (r.means j) σ id i
  | _, _ => False

end Verif.Reg
