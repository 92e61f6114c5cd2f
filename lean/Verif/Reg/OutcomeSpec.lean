import Verif.Reg.Again

/-!
# When a build succeeds: specification

What a build script needs in order to build, in terms of files, commands and states.
-/

namespace Verif.Reg
open Verif Verif.Schema
open Verif.Target (outputPath)

/-- In the present run a command or a callback of the builder failed, or its state could not be
stored. -/
def Faulty : Comp → Prop
  | .target _ σ => Target.Entry.pch false ∈ σ.log ∨ (∃ p, Target.Entry.obj p false ∈ σ.log) ∨
      Target.Entry.link false ∈ σ.log ∨ Target.Entry.storeFailed ∈ σ.log
  | .gen σ => (∃ id, Generator.Entry.called id false ∈ σ.log) ∨
      Generator.Entry.storeFailed ∈ σ.log

/-- Every file that the builder reads exists. -/
def Present (files : Str → Option Nat) (s : Setup) : Prop := ∀ p ∈ s.inputs, ∃ t, files p = some t

/-- The functions that the user gives for the data of an id do not throw: the data can be
serialised, and compared with the data stored before. -/
def Accepts : Comp → Setup → Prop
  | .gen σ, .gen c => ∀ id i h, Generator.find id c = some i → i.handler = some h →
      ∃ b, h.getSerializedData = some b ∧ ∀ x prev, loadGenFile σ.stateFile = some x →
        Generator.find id x.ids = some prev → ∃ r, h.checkChanged prev.userblob b = some r
  | _, _ => True

/-- There is no state of an earlier run. -/
def Unbuilt : Comp → Prop
  | .target _ σ => loadTargetFile σ.stateFile = none
  | .gen σ => loadGenFile σ.stateFile = none

/-- The files that a successful run of the builder is for. -/
def yields : Comp → Setup → List Str
  | .target fx _, .target _ _ => [outputPath fx]
  | .gen _, .gen c => c.flatMap fun x => x.2.outputs
  | _, _ => []

/-- Every file that a builder reads exists, or it is the product of a builder of the script that
was never built. -/
def Provided (w : World) (g : Graph) (s : Str → Setup) : Prop :=
  ∀ b ∈ g.ids, ∀ p ∈ (s b).inputs, (∃ t, w.files p = some t) ∨
    ∃ a ∈ g.ids, Unbuilt (w.comps a) ∧ p ∈ yields (w.comps a) (s a)

/-- Commands and callbacks remove no files, and a callback that returns true has written all
outputs of its id. -/
def Thorough (s : Str → Setup) : WEvent → Prop
  | .task j e ws => (∀ x ∈ ws, x.2.isSome = true) ∧
      ∀ id c i, e = .g (.call id true) → s j = .gen c → Generator.find id c = some i →
        ∀ p ∈ i.outputs, ∃ t, (p, some t) ∈ ws
  | _ => True

end Verif.Reg
