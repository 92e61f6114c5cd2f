import Verif.Reg.Halt
import Verif.Reg.OneScript

/-! # Vocabulary for builds that follow a build -/

namespace Verif.Reg
open Verif Verif.Schema
open Verif.Target (Fixed paths)

/-- A command or a callback of the builder is being run. -/
def Working : Comp → Prop
  | .target _ σ => ∃ r, σ.run = some r ∧
      (r.phase = .pchRun ∨ (r.phase = .objRun ∧ r.pending ≠ []) ∨ r.phase = .linkRun)
  | .gen σ => ∃ r id, σ.run = some r ∧ id ∈ Generator.keys r.cfg ∧ r.status id = .calling

/-- A build script that declares what its builders need from one another. -/
structure Plan (w : World) (g : Graph) (s : Str → Setup) : Prop where
  valid : Valid g
  acyclic : Acyclic g.edges
  declared : Declared w g s

/-- What happens in a process that is left alone, up to the end of its build. -/
def WEvent.inside : WEvent → Bool
  | .begin _ | .task _ _ _ | .look _ _ => true
  | _ => false

/-- A process is started that runs the script; it is not disturbed and has come to `w'`. -/
structure RunsScript (w : World) (g : Graph) (s : Str → Setup) (mid : List WEvent) (w' : World) :
    Prop where
  plan : Plan w g s
  idle : w.active = false
  launched : (w.step (.launch g s)).active = true
  inside : ∀ e ∈ mid, e.inside = true
  result : (w.step (.launch g s)).steps mid = w'

/-- No source is listed twice; the data handlers find data equal to itself. -/
def Regular : Setup → Prop
  | .target c _ => (paths c.sources).Nodup
  | .gen c => Generator.Reflexive c

/-- The event does not concern the builder: its state file is not deleted, and it is not part
of a script that is started. -/
def WEvent.leavesOut (j : Str) : WEvent → Bool
  | .dropState id => id ≠ j
  | .launch g _ => j ∉ g.ids
  | _ => true

/-- The same state file and the same artifacts. -/
def SameStored : Comp → Comp → Prop
  | .target _ σ, .target _ κ =>
    σ.stateFile = κ.stateFile ∧ σ.objs = κ.objs ∧ σ.pch = κ.pch ∧ σ.bin = κ.bin
  | .gen σ, .gen κ => σ.stateFile = κ.stateFile ∧ σ.last = κ.last
  | _, _ => False

/-- The scripts that are started consist of builders of the first one in the same
configuration, no file is changed from outside and no state file is deleted; processes may be
killed. -/
def Again (w : World) (g : Graph) (s : Str → Setup) : WEvent → Prop
  | .edit _ _ | .delete _ | .dropState _ => False
  | .launch g' s' => Plan w g' s' ∧ (∀ j ∈ g'.ids, j ∈ g.ids) ∧ ∀ j ∈ g'.ids, SameSetup (s' j) (s j)
  | _ => True

end Verif.Reg
