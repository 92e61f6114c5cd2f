import Verif.Reg.Outcome

/-!
# Builds under different schedules: specification

Two builds of the same script that start from the same state of the files.
-/

namespace Verif.Reg
open Verif Verif.Schema Verif.Json

/-- The commands and callbacks of a builder. -/
inductive Cmd where
  | pch
  | obj (source : Str)
  | link
  | call (id : Str)
deriving DecidableEq, Repr

/-- In the present run the builder has executed the command, with success or not. -/
def Carried : Comp → Cmd → Bool → Prop
  | .target _ σ, .pch, b => Target.Entry.pch b ∈ σ.log
  | .target _ σ, .obj p, b => Target.Entry.obj p b ∈ σ.log
  | .target _ σ, .link, b => Target.Entry.link b ∈ σ.log
  | .gen σ, .call id, b => Generator.Entry.called id b ∈ σ.log
  | _, _, _ => False

/-- The state of the builder could not be stored. -/
def Unstored : Comp → Prop
  | .target _ σ => Target.Entry.storeFailed ∈ σ.log
  | .gen σ => Generator.Entry.storeFailed ∈ σ.log

/-- The command that ends with the step, and whether it succeeds. -/
def cmdOf : Comp → Ev → Option (Cmd × Bool)
  | .target _ σ, .t (.pchExec ok _) =>
    match σ.run with
    | some r => if r.phase = .pchRun then some (.pch, ok) else none
    | none => none
  | .target _ σ, .t (.exec k ok _) =>
    match σ.run with
    | some r =>
      if r.phase = .objRun then
        match r.pending[k]? with
        | some i => some (.obj i.path, ok)
        | none => none
      else none
    | none => none
  | .target _ σ, .t (.linkExec ok _) =>
    match σ.run with
    | some r => if r.phase = .linkRun then some (.link, ok) else none
    | none => none
  | .gen σ, .g (.call id ok) =>
    match σ.run with
    | some r =>
      match Generator.find id r.cfg, r.status id with
      | some _, .calling => some (.call id, ok)
      | _, _ => none
    | none => none
  | _, _ => none

/-- What the commands and callbacks of the builders do. -/
structure Behaviour where
  ok : Str → Cmd → Bool               -- builder and command: it succeeds
  writes : Str → Cmd → List Str       -- the files that it writes then

/-- A command that ends behaves like this; of one that fails nothing is said about its files. -/
def Acts (B : Behaviour) (w : World) : WEvent → Prop
  | .task j e ws => ∀ x b, j ∈ w.begun → legal (w.comps j) e w.used ws = true →
      cmdOf (w.comps j) e = some (x, b) → b = B.ok j x ∧
      (b = true → (∀ y ∈ ws, y.2.isSome = true) ∧ ∀ p, p ∈ ws.map (·.1) ↔ p ∈ B.writes j x)
  | _ => True

/-- All commands that end on the way behave like this. -/
def Follows (B : Behaviour) : World → List WEvent → Prop
  | _, [] => True
  | w, e :: l => Acts B w e ∧ Follows B (w.step e) l

/-- The path info carries no time, or a time that the file has had. -/
def Dated (u : Str → List Nat) (i : PathInfo) : Prop := ∀ t, i.hash = digits t → t ∈ u i.path

/-- The times in a stored state of a target are times that the files have had. -/
structure DatedTarget (u : Str → List Nat) (s : TargetSchema) : Prop where
  sources : ∀ i ∈ s.sources, Dated u i
  headers : ∀ i ∈ s.headers, Dated u i
  pchs : ∀ i ∈ s.pchs, Dated u i
  libs : ∀ i ∈ s.libs, Dated u i
  compileDeps : ∀ i ∈ s.compileDeps, Dated u i
  linkDeps : ∀ i ∈ s.linkDeps, Dated u i

/-- The same for the stored state of a builder. -/
def DatedState (u : Str → List Nat) : Comp → Prop
  | .target _ σ => ∀ s, loadTargetFile σ.stateFile = some s → DatedTarget u s
  | .gen σ => ∀ id x, Generator.storedId (loadGenFile σ.stateFile) id = some x → ∀ i ∈ x.inputs, Dated u i

/-- The scripts that are started give paths, not times, to their targets. -/
def Timeless : WEvent → Prop
  | .launch g s => ∀ j ∈ g.ids, ∀ c o, s j = .target c o → DatedTarget (fun _ => []) c
  | _ => True

/-- The builder has ended without a failure. -/
def Ended (w : World) (j : Str) : Prop := w.finished j = true ∧ (w.comps j).ok = true

/-- The two states of the files agree about the file: it is the same version, or a version that it did
not have before, in both. -/
def Alike (u : Str → List Nat) (f f' : Str → Option Nat) (p : Str) : Prop :=
  f p = f' p ∨ ((∃ t, f p = some t ∧ t ∉ u p) ∧ ∃ t, f' p = some t ∧ t ∉ u p)

end Verif.Reg
