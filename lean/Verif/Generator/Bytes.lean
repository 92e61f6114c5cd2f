import Verif.Generator.Spec
import Verif.Target.Bytes

/-!
# What the outputs of a generator hold

`Model` knows input files by their time stamps, because that is all the code looks at
(`path.h:206-219`), and describes what a callback did by what it was given.  Here files have a time
stamp and a content, and a callback that succeeds leaves in its outputs what it makes of its data and
of the contents that it read (`custom_generator.cpp:137-145`).  The code is the one of `Model`: it
runs on the stamps.

Simplifications.
* What a callback writes into an output depends on its data, its lists of inputs and outputs, and the
  contents of its inputs only.
* When two versions of a file that were there during one callback have the same stamp, the callback
  reads the later one.
* The outputs of different ids are kept apart: what one id writes does not change what another id has
  written.
-/

namespace Verif.Generator
open Verif Verif.Schema Verif.Json
open Verif.Target (Reads fileHash upd text)

variable {β : Type}

/-- The callbacks (`GenerateCb`, `custom_generator.h:30-31`): id, data, inputs with their contents,
outputs, and the output that is asked for. -/
abbrev Callbacks (β : Type) := Str → Blob → List (Str × Option β) → List Str → Str → β

/-- Files with stamps and contents, contents of the outputs of each id, and the generator. -/
structure BSys (β : Type) where
  sys : Sys
  files : Str → Option (Nat × β)
  seen : Str → Str → List (Option (Nat × β))
  view : Str → Str → Option (Nat × β)
  outs : Str → Str → Option β

def BSys.init : BSys β := ⟨Sys.init, fun _ => none, fun _ _ => [], fun _ _ => none, fun _ _ => none⟩

/-- The events of `Model`, with contents.  A callback that fails leaves its outputs alone, removes
them, or leaves anything in them. -/
inductive BEvent (β : Type) where
  | edit (p : Str) (stamp : Nat) (x : β)
  | delete (p : Str)
  | tamper (id p : Str) (x : Option β)
  | dropState
  | otherFail
  | start (c : Cfg)
  | begin
  | task (id : Str)
  | look (id p : Str) (v : Option Nat)
  | call (id : Str) (ok : Bool) (left : Str → Option (Option β))
  | finish (order : List Str) (canOpen : Bool)
  | crash (order : List Str) (written : Option Nat)

/-- The event as the generator sees it: it does not look at outputs. -/
def BEvent.erase : BEvent β → Option Event
  | .edit p t _ => some (.edit p t)
  | .delete p => some (.delete p)
  | .tamper _ _ _ => none
  | .dropState => some .dropState
  | .otherFail => some .otherFail
  | .start c => some (.start c)
  | .begin => some .begin
  | .task id => some (.task id)
  | .look id p v => some (.look id p v)
  | .call id ok _ => some (.call id ok)
  | .finish o b => some (.finish o b)
  | .crash o w => some (.crash o w)

/-- A file gets another version, or is removed (`Sys.put`). -/
def BSys.put (s : BSys β) (p : Str) (v : Option (Nat × β)) : BSys β :=
  { s with
    files := upd s.files p v
    seen := fun id => upd (s.seen id) p (v :: s.seen id p)
    view := fun id => upd (s.view id) p v }

/-- The callback of the id starts (`taskRun`). -/
def BSys.settle (s : BSys β) (id : Str) : BSys β :=
  { s with seen := upd s.seen id fun p => [s.files p], view := upd s.view id s.files }

/-- The callback of the id has read the version with stamp `v` (`lookAt`). -/
def BSys.lookAt (s : BSys β) (id p : Str) (v : Option Nat) : BSys β :=
  match (s.seen id p).find? (fun y => decide (y.map (·.1) = v)) with
  | some y => { s with view := upd s.view id (upd (s.view id) p y) }
  | none => s

/-- The task of the id calls the callback (`taskRun`, `custom_generator.cpp:126-143`). -/
def calls (σ : Sys) (r : Run) (id : Str) : Bool :=
  match find id r.cfg, r.began, r.status id with
  | some i, true, .waiting => σ.ok && decide (decision σ.files r.load id i = some true)
  | _, _, _ => false

/-- Contents of the inputs of an id. -/
def contentsOf (d : Str → Option β) (l : List Str) : List (Str × Option β) := l.map fun p => (p, d p)

/-- What the callback of an id makes of the contents `d`. -/
def made (C : Callbacks β) (d : Str → Option β) (id : Str) (i : IdCfg) (p : Str) : β :=
  C id ((blobOf i.handler).getD []) (contentsOf d i.inputs) i.outputs p

/-- What the event does to the contents of files: `taskRun` and `callRun` of `Model` with contents
(`custom_generator.cpp:126-150`). -/
def bytesStep (C : Callbacks β) (s : BSys β) : BEvent β → BSys β
  | .edit p t x => s.put p (some (t, x))
  | .delete p => s.put p none
  | .tamper id p x => { s with outs := upd s.outs id (upd (s.outs id) p x) }
  | .task id =>
    match s.sys.run with
    | some r => if calls s.sys r id then s.settle id else s
    | none => s
  | .look id p v =>
    match s.sys.run with
    | some r => if r.status id = .calling then s.lookAt id p v else s
    | none => s
  | .call id ok left =>
    match s.sys.run with
    | some r =>
      match find id r.cfg, r.status id with
      | some i, .calling =>
        { s with outs := upd s.outs id fun p =>
            if p ∈ i.outputs then
              if ok then some (made C (text (s.view id)) id i p) else (left p).getD (s.outs id p)
            else s.outs id p }
      | _, _ => s
    | none => s
  | _ => s

/-- One event. -/
def bstep (C : Callbacks β) (s : BSys β) (e : BEvent β) : BSys β :=
  { bytesStep C s e with sys := match e.erase with
      | some e' => step s.sys e'
      | none => s.sys }

/-- A history. -/
def bsteps (C : Callbacks β) (s : BSys β) (evs : List (BEvent β)) : BSys β := evs.foldl (bstep C) s

/-- Nobody but callbacks changes outputs. -/
def BEvent.untouching : BEvent β → Prop
  | .tamper _ _ _ => False
  | _ => True

end Verif.Generator
