import Verif.Generator.Model

/-!
# Vocabulary for the properties of generators

Independent of how the model takes its decisions: what a stored state records, what is
current, which ids need their callback, what a run called.
-/

namespace Verif.Generator
open Verif Verif.Schema Verif.Json
open Verif.Target (Reads fileHash upd)

/-- The versions of the files now: path and timestamp, `none` for a missing file. -/
def versions (f : Str → Option Nat) (l : List Str) : Reads := l.map fun p => (p, fileHash f p)

/-- The versions recorded by a list of path infos. -/
def recorded (l : List PathInfo) : Reads := l.map fun i => (i.path, some i.hash)

/-- What the state has recorded about an id. -/
def storedId (L : Option GenSchema) (id : Str) : Option IdInfo := L.bind fun s => find id s.ids

/-- The configuration of the id, the versions of its inputs and its blob are as recorded. -/
structure Unchanged (f : Str → Option Nat) (s : IdInfo) (i : IdCfg) : Prop where
  inputs : recorded s.inputs = versions f i.inputs
  outputs : s.outputs = i.outputs
  blob : ∀ h, i.handler = some h →
    ∃ b, h.serialize = some b ∧ h.isEqual s.userblob b = some true

/-- The id is part of the generator and nothing, or something else, is recorded for it. -/
def Need (f : Str → Option Nat) (L : Option GenSchema) (c : Cfg) (id : Str) : Prop :=
  ∃ i, find id c = some i ∧ ∀ s, storedId L id = some s → ¬ Unchanged f s i

/-- The ids whose callback ran, in the order in which the callbacks returned. -/
def calledIds (log : List Entry) : List Str := log.filterMap fun
  | .called id _ => some id
  | _ => none

/-- The id was brought up to date by the run: its callback succeeded or was not needed. -/
def Completed (log : List Entry) (id : Str) : Prop :=
  Entry.called id true ∈ log ∨ Entry.unchanged id ∈ log

/-- The event comes from outside of the running generator. -/
def Event.outside : Event → Bool
  | .edit _ _ | .delete _ | .dropState | .start _ | .crash _ _ => true
  | _ => false

/-- From the idle state `σ₀` the generator `c` is started and runs without changes from
outside up to `σ`. -/
structure QuietRun (σ₀ : Sys) (c : Cfg) (mid : List Event) (σ : Sys) : Prop where
  idle : σ₀.run = none
  ids : (keys c).Nodup
  quiet : ∀ e ∈ mid, e.outside = false
  result : steps (step σ₀ (.start c)) mid = σ

/-- The blob handlers of the generator find their own data equal to itself. -/
def Reflexive (c : Cfg) : Prop :=
  ∀ id i h b, find id c = some i → i.handler = some h → h.serialize = some b →
    h.isEqual b b = some true

/-- The inputs of all ids. -/
def inputsOf (c : Cfg) : List Str := c.flatMap fun x => x.2.inputs

/-- Nothing relevant to `c` happened between `σ` and `σ'`. -/
structure Untouched (c : Cfg) (σ σ' : Sys) : Prop where
  files : ∀ p ∈ inputsOf c, σ'.files p = σ.files p
  stateFile : σ'.stateFile = σ.stateFile

end Verif.Generator
