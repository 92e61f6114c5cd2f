import Verif.Target.Model

/-!
# Micro-step model of a custom generator

`CustomGenerator` (`buildcc/lib/target/src/custom_generator/custom_generator.cpp`,
`buildcc/lib/target/include/target/custom_generator.h`).

A system state holds the input files, what the last callback of each id was given, the
stored state and, while a run is active, the state of the `CustomGenerator` object.
`step` is one event; events that are not possible in a state change nothing, so
`steps σ evs` for an arbitrary list covers every history, every interleaving of the id
tasks, every failure pattern and every crash point.

Simplifications.
* An input file is a stamp, as in `Target/Model.lean`.
* The task of an id hashes its inputs and takes its decision at one instant
  (`task`).  Its callback may read each input at another instant between then and its
  end (`look`, `call`).
* The data of a blob handler does not change during a run.
* The lists of inputs and outputs of an id are in the order in which the
  `unordered_set`s are iterated by `AddIdInfo`.
* One process at a time works on the generator; several are in `Many.lean`.
-/

namespace Verif.Generator
open Verif Verif.Schema Verif.Json Verif.Command
open Verif.Target (Reads fileHash upd)

abbrev Blob := List UInt8

/-- `CustomBlobHandler` (`custom_blob_handler.h:32-61`).  The three functions are the
user's; `none` is a thrown exception. -/
structure Handler where
  verify : Blob → Bool                    -- `Verify`
  isEqual : Blob → Blob → Option Bool     -- `IsEqual`
  serialize : Option Blob                 -- `Serialize`

/-- `CustomBlobHandler::CheckChanged` (`custom_blob_handler.h:37-46`). -/
def Handler.checkChanged (h : Handler) (previous current : Blob) : Option Bool :=
  if !h.verify previous then none
  else if !h.verify current then none
  else (h.isEqual previous current).map (!·)

/-- `CustomBlobHandler::GetSerializedData` (`custom_blob_handler.h:48-54`). -/
def Handler.getSerializedData (h : Handler) : Option Blob :=
  match h.serialize with
  | none => none
  | some b => if h.verify b then some b else none

/-- What `AddIdInfo` records for an id (`custom_generator.cpp:221-231`), without the
callback, whose outcome is part of the events. -/
structure IdCfg where
  inputs : List Str
  outputs : List Str
  handler : Option Handler

/-- `user_.ids`: a map, here a list of pairs. -/
abbrev Cfg := List (Str × IdCfg)

/-- Look a key up (`unordered_map::find`). -/
def find {α : Type} (id : Str) : List (Str × α) → Option α
  | [] => none
  | (k, a) :: l => if k = id then some a else find id l

/-- `command_.Construct` on every pattern of a set, then `ToPathString` (`Emplace`);
`none` is a fatal error (`custom_generator.cpp:222-229`, `path.h:111-114,162-165`). -/
def constructPaths (cmd : Defaults) : List Str → Option (List Str)
  | [] => some []
  | p :: l =>
    match construct cmd p [], constructPaths cmd l with
    | .value s, some r => some (Path.toPathString s :: r)
    | _, _ => none

/-- `CustomGenerator::AddIdInfo` (`custom_generator.cpp:212-233`); `none` is a fatal
error: a duplicate id, a missing callback, or a pattern that cannot be constructed. -/
def addIdInfo (cmd : Defaults) (c : Cfg) (id : Str) (inputs outputs : List Str) (hasCb : Bool)
    (handler : Option Handler) : Option Cfg :=
  if (find id c).isSome then none
  else if !hasCb then none
  else
    match constructPaths cmd inputs, constructPaths cmd outputs with
    | some i, some o => some (c ++ [(id, ⟨i, o, handler⟩)])
    | _, _ => none

/-- `PathInfoList::ComputeHashForAll` (`path.h:176-180`); `none` is the fatal error for
a missing file. -/
def hashPaths (files : Str → Option Nat) : List Str → Option (List PathInfo)
  | [] => some []
  | p :: l =>
    match fileHash files p, hashPaths files l with
    | some h, some r => some (⟨p, h⟩ :: r)
    | _, _ => none

/-- The blob of an id (`custom_generator.h:44-45`). -/
def blobOf : Option Handler → Option Blob
  | none => some []
  | some h => h.getSerializedData

/-- `UserIdInfo::ConvertToInternal` (`custom_generator.h:42-46`); `none` is an exception. -/
def convert (files : Str → Option Nat) (i : IdCfg) : Option IdInfo :=
  match hashPaths files i.inputs, blobOf i.handler with
  | some inputs, some blob => some ⟨inputs, i.outputs, blob⟩
  | _, _ => none

/-- `Comparator::IsChanged` (`custom_generator.cpp:71-85`); `none` is an exception. -/
def isChanged (handler : Option Handler) (previous current : IdInfo) : Option Bool :=
  if previous.inputs ≠ current.inputs || previous.outputs ≠ current.outputs then some true
  else
    match handler with
    | none => some false
    | some h => h.checkChanged previous.userblob current.userblob

/-- The decision of `TaskFunctor` (`custom_generator.cpp:131-134`): `none` is an
exception.  An id is "added" when nothing was loaded (`AddAllIds`) or it is not among
the loaded ids (`CompareAndAddIds`, 42-69). -/
def decision (files : Str → Option Nat) (load : Option GenSchema) (id : Str) (i : IdCfg) :
    Option Bool :=
  match convert files i with
  | none => none
  | some cur =>
    match load.bind fun s => find id s.ids with
    | none => some true
    | some prev => isChanged i.handler prev cur

/-- `ComputeBuild` (`custom_generator.cpp:163-187`): nothing was loaded, an id was
removed, or an id was added. -/
def computeBuild (load : Option GenSchema) (c : Cfg) : Bool :=
  match load with
  | none => true
  | some s =>
    (s.ids.any fun x => (find x.1 c).isNone) || (c.any fun x => (find x.1 s.ids).isNone)

/-! ## State -/

/-- What a callback was given and read; `ok` once it returned true. -/
structure Call where
  inputs : Reads
  outputs : List Str
  blob : Blob
  ok : Bool
deriving DecidableEq, Repr

/-- Where the task of an id is; the last one carries `TaskState`
(`custom_generator.cpp:113-116`). -/
inductive Status where
  | waiting
  | calling
  | ended (shouldRun runSuccess : Bool)
deriving DecidableEq, Repr

/-- What happened in a run, in order. -/
inductive Entry where
  | called (id : Str) (ok : Bool)   -- the callback ran and returned
  | unchanged (id : Str)            -- no callback needed
  | broken (id : Str)               -- an exception before the callback
  | skipped (id : Str)              -- not looked at because the task state was FAILURE
  | missing                         -- an exception in the last conversion
  | storeFailed                     -- the state could not be stored
  | other                           -- failure outside of this generator
deriving DecidableEq, Repr

/-- The entry records a failure. -/
def Entry.failed : Entry → Bool
  | .called _ ok => !ok
  | .unchanged _ | .skipped _ => false
  | _ => true

structure Run where
  cfg : Cfg
  load : Option GenSchema           -- `serialization_` after `LoadFromFile`
  began : Bool                      -- the Generate task has started the subflow
  status : Str → Status

structure Done where
  cfg : Cfg
  ok : Bool
  stored : Bool

structure Sys where
  files : Str → Option Nat
  used : Str → List Nat
  seen : Str → Str → List (Option Nat)  -- id and file: its versions since the callback started
  view : Str → Str → Option Nat     -- id and file: the version the callback has read
  last : Str → Option Call          -- last callback of each id
  stateFile : Option Str
  run : Option Run
  ok : Bool                         -- `env::get_task_state() == SUCCESS`
  log : List Entry
  done : Option Done
  lost : List Cfg                   -- history variable: configurations of runs that ended
                                    -- without storing after a callback started, since
                                    -- the last store

def Sys.init : Sys where
  files := fun _ => none
  used := fun _ => []
  seen := fun _ _ => []
  view := fun _ _ => none
  last := fun _ => none
  stateFile := none
  run := none
  ok := true
  log := []
  done := none
  lost := []

inductive Event where
  | edit (p : Str) (stamp : Nat)
  | delete (p : Str)
  | dropState
  | otherFail
  | start (c : Cfg)
  | begin
  | task (id : Str)
  | look (id p : Str) (v : Option Nat)
  | call (id : Str) (ok : Bool)
  | finish (order : List Str) (canOpen : Bool)
  | crash (order : List Str) (written : Option Nat)

def Sys.fail (σ : Sys) (e : Entry) : Sys := { σ with ok := false, log := σ.log ++ [e] }

def keys {α : Type} (l : List (Str × α)) : List Str := l.map (·.1)

/-- `CustomGenerator::Build` (`custom_generator.cpp:235-238`) in a new process.  The ids
are distinct because `AddIdInfo` refuses duplicates. -/
def startRun (σ : Sys) (c : Cfg) : Sys :=
  match σ.run with
  | some _ => σ
  | none =>
    if (keys c).Nodup then
      { σ with
        ok := true, log := [], done := none
        run := some { cfg := c, load := loadGenFile σ.stateFile, began := false
                      status := fun _ => .waiting } }
    else σ

/-- Start of the Generate task (`custom_generator.cpp:262-289`): with a failed task state
nothing happens at all. -/
def beginRun (σ : Sys) (r : Run) : Sys :=
  if r.began then σ
  else if !σ.ok then
    { σ with run := none, done := some ⟨r.cfg, false, false⟩ }
  else { σ with run := some { r with began := true } }

def Run.set (r : Run) (id : Str) (s : Status) : Run := { r with status := upd r.status id s }

/-- What a callback is given when its inputs are as in `view`
(`custom_generator.cpp:138-143`). -/
def makeCall (view : Str → Option Nat) (i : IdCfg) (ok : Bool) : Call where
  inputs := i.inputs.map fun p => (p, fileHash view p)
  outputs := i.outputs
  blob := (blobOf i.handler).getD []
  ok := ok

/-- `TaskFunctor::operator()` up to the callback (`custom_generator.cpp:126-143`).  From
the moment the callback starts its outputs are in doubt. -/
def taskRun (σ : Sys) (r : Run) (id : Str) : Sys :=
  match find id r.cfg, r.began, r.status id with
  | some i, true, .waiting =>
    if !σ.ok then
      { σ with log := σ.log ++ [.skipped id], run := some (r.set id (.ended false false)) }
    else
      match decision σ.files r.load id i with
      | none => { σ.fail (.broken id) with run := some (r.set id (.ended false false)) }
      | some true =>
        { σ with run := some (r.set id .calling)
                 last := upd σ.last id (some (makeCall σ.files i false))
                 seen := upd σ.seen id fun p => [σ.files p]
                 view := upd σ.view id σ.files }
      | some false =>
        { σ with log := σ.log ++ [.unchanged id], run := some (r.set id (.ended false true)) }
  | _, _, _ => σ

/-- The callback (`custom_generator.cpp:143-150`). -/
def callRun (σ : Sys) (r : Run) (id : Str) (ok : Bool) : Sys :=
  match find id r.cfg, r.status id with
  | some i, .calling =>
    let σ' := { σ with last := upd σ.last id (some (makeCall (σ.view id) i ok))
                       run := some (r.set id (.ended true ok)) }
    if ok then { σ' with log := σ.log ++ [.called id true] }
    else { σ' with log := σ.log ++ [.called id false], ok := false }
  | _, _ => σ

def Status.isEnded : Status → Bool
  | .ended _ _ => true
  | _ => false

def Status.ran : Status → Bool
  | .ended r _ => r
  | _ => false

def Status.good : Status → Bool
  | .ended _ s => s
  | _ => false

/-- All id tasks have ended: `subflow.join()` returns (`custom_generator.cpp:292`). -/
def Run.joined (r : Run) : Bool := r.began && (keys r.cfg).all fun id => (r.status id).isEnded

def Status.touched : Status → Bool
  | .waiting => false
  | .calling => true
  | .ended r _ => r

/-- History variable: the run ends without storing. -/
def Run.lose (r : Run) (lost : List Cfg) : List Cfg :=
  if (keys r.cfg).any fun id => (r.status id).touched then r.cfg :: lost else lost

/-- `dirty_` after the loop (`custom_generator.cpp:270,295-296`). -/
def Run.dirty (r : Run) : Bool :=
  computeBuild r.load r.cfg || (keys r.cfg).any fun id => (r.status id).ran

/-- `user_final_schema.ConvertToInternal()` (`custom_generator.cpp:294-304`,
`custom_generator.h:52-58`) for the completed ids in iteration order; `none` is an
exception. -/
def convertAll (files : Str → Option Nat) (r : Run) : List Str → Option (List (Str × IdInfo))
  | [] => some []
  | id :: l =>
    if (r.status id).good then
      match (find id r.cfg).bind (convert files), convertAll files r l with
      | some i, some rest => some ((id, i) :: rest)
      | _, _ => none
    else convertAll files r l

/-- The state that is stored.  Its name is never set. -/
def toStore (files : Str → Option Nat) (r : Run) (order : List Str) : Option GenSchema :=
  (convertAll files r order).map fun l => ⟨[], l⟩

/-- The end of the Generate task (`custom_generator.cpp:294-312`); `order` is the
iteration order of `states`. -/
def finishRun (σ : Sys) (r : Run) (order : List Str) (canOpen : Bool) : Sys :=
  if r.dirty then
    match toStore σ.files r order with
    | none =>
      { σ.fail .missing with
        run := none, lost := r.lose σ.lost, done := some ⟨r.cfg, false, false⟩ }
    | some s =>
      match storeText (genText s) canOpen σ.stateFile with
      | (.stored, f) =>
        { σ with stateFile := f, run := none, lost := [], done := some ⟨r.cfg, σ.ok, true⟩ }
      | (_, f) =>
        { σ.fail .storeFailed with
          stateFile := f, run := none, lost := r.lose σ.lost, done := some ⟨r.cfg, false, false⟩ }
  else { σ with run := none, done := some ⟨r.cfg, σ.ok, false⟩ }

/-- The process is killed.  If it is killed while it writes the state file, the file holds
the first `n` bytes of the new text. -/
def crashRun (σ : Sys) (r : Run) (order : List Str) (written : Option Nat) : Sys :=
  let σ' := { σ with run := none, lost := r.lose σ.lost }
  match written with
  | none => σ'
  | some n =>
    if r.joined && r.dirty && order.isPerm (keys r.cfg) then
      match (toStore σ.files r order).bind genText with
      | none => σ'
      | some text =>
        if n < text.length then { σ' with stateFile := some (text.take n) }
        else { σ' with stateFile := some text, lost := [] }
    else σ'

/-- Run an event that needs an active run. -/
def inRun (σ : Sys) (f : Run → Sys) : Sys :=
  match σ.run with
  | some r => f r
  | none => σ

/-- A file gets a version, which the running callbacks read unless they have read it
before. -/
def Sys.put (σ : Sys) (p : Str) (v : Option Nat) : Sys :=
  { σ with files := upd σ.files p v
           seen := fun id => upd (σ.seen id) p (v :: σ.seen id p)
           view := fun id => upd (σ.view id) p v }

/-- The running callback of an id has read a version of a file that the file has had since
the callback started (`custom_generator.cpp:143`). -/
def lookAt (σ : Sys) (r : Run) (id p : Str) (v : Option Nat) : Sys :=
  if r.status id = .calling ∧ v ∈ σ.seen id p then { σ with view := upd σ.view id (upd (σ.view id) p v) } else σ

/-- One event. -/
def step (σ : Sys) : Event → Sys
  | .edit p t => { σ.put p (some t) with used := upd σ.used p (t :: σ.used p) }
  | .delete p => σ.put p none
  | .dropState => if σ.run.isNone then { σ with stateFile := none } else σ
  | .otherFail => if σ.run.isSome then σ.fail .other else σ
  | .start c => startRun σ c
  | .begin => inRun σ (beginRun σ)
  | .task id => inRun σ fun r => taskRun σ r id
  | .look id p v => inRun σ fun r => lookAt σ r id p v
  | .call id ok => inRun σ fun r => callRun σ r id ok
  | .finish order canOpen => inRun σ fun r =>
      if r.joined && order.isPerm (keys r.cfg) then finishRun σ r order canOpen else σ
  | .crash order written => inRun σ fun r => crashRun σ r order written

/-- A history. -/
def steps (σ : Sys) (evs : List Event) : Sys := evs.foldl step σ

end Verif.Generator
