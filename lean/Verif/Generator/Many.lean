import Verif.Generator.Sound

/-!
# Several processes that run one generator at the same time

Nothing in the code keeps two processes from running the same generator in the same build
directory (`custom_generator.cpp:235-312`, `env/util.h:50-67`).  Here any number of processes,
each one as in `Model.lean`, share the input files, the outputs and the state file, and take their
steps in any order.

Simplifications, besides those of `Model.lean`.
* `last` says what the callback of an id that was the last one to start or to end was given.
  While a callback of the id runs in some process, its outputs are in doubt whatever `last` says.
* A state file is written at once, except that a process which starts may read it while another
  one writes it (`startDuring`), and that a killed process may leave a part of it.
* Every process has an own log and task state; it starts with a new `CustomGenerator` object.
-/

namespace Verif.Generator
open Verif Verif.Schema Verif.Json
open Verif.Target (Reads fileHash upd)

/-- What belongs to one process: the `CustomGenerator` object while it runs, the task state
(`task_state.cpp`), the result of its last run, and what its callbacks may have read; `fresh` as
long as no file was changed since its last run started. -/
structure Proc where
  seen : Str → Str → List (Option Nat)
  view : Str → Str → Option Nat
  run : Option Run
  ok : Bool
  log : List Entry
  done : Option Done
  fresh : Bool

/-- The process has not run anything. -/
def Proc.init : Proc where
  seen := fun _ _ => []
  view := fun _ _ => none
  run := none
  ok := true
  log := []
  done := none
  fresh := true

/-- The files, and the processes. -/
structure Many where
  files : Str → Option Nat
  used : Str → List Nat
  last : Str → Option Call
  stateFile : Option Str
  procs : Nat → Proc

/-- No file exists and nothing was run. -/
def Many.init : Many where
  files := fun _ => none
  used := fun _ => []
  last := fun _ => none
  stateFile := none
  procs := fun _ => Proc.init

/-- The system as process `k` sees it, when it finds the state file `sf`.  The history variable
`lost`, on which no step depends, is left empty. -/
def Many.at (m : Many) (k : Nat) (sf : Option Str) : Sys where
  files := m.files
  used := m.used
  seen := (m.procs k).seen
  view := (m.procs k).view
  last := m.last
  stateFile := sf
  run := (m.procs k).run
  ok := (m.procs k).ok
  log := (m.procs k).log
  done := (m.procs k).done
  lost := []

def Many.sys (m : Many) (k : Nat) : Sys := m.at k m.stateFile

/-- The part of a system that belongs to a process. -/
def Sys.proc (σ : Sys) (fresh : Bool) : Proc := ⟨σ.seen, σ.view, σ.run, σ.ok, σ.log, σ.done, fresh⟩

/-- Process `k` has made a step, after which it sees `σ`. -/
def Many.take (m : Many) (k : Nat) (σ : Sys) : Many where
  files := σ.files
  used := σ.used
  last := σ.last
  stateFile := σ.stateFile
  procs := fun j =>
    if j = k then σ.proc ((m.procs k).fresh || ((m.procs k).run.isNone && σ.run.isSome))
    else m.procs j

/-- A file gets another version, or is removed; every running callback may read both. -/
def Many.put (m : Many) (p : Str) (v : Option Nat) : Many :=
  { m with
    files := upd m.files p v
    procs := fun j =>
      { m.procs j with
        seen := fun id => upd ((m.procs j).seen id) p (v :: (m.procs j).seen id p)
        view := fun id => upd ((m.procs j).view id) p v
        fresh := false } }

/-- The callback of the id runs in process `k`. -/
def Calling (m : Many) (k : Nat) (id : Str) : Prop :=
  ∃ r i, (m.procs k).run = some r ∧ find id r.cfg = some i ∧ r.status id = .calling

instance (m : Many) (k : Nat) (id : Str) : Decidable (Calling m k id) :=
  match h : (m.procs k).run with
  | none => isFalse (by rintro ⟨r, i, h1, -⟩; simp [h] at h1)
  | some r =>
    if hc : (find id r.cfg).isSome ∧ r.status id = .calling then
      isTrue (by
        obtain ⟨i, hi⟩ := Option.isSome_iff_exists.1 hc.1
        exact ⟨r, i, h, hi, hc.2⟩)
    else isFalse (by
      rintro ⟨r', i, h1, h2, h3⟩
      rw [h] at h1; simp only [Option.some.injEq] at h1; subst h1
      exact hc ⟨by rw [h2]; rfl, h3⟩)

/-- Process `k` is killed: what its callbacks were about to write is broken. -/
def Many.broken (m : Many) (k : Nat) : Many :=
  { m with last := fun id =>
      if Calling m k id then (m.last id).map fun x => { x with ok := false } else m.last id }

/-- Events: a file is changed, the state file is removed, process `k` does something, or process
`k` starts and reads the state file when process `j`, which writes it with `order`, has written
`n` bytes (`env/util.h:50-67`). -/
inductive MEvent where
  | edit (p : Str) (stamp : Nat)
  | delete (p : Str)
  | dropState
  | act (k : Nat) (e : Event)
  | startDuring (k j n : Nat) (order : List Str) (c : Cfg)

/-- One event.  Processes do not change files by hand. -/
def mstep (m : Many) : MEvent → Many
  | .edit p t => { m.put p (some t) with used := upd m.used p (t :: m.used p) }
  | .delete p => m.put p none
  | .dropState => { m with stateFile := none }
  | .act k e =>
    match e with
    | .edit _ _ | .delete _ | .dropState => m
    | .crash order w => (m.broken k).take k (step ((m.broken k).sys k) (.crash order w))
    | e => m.take k (step (m.sys k) e)
  | .startDuring k j n order c =>
    let torn := (step (m.sys j) (.crash order (some n))).stateFile
    { m.take k (step (m.at k torn) (.start c)) with stateFile := m.stateFile }

/-- A history. -/
def msteps (m : Many) (evs : List MEvent) : Many := evs.foldl mstep m

/-! ## Specification -/

/-- All processes run the configuration `c`, files are changed only while no process runs and get
stamps they did not have before, no callback fails, and no process is killed while one of its
callbacks runs. -/
def Together (c : Cfg) (m : Many) : List MEvent → Prop
  | [] => True
  | e :: l =>
    (match e with
      | .edit p t => t ∉ m.used p ∧ ∀ k, (m.procs k).run = none
      | .delete _ => ∀ k, (m.procs k).run = none
      | .dropState => True
      | .act k e =>
        match e with
        | .start c' => c' = c
        | .call _ ok => ok = true
        | .crash _ _ => ∀ id, ¬ Calling m k id
        | _ => True
      | .startDuring _ _ _ _ c' => c' = c) ∧ Together c (mstep m e) l

/-- The last run of process `k` ended with SUCCESS, and no file was changed since it started. -/
def Succeeded (m : Many) (k : Nat) : Prop :=
  ∃ d, (m.procs k).done = some d ∧ d.ok = true ∧ (m.procs k).fresh = true

/-- The last callback of the id succeeded, and was given the configured inputs in their present
versions, the configured outputs and the configured data. -/
def UpToDate (m : Many) (id : Str) (i : IdCfg) : Prop :=
  ∃ x, m.last id = some x ∧ x.ok = true ∧ x.inputs = versions m.files i.inputs ∧
    x.outputs = i.outputs ∧ blobOf i.handler = some x.blob

end Verif.Generator
