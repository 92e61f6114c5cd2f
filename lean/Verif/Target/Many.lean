import Verif.Target.Discipline

/-!
# Several build processes on one target at the same time

Nothing in the code keeps two processes from building the same target in the same build
directory: there is no lock file (`target.cpp`, `tasks.cpp`, `env/util.h:50-67`).  Here any
number of processes, each one as in `Model.lean`, share the input files, the built files and
the state file, and take their steps in any order.

Simplifications, besides those of `Model.lean`.
* The output of a command appears at once when the command ends, also for the others.
* A state file is written at once, except that a process which starts may read it while another
  one writes it (`startDuring`), and that a killed process may leave a part of it.
* Every process has an own log, task state and toolchain; it starts with a new `Target` object.
-/

namespace Verif.Target
open Verif Verif.Command Verif.Schema Verif.Json

/-- What belongs to one process: the `Target` object while it is built, the task state
(`task_state.cpp`), the result of its last build, and what its commands may have read. -/
structure Proc where
  seen : Str → List (Option Nat)
  view : Str → Option Nat
  run : Option Run
  ok : Bool
  log : List Entry
  done : Option Done
  fresh : Bool

/-- The process has not built anything. -/
def Proc.init : Proc where
  seen := fun _ => [none]
  view := fun _ => none
  run := none
  ok := true
  log := []
  done := none
  fresh := true

/-- The files, and the processes. -/
structure Many where
  files : Str → Option Nat
  used : Str → List Nat
  objs : Str → Option ObjArt
  pch : Option PchArt
  bin : Option BinArt
  stateFile : Option Str
  procs : Nat → Proc

/-- No file exists and nothing was built. -/
def Many.init : Many where
  files := fun _ => none
  used := fun _ => []
  objs := fun _ => none
  pch := none
  bin := none
  stateFile := none
  procs := fun _ => Proc.init

/-- The system with the local part `l`, the state file `sf` and given history variables. -/
def Many.at (m : Many) (l : Proc) (sf : Option Str) (sv : TargetSchema) (lo : List TargetSchema) :
    Sys where
  files := m.files
  used := m.used
  seen := l.seen
  view := l.view
  objs := m.objs
  pch := m.pch
  bin := m.bin
  stateFile := sf
  run := l.run
  ok := l.ok
  log := l.log
  done := l.done
  saved := sv
  fresh := l.fresh
  lost := lo

/-- The system as process `k` sees it.  The history variables `saved` and `lost`, on which no
step depends, are left empty. -/
def Many.sys (m : Many) (k : Nat) : Sys := m.at (m.procs k) m.stateFile TargetSchema.empty []

/-- The part of a system that belongs to a process. -/
def Sys.proc (σ : Sys) : Proc := ⟨σ.seen, σ.view, σ.run, σ.ok, σ.log, σ.done, σ.fresh⟩

/-- Process `k` has made a step, after which it sees `σ`. -/
def Many.take (m : Many) (k : Nat) (σ : Sys) : Many where
  files := σ.files
  used := σ.used
  objs := σ.objs
  pch := σ.pch
  bin := σ.bin
  stateFile := σ.stateFile
  procs := fun j => if j = k then σ.proc else m.procs j

/-- A file gets another version, or is removed; every process may have read both. -/
def Many.put (m : Many) (p : Str) (v : Option Nat) : Many :=
  { m with
    files := upd m.files p v
    procs := fun j =>
      { m.procs j with
        seen := upd (m.procs j).seen p (v :: (m.procs j).seen p)
        view := upd (m.procs j).view p v, fresh := false } }

/-- Events: a file is changed, process `k` does something, or process `k` starts and reads the
state file when process `j`, which writes it, has written `n` bytes (`env/util.h:50-67`). -/
inductive MEvent where
  | edit (p : Str) (stamp : Nat)
  | delete (p : Str)
  | act (k : Nat) (e : Event)
  | startDuring (k j n : Nat) (c : TargetSchema) (order : List Str)

/-- One event.  Processes do not change files by hand. -/
def mstep (fx : Fixed) (m : Many) : MEvent → Many
  | .edit p t => { m.put p (some t) with used := upd m.used p (t :: m.used p) }
  | .delete p => m.put p none
  | .act k e => if e.outside then m else m.take k (step fx (m.sys k) e)
  | .startDuring k j n c order =>
    let torn := (step fx (m.sys j) (.crash (some n))).stateFile
    { m.take k (step fx { m.sys k with stateFile := torn } (.start c order)) with
      stateFile := m.stateFile }

/-- A history. -/
def msteps (fx : Fixed) (m : Many) (evs : List MEvent) : Many := evs.foldl (mstep fx) m

/-! ## Specification -/

/-- A failed command leaves its output as it was. -/
def Event.tidy : Event → Bool
  | .pchExec false (some _) | .exec _ false (some _) | .linkExec false (some _) => false
  | _ => true

/-- All processes build the configuration `c`, files are changed only while no process builds
and get stamps they did not have before, and failed commands leave their outputs alone.
Processes may start, fail, be killed and store, or fail to store, at any time. -/
def Together (fx : Fixed) (c : TargetSchema) (m : Many) : List MEvent → Prop
  | [] => True
  | e :: l =>
    (match e with
      | .edit p t => t ∉ m.used p ∧ ∀ k, (m.procs k).run = none
      | .delete _ => ∀ k, (m.procs k).run = none
      | .act _ e => e.tidy = true ∧ ∀ c' o, e = .start c' o → c' = c
      | .startDuring _ _ _ c' _ => c' = c) ∧ Together fx c (mstep fx m e) l

/-- The last build of process `k` ended with SUCCESS, and no file was changed since it
started. -/
def Succeeded (m : Many) (k : Nat) : Prop :=
  ∃ d, (m.procs k).done = some d ∧ d.ok = true ∧ (m.procs k).fresh = true

/-- The built files are what a build from scratch of `c` with the present files leaves. -/
structure CleanFiles (fx : Fixed) (m : Many) (c : TargetSchema) : Prop where
  pch : c.pchs ≠ [] → m.pch = some (cleanPch fx m.files c)
  obj : ∀ p ∈ paths c.sources, m.objs (objPath fx p) = some (cleanObj fx m.files c p)
  bin : ∃ order : List Str, order.Perm (paths c.sources) ∧
    m.bin = some (cleanBin fx m.files c order)

end Verif.Target
