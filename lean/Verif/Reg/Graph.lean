import Verif.Path.Model

/-!
# Registration of builders

`Reg` (`buildcc/lib/args/src/register.cpp`, `buildcc/lib/args/include/args/register.h`):
the calls a build script makes before `Reg::Run`.  A fatal error ends the process.

Simplification: the C++ builder objects are represented by their unique id; the
`tf::Taskflow` is the list of its tasks and the list of its edges, in the order in which
they were added.  An edge `(d, t)` means that `t` runs after `d`: `t.succeed(d)`.
-/

namespace Verif.Reg
open Verif

/-- What `Reg::Instance` holds (`register.h:143-147`). -/
structure Graph where
  ids : List Str              -- keys of `build_`
  edges : List (Str × Str)    -- (dependency, target)
  tests : List Str            -- keys of `tests_`
deriving DecidableEq, Repr

def Graph.empty : Graph := ⟨[], [], []⟩

/-- `Task::for_each_dependent`: the tasks that run before `t`. -/
def Graph.dependents (g : Graph) (t : Str) : List Str :=
  (g.edges.filter fun e => e.2 = t).map (·.1)

/-- `Task::for_each_successor`: the tasks that run after `d`. -/
def Graph.successors (g : Graph) (d : Str) : List Str :=
  (g.edges.filter fun e => e.1 = d).map (·.2)

/-- `DepDetectDuplicate` (`register.cpp:37-44`): true is the fatal error. -/
def detectDuplicate (g : Graph) (target match_ : Str) : Bool :=
  (g.dependents target).any (· = match_)

/-- Outcome of a search that may not come to an end. -/
inductive Search where
  | found         -- fatal error
  | none          -- the queue ran empty
  | running       -- not finished within the given number of rounds
deriving DecidableEq, Repr

/-- The loop of `DepDetectCyclicDependency` (`register.cpp:46-63`) for `n` rounds.  There is
no record of visited tasks. -/
def search (g : Graph) (match_ : Str) : Nat → List Str → Search
  | _, [] => .none
  | 0, _ => .running
  | n + 1, t :: queue =>
    if (g.successors t).any (· = match_) then .found
    else search g match_ n (queue ++ g.successors t)

/-- What a call to the API did. -/
inductive Result where
  | ok (g : Graph)
  | fatal
  | running       -- has not returned within the given number of rounds
deriving DecidableEq, Repr

/-- `Instance::Build` (`register.h:85-95`, `BuildStoreTask` at `register.cpp:183-189`). -/
def build (g : Graph) (id : Str) : Result :=
  if id ∈ g.ids then .fatal else .ok { g with ids := g.ids ++ [id] }

/-- `Instance::Dep` (`register.cpp:151-165`) given `n` rounds for its search. -/
def dep (n : Nat) (g : Graph) (target dependency : Str) : Result :=
  if target ∉ g.ids ∨ dependency ∉ g.ids then .fatal
  else if detectDuplicate g target dependency then .fatal
  else
    match search g dependency n [target] with
    | .found => .fatal
    | .running => .running
    | .none => .ok { g with edges := g.edges ++ [(dependency, target)] }

/-- `Instance::Test` (`register.cpp:167-179`). -/
def test (g : Graph) (id : Str) : Result :=
  if id ∉ g.ids then .fatal
  else if id ∈ g.tests then .fatal
  else .ok { g with tests := g.tests ++ [id] }

/-! ## Conditional registration -/

/-- `ArgToolchainState` (`args.h`). -/
structure Condition where
  build : Bool
  test : Bool
deriving DecidableEq, Repr

/-- A call on `Reg::Call(condition)` or `Reg::Toolchain(condition)`; `func` stands for a
callback that is observed by its number. -/
inductive Call where
  | callFunc (condition : Bool) (k : Nat)
  | callBuild (condition : Bool) (id : Str)
  | func (condition : Condition) (k : Nat)
  | build (condition : Condition) (id : Str)
  | dep (condition : Condition) (target dependency : Str)
  | test (condition : Condition) (id : Str)
deriving DecidableEq, Repr

/-- The state of the build script: what is registered and which callbacks ran. -/
structure Script where
  graph : Graph
  ran : List Nat
deriving DecidableEq, Repr

inductive Outcome where
  | ok (s : Script)
  | fatal
  | running
deriving DecidableEq, Repr

def Result.lift (ran : List Nat) : Result → Outcome
  | .ok g => .ok ⟨g, ran⟩
  | .fatal => .fatal
  | .running => .running

/-- `Reg::CallbackInstance` (`register.h:150-171`) and `Reg::ToolchainInstance`
(`register.h:173-202`, `register.cpp:124-140`).  `Build` also calls the user's function
for the builder, which is not observed here. -/
def call (n : Nat) (s : Script) : Call → Outcome
  | .callFunc c k => if c then .ok { s with ran := s.ran ++ [k] } else .ok s
  | .callBuild c id => if c then (Reg.build s.graph id).lift s.ran else .ok s
  | .func c k => if c.build then .ok { s with ran := s.ran ++ [k] } else .ok s
  | .build c id => if c.build then (Reg.build s.graph id).lift s.ran else .ok s
  | .dep c t d => if c.build then (Reg.dep n s.graph t d).lift s.ran else .ok s
  | .test c id => if c.build && c.test then (Reg.test s.graph id).lift s.ran else .ok s

/-- A sequence of calls; the first fatal error ends the process. -/
def calls (n : Nat) : Script → List Call → Outcome
  | s, [] => .ok s
  | s, c :: l =>
    match call n s c with
    | .ok s' => calls n s' l
    | .fatal => .fatal
    | .running => .running

end Verif.Reg
