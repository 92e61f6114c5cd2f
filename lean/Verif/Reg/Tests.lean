import Verif.Command.Model
import Verif.Env.Execute
import Verif.Path.Model

/-!
# Tests

What `Reg::Run` does with the tests that were registered: `RunTest`
(`args/src/tasks.cpp:43-52`) runs `TestInfo::TestRunner` (`register.cpp:193-264`) for each of
them on the workers of a `tf::Executor`.

Simplifications.  What happens to an exception that leaves a task depends on
the version of taskflow, which is not part of /repo: older ones end the process, newer ones
keep the exception in the future that `run` returned, which `RunTest` drops, and cancel the
tasks that have not begun (`Policy`).  Messages to the log other than the output of tests are
left out.
-/

namespace Verif.Reg
open Verif
open Verif.Env (Answer Shell execute)

/-- `TestOutput::Type` (`test_info.h:31-38`). -/
inductive OutputType where
  | defaultBehaviour
  | printStderr
  | printStdout
  | printBoth
  | userRedirect
deriving DecidableEq, Repr

/-- `TestConfig` with its `TestOutput` (`test_info.h:30-97`); `userOut` and `userErr`: whether
the pointers to the vectors of the user are not null. -/
structure TestConfig where
  args : Command.Args
  dir : Option Str
  type : OutputType
  userOut : Bool
  userErr : Bool
deriving DecidableEq, Repr

/-- `TestInfo` (`test_info.h:101-112`); of the target its path. -/
structure TestInfo where
  target : Str
  command : Str
  config : TestConfig
deriving DecidableEq, Repr

/-- What became of one of the two output streams. -/
inductive Stream where
  | console               -- inherited
  | captured (l : List Str)
  | user (l : List Str)   -- appended to the vector of the user
deriving DecidableEq, Repr

/-- What a run of a test did. -/
structure TestRun where
  executed : Option (Str × Option Str)   -- command and working directory
  out : Stream
  err : Stream
  printed : List (Str × Str)             -- "STDOUT" or "STDERR", and the text
  ok : Bool                              -- false: `assert_fatal` on a worker, an exception
deriving DecidableEq, Repr

/-- Where the streams go (`register.cpp:207-237`, `execute.cpp:51-63`). -/
def streams (c : TestConfig) (a : Answer) : Stream × Stream :=
  match c.type with
  | .defaultBehaviour => (.console, .console)
  | .printStderr => (.console, .captured a.err)
  | .printStdout => (.captured a.out, .console)
  | .printBoth => (.captured a.out, .captured a.err)
  | .userRedirect =>
    (if c.userOut then .user a.out else .console, if c.userErr then .user a.err else .console)

/-- What is printed after a success (`register.cpp:245-263`). -/
def prints (c : TestConfig) (a : Answer) : List (Str × Str) :=
  match c.type with
  | .printStderr => [(b!"STDERR", Command.aggregate a.err)]
  | .printStdout => [(b!"STDOUT", Command.aggregate a.out)]
  | .printBoth => [(b!"STDOUT", Command.aggregate a.out), (b!"STDERR", Command.aggregate a.err)]
  | _ => []

/-- Nothing was run. -/
def TestRun.none : TestRun := ⟨.none, .console, .console, [], false⟩

/-- `TestInfo::TestRunner` (`register.cpp:193-264`) with `Command::Execute`
(`execute.cpp:44-65`).  `answer` is what the process of a command does.  A pattern outside of
the modelled fragment of fmt counts as an error. -/
def testRunner (answer : Shell) (t : TestInfo) : TestRun :=
  let defaults := Command.addDefaults [] [(b!"executable", Path.displayString t.target)]
  match Command.construct defaults t.command t.config.args with
  | .value c =>
    match execute answer c t.config.dir with
    | none => .none
    | some a =>
      let s := streams t.config a
      if a.ok then ⟨some (c, t.config.dir), s.1, s.2, prints t.config a, true⟩
      else ⟨some (c, t.config.dir), s.1, s.2, [], false⟩
  | _ => .none

/-! ## All tests -/

/-- What taskflow does with an exception that leaves a task. -/
inductive Policy where
  | terminate
  | keep
deriving DecidableEq, Repr

structure TestState where
  waiting : List Str             -- ids whose test has not begun
  running : List Str
  ended : List (Str × TestRun)
  dead : Bool                    -- the process was ended by `std::terminate`
deriving DecidableEq, Repr

inductive TestEvent where
  | begin (id : Str)
  | finish (id : Str)
deriving DecidableEq, Repr

/-- One step of the workers.  Events that are not possible change nothing. -/
def testStep (policy : Policy) (result : Str → TestRun) (s : TestState) : TestEvent → TestState
  | .begin id =>
    if !s.dead && id ∈ s.waiting then
      { s with waiting := s.waiting.erase id, running := s.running ++ [id] }
    else s
  | .finish id =>
    if !s.dead && id ∈ s.running then
      let s' := { s with running := s.running.erase id, ended := s.ended ++ [(id, result id)] }
      if (result id).ok then s'
      else
        match policy with
        | .terminate => { s' with dead := true }
        | .keep => { s' with waiting := [] }
    else s

/-- `RunTest` has not come to its end: `wait_for_all`. -/
def TestState.over (s : TestState) : Bool := s.dead || (s.waiting = [] && s.running = [])

/-- `RunTest` (`args/src/tasks.cpp:43-52`) for the tests `ids`, up to some point of a schedule. -/
def runTest (policy : Policy) (result : Str → TestRun) (ids : List Str) (evs : List TestEvent) :
    TestState :=
  evs.foldl (testStep policy result) ⟨ids, [], [], false⟩

end Verif.Reg
