import Verif.Reg.Graph

/-!
# The life of a build script

`Args`, `Project` and `Reg` are process-wide: they are set up, used and taken down by
static functions.  A script is a sequence of calls of these functions.  A fatal error on
the main thread ends the process with status 1 (`assert_fatal.cpp:38-44`).

Simplifications: logging and the added toolchain and target options are left out; CLI11 is
represented by what it makes of a command line (`Line`); the effect of `Reg::Run` on files is
in `World.lean`, here it is its outcome and what it calls in which order.
-/

namespace Verif.Reg
open Verif

/-- What CLI11 makes of the arguments given to `Parse`: an error (or a request for help),
with the status of the process (`parse.cpp:23-27`), or values for the options of
`RootArgs` (`args.cpp:132-150`).  The directories are `required()`, the flag is not. -/
inductive Line where
  | bad (status : Nat)
  | good (clean : Option Bool) (root build : Str)
deriving DecidableEq, Repr

/-- What `Reg::Run` did. -/
inductive Did where
  | built (ids : List Str)
  | postBuild
  | tested (ids : List Str)
deriving DecidableEq, Repr

/-- The static variables. -/
structure Proc where
  args : Option Bool            -- `Args::internal_` (`args.cpp:101`), with `app.parsed()`
  clean : Bool                  -- `args.cpp:92-95`
  root : Str
  build : Str
  project : Option (Str × Str)  -- `env.cpp:48-59`
  reg : Option Script           -- `Reg::instance_` (`register.cpp:69`)
  hooks : Nat                   -- how often `SystemInit` called `std::atexit`
  did : List Did
deriving DecidableEq, Repr

/-- When `main` starts. -/
def Proc.init : Proc := ⟨none, false, [], b!"_internal", none, none, 0, []⟩

/-- A call. -/
inductive Op where
  | argsInit
  | argsDeinit
  | parse (l : Line)
  | projectInit (root build : Str)
  | projectDeinit
  /-- `Reg::Init`, with `fs::current_path()`. -/
  | regInit (cwd : Str)
  | regDeinit
  /-- A function of `Reg::Call(…)` or `Reg::Toolchain(…)`. -/
  | reg (c : Call)
  /-- `Reg::Run` with a function to call after the build or without; `ok`: whether the task
  state is SUCCESS after the build. -/
  | run (callback ok : Bool)
deriving DecidableEq, Repr

inductive State where
  | at (p : Proc)
  | exit (status : Nat)
  | hangs
deriving DecidableEq, Repr

/-- One call, with `n` rounds for a search of `Dep`. -/
def op (n : Nat) (p : Proc) : Op → State
  -- `Args::Init` (`args.cpp:103-113`)
  | .argsInit => .at (if p.args.isSome then p else { p with args := some false })
  -- `Args::Deinit` (`args.cpp:115`)
  | .argsDeinit => .at { p with args := none }
  -- `Args::Instance::Parse` (`parse.cpp:21-28`)
  | .parse l =>
    match p.args, l with
    | none, _ => .exit 1
    | some _, .bad s => .exit s
    | some _, .good c r b =>
      .at { p with args := some true, clean := c.getD p.clean, root := r, build := b }
  -- `Project::Init` (`env.cpp:22-37`)
  | .projectInit r b => .at { p with project := some (r, b) }
  -- `Project::Deinit` (`env.cpp:38-42`)
  | .projectDeinit => .at { p with project := none }
  -- `Reg::Init` (`register.cpp:85-94`), `SystemInit` (`register.cpp:71-83`)
  | .regInit cwd =>
    match p.reg with
    | some _ => .at p
    | none =>
      if p.args = some true then
        .at { p with
          reg := some ⟨Graph.empty, []⟩
          project := some (Path.append cwd p.root, Path.append cwd p.build)
          hooks := p.hooks + 1 }
      else .exit 1
  -- `Reg::Deinit` (`register.cpp:96-99`)
  | .regDeinit => .at { p with reg := none, project := none }
  -- `Reg::Call` (`register.cpp:144-147`), `Reg::Toolchain` (`register.cpp:119-122`), `Ref`
  -- (`register.cpp:112-115`)
  | .reg c =>
    match p.reg with
    | none => .exit 1
    | some s =>
      match call n s c with
      | .ok s' => .at { p with reg := some s' }
      | .fatal => .exit 1
      | .running => .hangs
  -- `Reg::Run` (`register.cpp:101-108`), `RunBuild` (`args/src/tasks.cpp:33-41`)
  | .run callback ok =>
    match p.reg with
    | none => .exit 1
    | some s =>
      if ok then
        .at { p with did := p.did ++ [.built s.graph.ids]
          ++ (if callback then [.postBuild] else []) ++ [.tested s.graph.tests] }
      else .exit 1

/-- A sequence of calls. -/
def ops (n : Nat) : State → List Op → State
  | s, [] => s
  | .at p, o :: l => ops n (op n p o) l
  | s, _ :: _ => s

/-- A script. -/
def script (n : Nat) (l : List Op) : State := ops n (.at Proc.init) l

/-- What the function given to `std::atexit` does to these variables
(`register.cpp:77-82`); it also clears the storage. -/
def hook (p : Proc) : Proc := { p with project := none, reg := none, args := none }

end Verif.Reg
