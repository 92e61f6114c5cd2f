import Verif.Str.Basic

/-!
# Memory accesses of the parallel tasks

The memory the tasks of `Reg::Run` share, which task reads and writes what under which mutex,
and the order in which taskflow starts the tasks.  Threads take single steps in any order.
-/

namespace Verif.Race
open Verif

/-! ## Memory -/

/-- Data members that the tasks of a target touch (`target.h:116-127`, `target_info.h`,
`target_serialization.h:47-51`, `compile_object.h`, `compile_pch.h`, `link_target.h`).
Lists of files are separate because their hashes are written by different tasks; flags and
directories (`userRest`) are only read. -/
inductive TField where
  | userSources | userHeaders | userPchs | userCompileDeps | userLibs | userLinkDeps | userRest
  | load                       -- `load_`, `loaded_`
  | storeSources | storePchs | storeLinked | storeRest
  | dirty | built              -- `dirty_`, `state_`
  | objectFiles | pchData | linkData | name
deriving DecidableEq, Repr

/-- Data that the tasks of a custom generator touch (`custom_generator.h:127-138`,
`custom_generator.cpp:31-116, 262-312`); `comparator` and `states` are local variables of the
generate task, of which the tasks of the ids hold references. -/
inductive GField where
  | ids                        -- the map `user_.ids` itself
  | idInfo (id : Str)          -- one of its values
  | comparator
  | states                     -- the map itself
  | state (id : Str)           -- one of its values
  | load | store | dirty | command | name
deriving DecidableEq, Repr

/-- A memory location: the task state of the process (`task_state.cpp:24`), the directories of
`Project`, a member of a target or a generator, a vector a test redirects its output to. -/
inductive Loc where
  | taskState
  | project
  | target (b : Str) (f : TField)
  | gen (b : Str) (f : GField)
  | redirect (n : Nat)
deriving DecidableEq, Repr

/-- The mutexes: `current_state_mutex` (`task_state.cpp:23`) and `add_source_mutex` of each
target (`target_serialization.h:51`). -/
inductive Mutex where
  | taskState
  | addSource (b : Str)
deriving DecidableEq, Repr

/-! ## Code -/

/-- A single step of a thread. -/
inductive Act where
  | read (l : Loc)
  | write (l : Loc)
  | lock (m : Mutex)
  | unlock (m : Mutex)
deriving DecidableEq, Repr

/-- What a task does to shared memory; everything else it does is left out.  `alt` stands for
a branch, `many` for a loop, `locked` for a block with a lock guard, `attempt c h` for
`try { c } catch (...) { h }`. -/
inductive Code where
  | skip
  | read (l : Loc)
  | write (l : Loc)
  | seq (c d : Code)
  | alt (c d : Code)
  | many (c : Code)
  | locked (m : Mutex) (c : Code)
  | attempt (c h : Code)

/-- The sequences of steps of a piece of code; the flag tells whether it ends normally or by an
exception.  Anything may throw, before or after the access; a lock guard releases its mutex. -/
inductive Path : Code → Bool → List Act → Prop
  | skip : Path .skip true []
  | read : Path (.read l) true [.read l]
  | readThrow : Path (.read l) false [.read l]
  | readStop : Path (.read l) false []
  | write : Path (.write l) true [.write l]
  | writeThrow : Path (.write l) false [.write l]
  | writeStop : Path (.write l) false []
  | seq : Path c true p → Path d b q → Path (.seq c d) b (p ++ q)
  | seqThrow : Path c false p → Path (.seq c d) false p
  | left : Path c b p → Path (.alt c d) b p
  | right : Path d b p → Path (.alt c d) b p
  | stop : Path (.many c) true []
  | again : Path c true p → Path (.many c) b q → Path (.many c) b (p ++ q)
  | againThrow : Path c false p → Path (.many c) false p
  | locked : Path c b p → Path (.locked m c) b (.lock m :: (p ++ [.unlock m]))
  | normal : Path c true p → Path (.attempt c h) true p
  | caught : Path c false p → Path h b q → Path (.attempt c h) b (p ++ q)

/-- One piece after the other. -/
def Code.all : List Code → Code
  | [] => .skip
  | c :: l => .seq c (Code.all l)

/-! ## The tasks -/

/-- The threads of a build: the main thread before `executor.run`, between the build and the
tests (the check of the task state and the callback of `Reg::Run`) and after the tests; the
tasks of targets (`tasks.cpp:48-164`; `compile b i` is the `i`-th task of the subflow), the
tasks of generators (`custom_generator.cpp:118-161, 262-313`; the generate task is split at
`subflow.join()`), the tests (`args/src/tasks.cpp:43-52`). -/
inductive Task where
  | before
  | pch (b : Str)
  | objects (b : Str)
  | compile (b : Str) (i : Nat)
  | link (b : Str)
  | finish (b : Str)
  | ids (b : Str)
  | id (b : Str) (id : Str)
  | store (b : Str)
  | post
  | test (b : Str)
  | after
deriving DecidableEq, Repr

/-- What the registrations amount to: which tasks there are (any number of compile tasks), the
dependencies between builders, the ids of each generator, the vectors each test redirects to,
and what the script does before, between and after. -/
structure Plan where
  has : Task → Prop
  edges : List (Str × Str)
  ids : Str → List Str
  redirects : Str → List Nat
  prologue : Code
  callback : Code
  epilogue : Code

/-- `env::get_task_state` (`task_state.cpp:39`). -/
def getTaskState : Code := .read .taskState

/-- `env::set_task_state(FAILURE)` (`task_state.cpp:30-37`). -/
def setTaskState : Code :=
  .seq getTaskState (.alt .skip (.locked .taskState (.write .taskState)))

/-- The beginning of most tasks: return unless the state is SUCCESS. -/
def ifSuccess (c : Code) : Code := .seq getTaskState (.alt .skip c)

/-- `TargetSerialization::AddSource` (`target_serialization.cpp:28-32`). -/
def addSource (b : Str) : Code :=
  .locked (.addSource b) (.write (.target b .storeSources))

/-- The PCH task (`tasks.cpp:48-67`) with `BuildCompile` (`compile_pch.cpp:73-121`),
`PreCompile` (`:167-173`) and `UpdatePchCompiled` (`target_serialization.cpp:22-25`). -/
def pchCode (b : Str) : Code :=
  ifSuccess (.seq
    (.attempt
      (Code.all
        [ .write (.target b .userHeaders), .write (.target b .userPchs),
          .read (.target b .load), .read (.target b .userRest), .read (.target b .userHeaders),
          .read (.target b .userPchs), .alt .skip (.write (.target b .dirty)),
          .read (.target b .dirty),
          .alt .skip (.seq (.read (.target b .userPchs)) (.read (.target b .pchData))),
          .read (.target b .userPchs), .write (.target b .storePchs) ])
      setTaskState)
    (.many (.seq (.read (.target b .userPchs)) (.read .project))))

/-- The compile task (`tasks.cpp:81-124`) up to the end of its own body, with
`BuildObjectCompile` (`compile_object.cpp:166-212`), `PreObjectCompile` (`:214-225`),
`CompileSources` and `RecompileSources` (`:227-267`). -/
def objectsCode (b : Str) : Code :=
  ifSuccess (.attempt
    (Code.all
      [ .write (.target b .userSources), .write (.target b .userHeaders),
        .write (.target b .userCompileDeps), .read (.target b .load), .read (.target b .dirty),
        .read (.target b .userRest), .read (.target b .userHeaders),
        .read (.target b .userCompileDeps), .alt .skip (.write (.target b .dirty)),
        .read (.target b .dirty), .read (.target b .userSources),
        .many (.alt .skip (.write (.target b .dirty))), .many (addSource b),
        .many (.read .project) ])
    setTaskState)

/-- The task that compiles one source (`tasks.cpp:100-110`) with `GetObjectData`
(`compile_object.cpp:74-82`). -/
def compileCode (b : Str) : Code :=
  .attempt (.seq (.read (.target b .objectFiles)) (addSource b)) setTaskState

/-- The link task (`tasks.cpp:132-143`) with `BuildLink` (`link_target.cpp:60-108`). -/
def linkCode (b : Str) : Code :=
  ifSuccess (.attempt
    (Code.all
      [ .write (.target b .userLibs), .write (.target b .userLinkDeps), .read (.target b .load),
        .read (.target b .dirty), .read (.target b .userRest), .read (.target b .userLinkDeps),
        .read (.target b .userLibs), .alt .skip (.write (.target b .dirty)),
        .read (.target b .dirty),
        .alt .skip (.seq (.read (.target b .linkData)) (.write (.target b .storeLinked))) ])
    setTaskState)

/-- The end task (`tasks.cpp:150-164`) with `UpdateStore` (`target_serialization.cpp:38-45`)
and `StoreToFile`. -/
def finishCode (b : Str) : Code :=
  .seq (.read (.target b .dirty)) (.alt .skip (.attempt
    (Code.all
      [ .read (.target b .userSources), .read (.target b .userHeaders),
        .read (.target b .userPchs), .read (.target b .userCompileDeps),
        .read (.target b .userLibs), .read (.target b .userLinkDeps),
        .read (.target b .userRest), .read (.target b .storePchs),
        .read (.target b .storeSources), .read (.target b .storeLinked),
        .write (.target b .storePchs), .write (.target b .storeSources),
        .write (.target b .storeLinked), .write (.target b .storeRest),
        .read (.target b .storeRest), .read (.target b .name), .write (.target b .built) ])
    setTaskState))

/-- The generate task up to `subflow.join()` (`custom_generator.cpp:262-292`) with
`ComputeBuild` (`:163-187`). -/
def idsCode (b : Str) : Code :=
  ifSuccess (.attempt
    (Code.all
      [ .read (.gen b .load), .read (.gen b .ids), .write (.gen b .comparator),
        .write (.gen b .dirty), .write (.gen b .states), .read (.gen b .comparator),
        .read (.gen b .ids), .read (.gen b .states) ])
    setTaskState)

/-- The task of one id (`custom_generator.cpp:126-151`) with `IsChanged` (`:71-85`).
Simplification: the callback reads the context it is given and no other shared memory; what
it does with files and with data of its own is not followed. -/
def idCode (b id : Str) : Code :=
  ifSuccess (.attempt
    (Code.all
      [ .write (.gen b (.idInfo id)), .read (.gen b .comparator), .read (.gen b .load),
        .read (.gen b .ids), .read (.gen b (.idInfo id)), .write (.gen b (.state id)),
        .read (.gen b (.state id)),
        .alt .skip (.seq (.read (.gen b (.idInfo id))) (.read (.gen b .command))),
        .write (.gen b (.state id)) ])
    setTaskState)

/-- The generate task after `subflow.join()` (`custom_generator.cpp:294-312`). -/
def storeCode (b : Str) (ids : List Str) : Code :=
  .attempt
    (.seq (Code.all (ids.map fun id =>
        .seq (.read (.gen b (.state id))) (.alt .skip (.read (.gen b (.idInfo id))))))
      (Code.all
        [ .read (.gen b .states), .read (.gen b .ids), .read (.gen b .dirty),
          .write (.gen b .dirty), .alt .skip (.seq (.write (.gen b .store))
            (.seq (.read (.gen b .store)) (.read (.gen b .name)))) ]))
    setTaskState

/-- A test (`register.cpp:193-262`): it reads the path and the name of its target, and its
output is appended to the vectors it was given, if any. -/
def testCode (b : Str) (vectors : List Nat) : Code :=
  .seq (.seq (.read (.target b .name)) (.read (.target b .linkData)))
    (.many (Code.all (vectors.map fun n => .write (.redirect n))))

/-- What each task does. -/
def Plan.code (P : Plan) : Task → Code
  | .before => P.prologue
  | .pch b => pchCode b
  | .objects b => objectsCode b
  | .compile b _ => compileCode b
  | .link b => linkCode b
  | .finish b => finishCode b
  | .ids b => idsCode b
  | .id b id => idCode b id
  | .store b => storeCode b (P.ids b)
  | .post => P.callback
  | .test b => testCode b (P.redirects b)
  | .after => P.epilogue

/-! ## Order -/

/-- The builder and the position within it: taskflow runs the tasks of a target in the order
PCH, compile, its subflow, link, end (`tasks.cpp:166-172`), those of a generator in the order
generate, its subflow, rest of generate. -/
def Task.place : Task → Option (Str × Nat)
  | .pch b => some (b, 0)
  | .objects b => some (b, 1)
  | .compile b _ => some (b, 2)
  | .link b => some (b, 3)
  | .finish b => some (b, 4)
  | .ids b => some (b, 0)
  | .id b _ => some (b, 1)
  | .store b => some (b, 2)
  | _ => none

/-- `Before P t u`: `u` is started only when `t` has ended.  `Reg::Run`
(`register.cpp:101-108`, `args/src/tasks.cpp:32-53`): builders in the order of their
dependencies, then the callback, then the tests in any order, then the rest of the program. -/
def Before (P : Plan) (t u : Task) : Prop :=
  (t = .before ∧ u ≠ .before) ∨ (t ≠ .after ∧ u = .after) ∨
  (t.place.isSome = true ∧ (u = .post ∨ ∃ b, u = .test b)) ∨ (t = .post ∧ ∃ b, u = .test b) ∨
  ∃ a i b j, t.place = some (a, i) ∧ u.place = some (b, j) ∧
    (a = b ∧ i < j ∨ (a, b) ∈ P.edges)

/-! ## Executions -/

inductive Status where
  | waiting
  | running (past next : List Act)
  | ended

structure State where
  status : Task → Status
  owner : Mutex → Option Task

def State.init : State := ⟨fun _ => .waiting, fun _ => none⟩

def setStatus (σ : State) (t : Task) (s : Status) : State :=
  { σ with status := fun u => if u = t then s else σ.status u }

def setOwner (σ : State) (m : Mutex) (t : Option Task) : State :=
  { σ with owner := fun n => if n = m then t else σ.owner n }

def Act.isAccess : Act → Bool
  | .read _ | .write _ => true
  | _ => false

/-- One step of one thread. -/
inductive Step (P : Plan) : State → State → Prop
  | start {σ : State} {t : Task} {l : List Act} : P.has t → σ.status t = .waiting →
      (∀ u, P.has u → Before P u t → σ.status u = .ended) → Path (P.code t) true l →
      Step P σ (setStatus σ t (.running [] l))
  | access {σ : State} {t : Task} {a : Act} {past next : List Act} :
      σ.status t = .running past (a :: next) → a.isAccess = true →
      Step P σ (setStatus σ t (.running (past ++ [a]) next))
  | lock {σ : State} {t : Task} {m : Mutex} {past next : List Act} :
      σ.status t = .running past (.lock m :: next) → σ.owner m = none →
      Step P σ (setOwner (setStatus σ t (.running (past ++ [.lock m]) next)) m (some t))
  | unlock {σ : State} {t : Task} {m : Mutex} {past next : List Act} :
      σ.status t = .running past (.unlock m :: next) → σ.owner m = some t →
      Step P σ (setOwner (setStatus σ t (.running (past ++ [.unlock m]) next)) m none)
  | done {σ : State} {t : Task} {past : List Act} : σ.status t = .running past [] →
      Step P σ (setStatus σ t .ended)

/-- The states a build may be in. -/
inductive Reachable (P : Plan) : State → Prop
  | init : Reachable P .init
  | step {σ τ : State} : Reachable P σ → Step P σ τ → Reachable P τ

/-! ## Races -/

/-- Two steps touch the same memory and one of them writes. -/
def Conflict (l : Loc) (a b : Act) : Prop :=
  a = .write l ∧ b = .write l ∨ a = .write l ∧ b = .read l ∨ a = .read l ∧ b = .write l

/-- A data race on `l`: two threads are about to touch `l`, in either order, and one of them
writes. -/
def RaceOn (σ : State) (l : Loc) : Prop :=
  ∃ t u a b p q p' q', t ≠ u ∧ σ.status t = .running p (a :: p') ∧
    σ.status u = .running q (b :: q') ∧ Conflict l a b

end Verif.Race
