import Verif.Reg.Graph
import Verif.Target.Progress
import Verif.Generator.Liveness

/-!
# Builds of several targets and generators

A world is a disk and a number of builders (targets and generators, each with the state
of its own model).  One process at a time registers builders, declares dependencies and
calls `Reg::Run`.  Events that are not possible change nothing, so an arbitrary list of
events covers every history, every schedule of the task graph, every failure pattern and
every point at which the process can be killed.

Every builder has its own view of the input files.  Each change of a file reaches every
view at once, so the views agree with the disk (`views` in `WorldInv.lean`).

Simplifications.
* A command or callback writes its output files at one instant, its end, each with a
  stamp that the file never had.
* The state files of the builders are not input files of builders.
* The compiler and the directories of a target never change.
-/

namespace Verif.Reg
open Verif Verif.Schema
open Verif.Target (Fixed BinArt objPath outputPath upd)

/-! ## Builders -/

/-- A target or a generator. -/
inductive Comp where
  | target (fx : Fixed) (σ : Target.Sys)
  | gen (σ : Generator.Sys)

/-- What a build script configures for a builder. -/
inductive Setup where
  | target (c : TargetSchema) (order : List Str)
  | gen (c : Generator.Cfg)

/-- One step of the tasks of a builder. -/
inductive Ev where
  | t (e : Target.Event)
  | g (e : Generator.Event)

def Comp.step : Comp → Ev → Comp
  | .target fx σ, .t e => .target fx (Target.step fx σ e)
  | .gen σ, .g e => .gen (Generator.step σ e)
  | c, _ => c

/-- The step is made by the builder itself. -/
def Ev.isTask : Ev → Bool
  | .t e => e.progress
  | .g e => e.progress

/-- A command or callback of the builder has read a file. -/
def Ev.isLook : Ev → Bool
  | .t (.look _ _) => true
  | .g (.look _ _ _) => true
  | _ => false

/-- Its tasks have not ended. -/
def Comp.running : Comp → Bool
  | .target _ σ => σ.run.isSome
  | .gen σ => σ.run.isSome

/-- The task state as the builder sees it. -/
def Comp.ok : Comp → Bool
  | .target _ σ => σ.ok
  | .gen σ => σ.ok

def Comp.files : Comp → Str → Option Nat
  | .target _ σ => σ.files
  | .gen σ => σ.files

def Comp.used : Comp → Str → List Nat
  | .target _ σ => σ.used
  | .gen σ => σ.used

/-- A file gets a new version, or is deleted. -/
def Comp.write (c : Comp) (p : Str) : Option Nat → Comp
  | some t => (c.step (.t (.edit p t))).step (.g (.edit p t))
  | none => (c.step (.t (.delete p))).step (.g (.delete p))

/-- The task state becomes FAILURE elsewhere. -/
def Comp.fail (c : Comp) : Comp := (c.step (.t .otherFail)).step (.g .otherFail)

/-- The state file is deleted. -/
def Comp.dropState (c : Comp) : Comp := (c.step (.t .dropState)).step (.g .dropState)

/-- The process is killed; `w` is how much of the state file was written. -/
def Comp.kill (c : Comp) (order : List Str) (w : Option Nat) : Comp :=
  (c.step (.t (.crash w))).step (.g (.crash order w))

/-- `Build()` is called (`build.cpp:54-127`, `custom_generator.cpp:235-238`). -/
def Comp.start (c : Comp) : Setup → Comp
  | .target cfg order => c.step (.t (.start cfg order))
  | .gen cfg => c.step (.g (.start cfg))

/-! ## Files that are written -/

/-- Files made by the PCH task (`compile_pch.cpp:110-143`). -/
def pchFiles (fx : Fixed) : List Str :=
  [ Path.pchHeaderPath fx.buildDir fx.cfg.pchHeaderExt,
    Path.pchSourcePath fx.buildDir fx.cfg.pchHeaderExt true,
    Path.pchSourcePath fx.buildDir fx.cfg.pchHeaderExt false,
    Path.pchCompilePath fx.buildDir fx.cfg.pchHeaderExt fx.cfg.pchCompileExt,
    Path.pchObjectPath fx.buildDir fx.cfg.pchHeaderExt fx.cfg.objExt ]

/-- Files made by the link task (`link_target.cpp:103-107`); the last two by the templates
for MinGW and MSVC. -/
def linkFiles (fx : Fixed) : List Str :=
  [outputPath fx, outputPath fx ++ b!".a", outputPath fx ++ b!".dll"]

/-- The files that the step may write. -/
def mayWrite : Comp → Ev → List Str
  | .target fx σ, .t (.pchExec _ _) =>
    match σ.run with
    | some r => if r.phase = .pchRun then pchFiles fx else []
    | none => []
  | .target fx σ, .t (.exec k _ _) =>
    match σ.run with
    | some r =>
      if r.phase = .objRun then
        match r.pending[k]? with
        | some i => [objPath fx i.path]
        | none => []
      else []
    | none => []
  | .target fx σ, .t (.linkExec _ _) =>
    match σ.run with
    | some r => if r.phase = .linkRun then linkFiles fx else []
    | none => []
  | .gen σ, .g (.call id _) =>
    match σ.run with
    | some r =>
      match Generator.find id r.cfg, r.status id with
      | some i, .calling => i.outputs
      | _, _ => []
    | none => []
  | _, _ => []

/-- What is written: paths with a new stamp, or `none` for a file that is removed. -/
abbrev Writes := List (Str × Option Nat)

/-- A link command that succeeds writes its output; one that fails may leave it, replace it
or remove it. -/
def linkWrites (fx : Fixed) (σ : Target.Sys) (ok : Bool) (junk : Option (Option BinArt))
    (ws : Writes) : Bool :=
  match σ.run with
  | some r =>
    if r.phase = .linkRun then
      match ok, junk with
      | true, _ => ws.any fun x => x.1 = outputPath fx && x.2.isSome
      | false, some (some _) => ws.any fun x => x.1 = outputPath fx && x.2.isSome
      | false, some none => ws.any fun x => x.1 = outputPath fx && x.2.isNone
      | false, none => ws.all fun x => x.1 ≠ outputPath fx
    else true
  | none => true

/-- The step can write this. -/
def legal (c : Comp) (e : Ev) (used : Str → List Nat) (ws : Writes) : Bool :=
  (ws.all fun x => x.1 ∈ mayWrite c e)
    && (ws.map (·.1)).Nodup
    && (ws.all fun x =>
      match x.2 with
      | some t => t ∉ used x.1
      | none => true)
    && match c, e with
      | .target fx σ, .t (.linkExec ok junk) => linkWrites fx σ ok junk ws
      | _, _ => true

/-! ## The world -/

/-- What `Reg::Run` does after a successful build. -/
inductive After where
  | postBuild
  | tests (ids : List Str)
deriving DecidableEq, Repr

structure World where
  files : Str → Option Nat
  used : Str → List Nat
  comps : Str → Comp
  active : Bool               -- a process is between its last registration and the end of
                              -- `RunBuild`
  graph : Graph               -- what it has registered
  setup : Str → Setup
  begun : List Str            -- builders whose tasks were scheduled, in this order
  ok : Bool                   -- `env::get_task_state() == SUCCESS`
  result : Option Bool        -- `RunBuild` returned (true) or ended the process (false)
  after : List After
  calm : Bool                 -- history variable: no change from outside since the process
                              -- started
  content : Str → Nat → Option BinArt
                              -- history variable: what a version of a file holds, for
                              -- outputs of targets

/-- The target that was linked last. -/
def Comp.bin : Comp → Option BinArt
  | .target _ σ => σ.bin
  | .gen _ => none

/-- The stamps a path has had. -/
def addUsed (u : Str → List Nat) (p : Str) : Option Nat → Str → List Nat
  | some t => upd u p (t :: u p)
  | none => u

/-- A change of a file reaches the disk and all views. -/
def World.write (w : World) (p : Str) (x : Option Nat) : World :=
  { w with
    files := upd w.files p x
    used := addUsed w.used p x
    comps := fun j => (w.comps j).write p x }

def World.writes (w : World) (ws : Writes) : World := ws.foldl (fun w x => w.write x.1 x.2) w

/-- All tasks of the builder have ended. -/
def World.finished (w : World) (id : Str) : Bool := id ∈ w.begun && !(w.comps id).running

/-- The executor may schedule the tasks of `id`: they have not been scheduled and all
predecessors are finished (`register.cpp:151-165`, taskflow). -/
def World.ready (w : World) (id : Str) : Bool :=
  id ∈ w.graph.ids && id ∉ w.begun && (w.graph.dependents id).all fun d => w.finished d

/-- Nothing runs and nothing can be scheduled: `executor.wait_for_all` returns
(`args/src/tasks.cpp:37-38`). -/
def World.over (w : World) : Bool :=
  (w.begun.all fun id => w.finished id) && w.graph.ids.all fun id => !w.ready id

inductive WEvent where
  | edit (p : Str) (stamp : Nat)
  | delete (p : Str)
  | dropState (id : Str)
  | launch (g : Graph) (setup : Str → Setup)
  | begin (id : Str)
  | task (id : Str) (e : Ev) (ws : Writes)
  | look (id : Str) (e : Ev)
  | join
  | kill (order : Str → List Str) (written : Str → Option Nat)

/-- The record of what an output of a target holds. -/
def record (content : Str → Nat → Option BinArt) (c : Comp) (e : Ev) (ws : Writes) :
    Str → Nat → Option BinArt :=
  match c, e with
  | .target fx σ, .t (.linkExec _ _) => fun p t =>
    if p = outputPath fx ∧ (p, some t) ∈ ws then σ.bin else content p t
  | _, _ => content

/-- One step of the tasks of `id`.  When the step sets the task state to FAILURE all
builders of the process see it (`task_state.cpp:30-39`). -/
def World.task (w : World) (id : Str) (e : Ev) (ws : Writes) : World :=
  let c := (w.comps id).step e
  let failed := w.ok && !c.ok
  World.writes
    { w with
      comps := fun j => if j = id then c else if failed then (w.comps j).fail else w.comps j
      ok := w.ok && c.ok
      content := record w.content c e ws }
    ws

/-- One event. -/
def World.step (w : World) : WEvent → World
  | .edit p t => { w.write p (some t) with calm := false }
  | .delete p => { w.write p none with calm := false }
  | .dropState id =>
    if w.active then w
    else { w with comps := upd w.comps id (w.comps id).dropState }
  | .launch g s =>
    if !w.active && g.ids.all (fun id => ((w.comps id).start (s id)).running) then
      { w with
        comps := fun j => if j ∈ g.ids then (w.comps j).start (s j) else w.comps j
        active := true, graph := g, setup := s, begun := [], ok := true, result := none
        after := [], calm := true }
    else w
  | .begin id =>
    if w.active && w.ready id then { w with begun := w.begun ++ [id] } else w
  | .task id e ws =>
    if w.active && id ∈ w.begun && (w.comps id).running && e.isTask
        && legal (w.comps id) e w.used ws then
      w.task id e ws
    else w
  | .look id e =>
    if w.active && id ∈ w.begun && (w.comps id).running && e.isLook then
      { w with comps := upd w.comps id ((w.comps id).step e) }
    else w
  | .join =>
    -- `Reg::Run` (`register.cpp:101-108`), `RunBuild` (`args/src/tasks.cpp:33-41`)
    if w.active && w.over then
      { w with
        active := false, result := some w.ok
        comps := fun j => if j ∈ w.graph.ids then (w.comps j).kill [] none else w.comps j
        after := if w.ok then [.postBuild, .tests w.graph.tests] else [] }
    else w
  | .kill order written =>
    if w.active then
      { w with
        active := false
        comps := fun j =>
          if j ∈ w.graph.ids then (w.comps j).kill (order j) (written j) else w.comps j }
    else w

/-- A history. -/
def World.steps (w : World) (evs : List WEvent) : World := evs.foldl World.step w

/-- Kinds of builders. -/
inductive Kind where
  | target (fx : Fixed)
  | gen

def Kind.init : Kind → Comp
  | .target fx => .target fx Target.Sys.init
  | .gen => .gen Generator.Sys.init

/-- Nothing exists. -/
def World.init (kinds : Str → Kind) : World where
  files := fun _ => none
  used := fun _ => []
  comps := fun j => (kinds j).init
  active := false
  graph := Graph.empty
  setup := fun _ => .gen []
  begun := []
  ok := true
  result := none
  after := []
  calm := true
  content := fun _ _ => none

end Verif.Reg
