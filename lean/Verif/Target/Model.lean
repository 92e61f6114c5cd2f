import Verif.Target.Commands

/-!
# Micro-step model of a target

A system state holds the input files, the built files, the stored state and, while
a build runs, the state of the `Target` object.  `step` is one event: a file edit,
the start of a build, one atomic part of a task, the outcome of a command, a crash,
a failure elsewhere.  Events that are not possible in a state change nothing, so
`steps fx σ evs` for an arbitrary list covers every history, schedule, failure
pattern and crash point.

Simplifications.
* An input file is a stamp (its `last_write_time`); the content of a file is
  determined by its path and stamp.  An edit may give the file any stamp, also one it
  had before; `used` records the stamps for the specification.
* A command may read each of its declared input files at any instant between the decision of
  its task and its own end; what other commands made (objects, precompiled headers) it reads
  when it ends.
* A built file is described by its provenance: the command and the versions of what
  the command read.  A failed command leaves its output untouched or replaces it by
  anything.
* One process at a time works on the target; several are in `Many.lean`.
-/

namespace Verif.Target
open Verif Verif.Command Verif.Schema Verif.Json

/-! ## Built files -/

/-- Versions of input files as read: path and hash, `none` for a missing file. -/
abbrev Reads := List (Str × Option Str)

/-- A compiled precompiled header. -/
structure PchArt where
  cmd : Str
  pchs : Reads
  headers : Reads
deriving DecidableEq, Repr

/-- An object file. -/
structure ObjArt where
  cmd : Str
  path : Str
  src : Option Str
  headers : Reads
  deps : Reads
  pch : Option PchArt
deriving DecidableEq, Repr

/-- The linked target. -/
structure BinArt where
  cmd : Str
  objs : List (Option ObjArt)
  libs : Reads
  linkDeps : Reads
  pch : Option PchArt
deriving DecidableEq, Repr

/-! ## State -/

/-- Where the tasks of the target are (`tasks.cpp`, `TaskDeps` at 166-172): the PCH
task before and after its decision, the compile task before and after its decision,
the link task before and after its decision, and the end task. -/
inductive Phase where
  | pch | pchRun | obj | objRun | link | linkRun | fin
deriving DecidableEq, Repr

/-- What happened in a run, in order. -/
inductive Entry where
  | pch (ok : Bool)                 -- PCH command
  | obj (src : Str) (ok : Bool)     -- compile command of a source
  | link (ok : Bool)                -- link command
  | missing (ph : Phase)            -- an input file could not be hashed
  | storeFailed                     -- the state could not be stored
  | other                           -- failure outside of this target
deriving DecidableEq, Repr

/-- The entry records a failure. -/
def Entry.failed : Entry → Bool
  | .pch ok => !ok
  | .obj _ ok => !ok
  | .link ok => !ok
  | _ => true

/-- A `Target` object while it is being built. -/
structure Run where
  cfg : TargetSchema          -- as configured by the user
  order : List Str            -- iteration order of the object map
  user : TargetSchema         -- `user_`
  load : TargetSchema         -- `serialization_.load_`
  loaded : Bool               -- `serialization_.IsLoaded()`
  store : TargetSchema        -- `serialization_.store_`
  dirty : Bool                -- `dirty_`
  phase : Phase
  pending : List PathInfo     -- selected sources whose command has not ended
  executed : List PathInfo    -- compiled sources not yet recorded by `AddSource`
deriving DecidableEq, Repr

/-- Outcome of the last finished run. -/
structure Done where
  cfg : TargetSchema
  ok : Bool                   -- task state at the end is SUCCESS
  built : Bool                -- `TargetState::IsBuilt`
deriving DecidableEq, Repr

/-- The whole system. -/
structure Sys where
  files : Str → Option Nat
  used : Str → List Nat
  seen : Str → List (Option Nat)
                              -- versions that the files had since the last decision of a task
  view : Str → Option Nat     -- versions that the command which ends next has read
  objs : Str → Option ObjArt
  pch : Option PchArt
  bin : Option BinArt
  stateFile : Option Str
  run : Option Run
  ok : Bool                   -- `env::get_task_state() == SUCCESS`
  log : List Entry            -- of the current or last run
  done : Option Done
  saved : TargetSchema        -- history variable: configuration of the last stored run
  fresh : Bool                -- history variable: no file was changed from outside since
                              -- the last start
  lost : List TargetSchema    -- history variable: configurations of runs that changed
                              -- something and ended without storing, since then

/-- Nothing exists. -/
def Sys.init : Sys where
  files := fun _ => none
  used := fun _ => []
  seen := fun _ => [none]
  view := fun _ => none
  objs := fun _ => none
  pch := none
  bin := none
  stateFile := none
  run := none
  ok := true
  log := []
  done := none
  saved := TargetSchema.empty
  fresh := true
  lost := []

/-! ## Parts of the code -/

/-- Point update. -/
def upd {α : Type} (f : Str → α) (p : Str) (a : α) : Str → α := fun q => if q = p then a else f q

/-- `PathInfoList::ComputeHash` (`path.h:206-219`): the decimal timestamp, `none` is
`assert_fatal` for a missing file.  The path is normalised again there, which
changes nothing (C20). -/
def fileHash (files : Str → Option Nat) (p : Str) : Option Str := (files p).map digits

/-- `PathInfoList::ComputeHashForAll` (`path.h:176-180`): updates in place and stops at
the first missing file. -/
def hashAll (files : Str → Option Nat) : List PathInfo → List PathInfo × Bool
  | [] => ([], true)
  | i :: l =>
    match fileHash files i.path with
    | none => (i :: l, false)
    | some h =>
      let r := hashAll files l
      ({ i with hash := h } :: r.1, r.2)

/-- Versions of the files of a list, at one instant. -/
def reads (files : Str → Option Nat) (l : List PathInfo) : Reads :=
  l.map fun i => (i.path, fileHash files i.path)

/-- Text of a constructed command. -/
def cmdText : Out → Str
  | .value s => s
  | _ => []

/-- The command was constructed. -/
def Out.isValue : Out → Bool
  | .value _ => true
  | _ => false

/-- The distinct elements of `l`, keeping first occurrences: keys of `object_files_`
filled with `try_emplace` (`compile_object.cpp:32-40`). -/
def distinct : List Str → List Str
  | [] => []
  | a :: l => a :: (distinct l).filter (· ≠ a)

/-- Source paths of a configuration. -/
def srcPaths (u : TargetSchema) : List Str := u.sources.map (·.path)

/-- All commands of `Target::Build` can be constructed (`build.cpp:104-122`);
otherwise `Build` ends in `assert_fatal` before any task exists. -/
def buildable (fx : Fixed) (c : TargetSchema) (order : List Str) : Bool :=
  ((srcPaths c).all fun s => Out.isValue (compileCommand fx c s))
    && (c.pchs = [] || Out.isValue (pchCommand fx c))
    && Out.isValue (linkCommand fx c order)

/-- Flags compared by the PCH task (`compile_pch.cpp:83-94`). -/
def pchFlagsEq (a b : TargetSchema) : Bool :=
  a.preprocessorFlags = b.preprocessorFlags && a.commonCompileFlags = b.commonCompileFlags
    && a.pchCompileFlags = b.pchCompileFlags && a.cCompileFlags = b.cCompileFlags
    && a.cppCompileFlags = b.cppCompileFlags

/-- The decision of `CompilePch::BuildCompile` (`compile_pch.cpp:80-108`), where
`dirty_` is still false. -/
def pchDirty (loaded : Bool) (load user : TargetSchema) : Bool :=
  if !loaded then true
  else if !pchFlagsEq load user then true
  else if load.includeDirs ≠ user.includeDirs then true
  else if load.headers ≠ user.headers || load.pchs ≠ user.pchs then true
  else !load.pchCompiled

/-- Flags compared by the compile task (`compile_object.cpp:179-190`). -/
def objFlagsEq (a b : TargetSchema) : Bool :=
  a.preprocessorFlags = b.preprocessorFlags && a.commonCompileFlags = b.commonCompileFlags
    && a.pchObjectFlags = b.pchObjectFlags && a.asmCompileFlags = b.asmCompileFlags
    && a.cCompileFlags = b.cCompileFlags && a.cppCompileFlags = b.cppCompileFlags

/-- The first decision of `CompileObject::BuildObjectCompile`
(`compile_object.cpp:175-205`): compile everything. -/
def objDirty (dirty loaded : Bool) (load user : TargetSchema) : Bool :=
  if !loaded then true
  else if dirty then true
  else if !objFlagsEq load user then true
  else if load.includeDirs ≠ user.includeDirs then true
  else if load.headers ≠ user.headers then true
  else load.compileDeps ≠ user.compileDeps

/-- `GetUnorderedPathInfos` (`path.h:189-195`): the first entry of a path is kept. -/
def lookupInfo : List PathInfo → Str → Option Str
  | [], _ => none
  | i :: l, p => if i.path = p then some i.hash else lookupInfo l p

/-- Remove a key from the map. -/
def eraseInfo (l : List PathInfo) (p : Str) : List PathInfo := l.filter (·.path ≠ p)

/-- Result of `RecompileSources`. -/
structure Selection where
  selected : List PathInfo := []
  dummy : List PathInfo := []
  dirty : Bool := false
deriving DecidableEq, Repr

/-- The loop of `CompileObject::RecompileSources` (`compile_object.cpp:234-267`).
`prev` is the map of stored sources, of which entries are erased on the way. -/
def recompile (prev : List PathInfo) : List PathInfo → Selection
  | [] => { dirty := prev ≠ [] }
  | i :: l =>
    match lookupInfo prev i.path with
    | none =>
      let r := recompile prev l
      { r with selected := i :: r.selected, dirty := true }
    | some h =>
      let r := recompile (eraseInfo prev i.path) l
      if h ≠ i.hash then { r with selected := i :: r.selected, dirty := true }
      else { r with dummy := i :: r.dummy }

/-- The decision of `LinkTarget::BuildLink` (`link_target.cpp:75-101`). -/
def linkDirty (dirty loaded : Bool) (load user : TargetSchema) : Bool :=
  if !loaded then true
  else if dirty then true
  else if load.linkFlags ≠ user.linkFlags then true
  else if load.libDirs ≠ user.libDirs then true
  else if load.externalLibs ≠ user.externalLibs then true
  else if load.linkDeps ≠ user.linkDeps || load.libs ≠ user.libs then true
  else !load.targetLinked

/-! ## What the commands produce -/

/-- PCH compiled now (`compile_pch.cpp:110-120`). -/
def makePch (fx : Fixed) (σ : Sys) (c : TargetSchema) : PchArt where
  cmd := cmdText (pchCommand fx c)
  pchs := reads σ.view c.pchs
  headers := reads σ.view c.headers

/-- Object compiled now (`tasks.cpp:102-103`). -/
def makeObj (fx : Fixed) (σ : Sys) (c : TargetSchema) (src : Str) : ObjArt where
  cmd := cmdText (compileCommand fx c src)
  path := src
  src := fileHash σ.view src
  headers := reads σ.view c.headers
  deps := reads σ.view c.compileDeps
  pch := if c.pchs ≠ [] then σ.pch else none

/-- Target linked now (`link_target.cpp:103-107`). -/
def makeBin (fx : Fixed) (σ : Sys) (c : TargetSchema) (order : List Str) : BinArt where
  cmd := cmdText (linkCommand fx c order)
  objs := order.map fun s => σ.objs (objPath fx s)
  libs := reads σ.view c.libs
  linkDeps := reads σ.view c.linkDeps
  pch := if c.pchs ≠ [] then σ.pch else none

/-! ## Events -/

inductive Event where
  | edit (p : Str) (stamp : Nat)
  | delete (p : Str)
  | tamperObj (p : Str) (a : Option ObjArt)
  | tamperPch (a : Option PchArt)
  | tamperBin (a : Option BinArt)
  | dropState
  | otherFail
  | look (p : Str) (v : Option Nat)
  | start (c : TargetSchema) (order : List Str)
  | pchTask
  | pchExec (ok : Bool) (junk : Option (Option PchArt))
  | objTask
  | exec (k : Nat) (ok : Bool) (junk : Option (Option ObjArt))
  | add (k : Nat)
  | linkTask
  | linkExec (ok : Bool) (junk : Option (Option BinArt))
  | finish (canOpen : Bool)
  | crash (written : Option Nat)

/-- `env::set_task_state(FAILURE)` with a log entry. -/
def Sys.fail (σ : Sys) (e : Entry) : Sys := { σ with ok := false, log := σ.log ++ [e] }

/-- From now on commands start that read the files. -/
def Sys.settle (σ : Sys) : Sys := { σ with seen := fun p => [σ.files p], view := σ.files }

/-- A file gets another version, or is removed. -/
def Sys.put (σ : Sys) (p : Str) (v : Option Nat) : Sys :=
  { σ with files := upd σ.files p v, seen := upd σ.seen p (v :: σ.seen p)
           view := upd σ.view p v, fresh := false }

/-- The command that ends next has read the version `v` of a file. -/
def lookAt (σ : Sys) (p : Str) (v : Option Nat) : Sys :=
  if v ∈ σ.seen p then { σ with view := upd σ.view p v } else σ

/-- The state the run has stored or tried to store (`tasks.cpp:150-163`). -/
def Run.toStore (r : Run) : TargetSchema := updateStore r.store r.user

/-- Start of a build: `Target::Build` (`build.cpp:54-127`) in a new process. -/
def startRun (fx : Fixed) (σ : Sys) (c : TargetSchema) (order : List Str) : Sys :=
  match σ.run with
  | some _ => σ
  | none =>
    if order.isPerm (distinct (srcPaths c)) && buildable fx c order then
      let l := loadTargetFile σ.stateFile
      { σ with
        ok := true, log := [], done := none, fresh := true
        run := some
          { cfg := c, order := order, user := c
            load := l.getD TargetSchema.empty, loaded := l.isSome
            store := TargetSchema.empty, dirty := false
            phase := if c.pchs ≠ [] then .pch else .obj
            pending := [], executed := [] } }
    else σ

/-- First part of `CompilePch::Task` (`tasks.cpp:47-68`): the state check, the hashes
and the decision; without a command to run also `UpdatePchCompiled`. -/
def pchTask (σ : Sys) (r : Run) : Sys :=
  if !σ.ok then { σ with run := some { r with phase := .obj } }
  else
    let h1 := hashAll σ.files r.user.headers
    let u1 := { r.user with headers := h1.1 }
    if !h1.2 then
      { σ.fail (.missing .pch) with run := some { r with user := u1, phase := .obj } }
    else
      let h2 := hashAll σ.files u1.pchs
      let u2 := { u1 with pchs := h2.1 }
      if !h2.2 then
        { σ.fail (.missing .pch) with run := some { r with user := u2, phase := .obj } }
      else if pchDirty r.loaded r.load u2 then
        { σ with run := some { r with user := u2, dirty := true, phase := .pchRun } }
      else
        { σ with run := some { r with user := u2, store := updatePchCompiled r.store u2,
                                      phase := .obj } }

/-- The PCH command and `UpdatePchCompiled` (`compile_pch.cpp:110-120`,
`tasks.cpp:53-58`).  A failure to write the generated header counts as a failed
command. -/
def pchExec (fx : Fixed) (σ : Sys) (r : Run) (ok : Bool) (junk : Option (Option PchArt)) : Sys :=
  if ok then
    { σ with
      pch := some (makePch fx σ r.cfg), log := σ.log ++ [.pch true]
      run := some { r with store := updatePchCompiled r.store r.user, phase := .obj } }
  else
    { σ.fail (.pch false) with
      pch := junk.getD σ.pch, run := some { r with phase := .obj } }

/-- First part of `CompileObject::Task` (`tasks.cpp:80-94`): the state check, the
hashes, the decision and the sources that need no command. -/
def objTask (σ : Sys) (r : Run) : Sys :=
  if !σ.ok then { σ with run := some { r with phase := .link } }
  else
    let h1 := hashAll σ.files r.user.sources
    let u1 := { r.user with sources := h1.1 }
    if !h1.2 then
      { σ.fail (.missing .obj) with run := some { r with user := u1, phase := .link } }
    else
      let h2 := hashAll σ.files u1.headers
      let u2 := { u1 with headers := h2.1 }
      if !h2.2 then
        { σ.fail (.missing .obj) with run := some { r with user := u2, phase := .link } }
      else
        let h3 := hashAll σ.files u2.compileDeps
        let u3 := { u2 with compileDeps := h3.1 }
        if !h3.2 then
          { σ.fail (.missing .obj) with run := some { r with user := u3, phase := .link } }
        else if objDirty r.dirty r.loaded r.load u3 then
          { σ with run := some { r with user := u3, dirty := true, pending := u3.sources,
                                        phase := .objRun } }
        else
          let s := recompile r.load.sources u3.sources
          { σ with
            run := some { r with
              user := u3, dirty := s.dirty, pending := s.selected
              store := s.dummy.foldl (fun st i => addSource st i.path i.hash) r.store
              phase := .objRun } }

/-- One compile command of the subflow (`tasks.cpp:100-111`), up to its end. -/
def execObj (fx : Fixed) (σ : Sys) (r : Run) (k : Nat) (ok : Bool)
    (junk : Option (Option ObjArt)) : Sys :=
  match r.pending[k]? with
  | none => σ
  | some i =>
    let o := objPath fx i.path
    if ok then
      { σ with
        objs := upd σ.objs o (some (makeObj fx σ r.cfg i.path))
        log := σ.log ++ [.obj i.path true]
        run := some { r with pending := r.pending.eraseIdx k, executed := i :: r.executed } }
    else
      { σ.fail (.obj i.path false) with
        objs := match junk with
          | none => σ.objs
          | some a => upd σ.objs o a
        run := some { r with pending := r.pending.eraseIdx k } }

/-- `AddSource` after a successful command (`tasks.cpp:105-106`). -/
def addObj (σ : Sys) (r : Run) (k : Nat) : Sys :=
  match r.executed[k]? with
  | none => σ
  | some i =>
    { σ with run := some { r with executed := r.executed.eraseIdx k
                                  store := addSource r.store i.path i.hash } }

/-- First part of `LinkTarget::Task` (`tasks.cpp:132-144`, `link_target.cpp:68-101`). -/
def linkTask (σ : Sys) (r : Run) : Sys :=
  if !σ.ok then { σ with run := some { r with phase := .fin } }
  else
    let h1 := hashAll σ.files r.user.libs
    let u1 := { r.user with libs := h1.1 }
    if !h1.2 then
      { σ.fail (.missing .link) with run := some { r with user := u1, phase := .fin } }
    else
      let h2 := hashAll σ.files u1.linkDeps
      let u2 := { u1 with linkDeps := h2.1 }
      if !h2.2 then
        { σ.fail (.missing .link) with run := some { r with user := u2, phase := .fin } }
      else if linkDirty r.dirty r.loaded r.load u2 then
        { σ with run := some { r with user := u2, dirty := true, phase := .linkRun } }
      else { σ with run := some { r with user := u2, phase := .fin } }

/-- The link command and `UpdateTargetCompiled` (`link_target.cpp:103-107`). -/
def linkExec (fx : Fixed) (σ : Sys) (r : Run) (ok : Bool) (junk : Option (Option BinArt)) : Sys :=
  if ok then
    { σ with
      bin := some (makeBin fx σ r.cfg r.order), log := σ.log ++ [.link true]
      run := some { r with store := updateTargetCompiled r.store, phase := .fin } }
  else
    { σ.fail (.link false) with
      bin := junk.getD σ.bin, run := some { r with phase := .fin } }

/-- `Target::EndTask` (`tasks.cpp:150-164`). -/
def finishRun (σ : Sys) (r : Run) (canOpen : Bool) : Sys :=
  if r.dirty then
    match storeText (targetText r.toStore) canOpen σ.stateFile with
    | (.stored, f) =>
      { σ with stateFile := f, run := none, done := some ⟨r.cfg, σ.ok, true⟩
               saved := r.user, lost := [] }
    | (_, f) =>
      { σ.fail .storeFailed with
        stateFile := f, run := none, done := some ⟨r.cfg, false, false⟩
        lost := σ.lost ++ [r.cfg] }
  else { σ with run := none, done := some ⟨r.cfg, σ.ok, false⟩ }

/-- The process dies.  In the end task of a dirty target the state file may already
have been truncated and written up to some byte (`env/util.h:50-67`). -/
def crashRun (σ : Sys) (r : Run) (written : Option Nat) : Sys :=
  let σ' := { σ with run := none, lost := if r.dirty then σ.lost ++ [r.cfg] else σ.lost }
  match written with
  | none => σ'
  | some n =>
    match r.phase, r.dirty, targetText r.toStore with
    | .fin, true, some text =>
      if n < text.length then { σ' with stateFile := some (text.take n) }
      else { σ' with stateFile := some text, saved := r.user, lost := [] }
    | _, _, _ => σ'

/-- Run an event that needs an active build in phase `ph`. -/
def inPhase (σ : Sys) (ph : Phase) (f : Run → Sys) : Sys :=
  match σ.run with
  | some r => if r.phase = ph then f r else σ
  | none => σ

/-- One event. -/
def step (fx : Fixed) (σ : Sys) : Event → Sys
  | .edit p t => { σ.put p (some t) with used := upd σ.used p (t :: σ.used p) }
  | .delete p => σ.put p none
  | .tamperObj p a => { σ with objs := upd σ.objs p a, fresh := false }
  | .tamperPch a => { σ with pch := a, fresh := false }
  | .tamperBin a => { σ with bin := a, fresh := false }
  | .dropState => if σ.run.isNone then { σ with stateFile := none, fresh := false } else σ
  | .otherFail => if σ.run.isSome then σ.fail .other else σ
  | .look p v => lookAt σ p v
  | .start c order => startRun fx σ c order
  | .pchTask => inPhase σ .pch (pchTask σ.settle)
  | .pchExec ok junk => inPhase σ .pchRun fun r => pchExec fx σ r ok junk
  | .objTask => inPhase σ .obj (objTask σ.settle)
  | .exec k ok junk => inPhase σ .objRun fun r => execObj fx σ r k ok junk
  | .add k => inPhase σ .objRun fun r => addObj σ r k
  | .linkTask =>
    match σ.run with
    | some r =>
      if r.phase = .link ∨ (r.phase = .objRun ∧ r.pending = [] ∧ r.executed = []) then
        linkTask σ.settle r
      else σ
    | none => σ
  | .linkExec ok junk => inPhase σ .linkRun fun r => linkExec fx σ r ok junk
  | .finish canOpen => inPhase σ .fin fun r => finishRun σ r canOpen
  | .crash written =>
    match σ.run with
    | some r => crashRun σ r written
    | none => σ

/-- A history. -/
def steps (fx : Fixed) (σ : Sys) (evs : List Event) : Sys := evs.foldl (step fx) σ

end Verif.Target
