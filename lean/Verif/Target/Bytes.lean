import Verif.Target.Spec

/-!
# What the files hold

The model of a target knows input files by their time stamps only, because that is all the code
looks at (`path.h:206-219`), and describes a built file by how it was made.  Here files have a time
stamp and a content, an edit gives a file any stamp and any content, and built files are what the
tools made of the contents that they read.  The code is the one of `Model`: it runs on the stamps.

Simplifications.
* A tool is a function of its command and of the contents of its declared inputs.
* When two versions of a file that were there during one task have the same stamp, a command
  reads the later one.
-/

namespace Verif.Target
open Verif Verif.Command Verif.Schema Verif.Json

variable {β : Type}

/-- The compiler and the linker.  A missing file is `none`. -/
structure Tools (β : Type) where
  /-- Command, precompiled headers, other headers. -/
  pch : Str → List (Str × Option β) → List (Str × Option β) → β
  /-- Command, source, headers, compile dependencies, compiled header. -/
  obj : Str → Option β → List (Str × Option β) → List (Str × Option β) → Option β → β
  /-- Command, objects, libraries, link dependencies, compiled header. -/
  bin : Str → List (Option β) → List (Str × Option β) → List (Str × Option β) → Option β → β

/-- Files with stamps and contents, contents of the built files, and the build system. -/
structure BSys (β : Type) where
  sys : Sys
  files : Str → Option (Nat × β)
  seen : Str → List (Option (Nat × β))
  view : Str → Option (Nat × β)
  objs : Str → Option β
  pch : Option β
  bin : Option β

def BSys.init : BSys β := ⟨Sys.init, fun _ => none, fun _ => [none], fun _ => none, fun _ => none, none, none⟩

/-- The events of `Model`, with contents. -/
inductive BEvent (β : Type) where
  | edit (p : Str) (stamp : Nat) (x : β)
  | delete (p : Str)
  | tamperObj (p : Str) (x : Option β)
  | tamperPch (x : Option β)
  | tamperBin (x : Option β)
  | dropState
  | otherFail
  | look (p : Str) (v : Option Nat)
  | start (c : TargetSchema) (order : List Str)
  | pchTask
  | pchExec (ok : Bool) (left : Option (Option β))
  | objTask
  | exec (k : Nat) (ok : Bool) (left : Option (Option β))
  | add (k : Nat)
  | linkTask
  | linkExec (ok : Bool) (left : Option (Option β))
  | finish (canOpen : Bool)
  | crash (written : Option Nat)

/-- How a precompiled header that does not come from a successful command was made: not at all.
No file has this hash. -/
def junkPch : PchArt := ⟨[], [([], some b!"?")], []⟩
def junkObj : ObjArt := ⟨[], [], some b!"?", [], [], none⟩
def junkBin : BinArt := ⟨[], [], [([], some b!"?")], [], none⟩

/-- The event as the model of the build system sees it. -/
def BEvent.erase : BEvent β → Event
  | .edit p t _ => .edit p t
  | .delete p => .delete p
  | .tamperObj p x => .tamperObj p (x.map fun _ => junkObj)
  | .tamperPch x => .tamperPch (x.map fun _ => junkPch)
  | .tamperBin x => .tamperBin (x.map fun _ => junkBin)
  | .dropState => .dropState
  | .otherFail => .otherFail
  | .look p v => .look p v
  | .start c o => .start c o
  | .pchTask => .pchTask
  | .pchExec ok left => .pchExec ok (left.map fun x => x.map fun _ => junkPch)
  | .objTask => .objTask
  | .exec k ok left => .exec k ok (left.map fun x => x.map fun _ => junkObj)
  | .add k => .add k
  | .linkTask => .linkTask
  | .linkExec ok left => .linkExec ok (left.map fun x => x.map fun _ => junkBin)
  | .finish b => .finish b
  | .crash w => .crash w

/-- Content of a file. -/
def text (files : Str → Option (Nat × β)) (p : Str) : Option β := (files p).map (·.2)

/-- Contents of the files of a list. -/
def texts (d : Str → Option β) (l : List PathInfo) : List (Str × Option β) :=
  l.map fun i => (i.path, d i.path)

/-- A file gets another version, or is removed (`Sys.put`). -/
def BSys.put (s : BSys β) (p : Str) (v : Option (Nat × β)) : BSys β :=
  { s with files := upd s.files p v, seen := upd s.seen p (v :: s.seen p), view := upd s.view p v }

/-- From now on commands start that read the files (`Sys.settle`). -/
def BSys.settle (s : BSys β) : BSys β := { s with seen := fun p => [s.files p], view := s.files }

/-- The command that ends next has read the version with stamp `v` (`lookAt`). -/
def BSys.lookAt (s : BSys β) (p : Str) (v : Option Nat) : BSys β :=
  match (s.seen p).find? (fun y => decide (y.map (·.1) = v)) with
  | some y => { s with view := upd s.view p y }
  | none => s

/-- What the event does to the contents of files: `pchExec`, `execObj` and `linkExec` of `Model`
with contents in place of descriptions (`compile_pch.cpp:110-120`, `tasks.cpp:100-111`,
`link_target.cpp:103-107`). -/
def bytesStep (fx : Fixed) (T : Tools β) (s : BSys β) : BEvent β → BSys β
  | .edit p t x => s.put p (some (t, x))
  | .delete p => s.put p none
  | .tamperObj p x => { s with objs := upd s.objs p x }
  | .tamperPch x => { s with pch := x }
  | .tamperBin x => { s with bin := x }
  | .look p v => s.lookAt p v
  | .pchTask =>
    match s.sys.run with
    | some r => if r.phase = .pch then s.settle else s
    | none => s
  | .objTask =>
    match s.sys.run with
    | some r => if r.phase = .obj then s.settle else s
    | none => s
  | .linkTask =>
    match s.sys.run with
    | some r =>
      if r.phase = .link ∨ (r.phase = .objRun ∧ r.pending = [] ∧ r.executed = []) then s.settle else s
    | none => s
  | .pchExec ok left =>
    match s.sys.run with
    | some r =>
      if r.phase = .pchRun then
        { s with pch := if ok then some (T.pch (cmdText (pchCommand fx r.cfg)) (texts (text s.view) r.cfg.pchs)
                            (texts (text s.view) r.cfg.headers))
                        else left.getD s.pch }
      else s
    | none => s
  | .exec k ok left =>
    match s.sys.run with
    | some r =>
      if r.phase = .objRun then
        match r.pending[k]? with
        | none => s
        | some i =>
          { s with objs := if ok then upd s.objs (objPath fx i.path)
                              (some (T.obj (cmdText (compileCommand fx r.cfg i.path)) (text s.view i.path)
                                (texts (text s.view) r.cfg.headers) (texts (text s.view) r.cfg.compileDeps)
                                (if r.cfg.pchs ≠ [] then s.pch else none)))
                            else match left with
                              | none => s.objs
                              | some x => upd s.objs (objPath fx i.path) x }
      else s
    | none => s
  | .linkExec ok left =>
    match s.sys.run with
    | some r =>
      if r.phase = .linkRun then
        { s with bin := if ok then some (T.bin (cmdText (linkCommand fx r.cfg r.order))
                            (r.order.map fun p => s.objs (objPath fx p)) (texts (text s.view) r.cfg.libs)
                            (texts (text s.view) r.cfg.linkDeps) (if r.cfg.pchs ≠ [] then s.pch else none))
                        else left.getD s.bin }
      else s
    | none => s
  | _ => s

/-- One event. -/
def bstep (fx : Fixed) (T : Tools β) (s : BSys β) (e : BEvent β) : BSys β :=
  { bytesStep fx T s e with sys := step fx s.sys e.erase }

/-- A history. -/
def bsteps (fx : Fixed) (T : Tools β) (s : BSys β) (evs : List (BEvent β)) : BSys β :=
  evs.foldl (bstep fx T) s

/-! ## A build from scratch, with contents -/

def scratchPch (fx : Fixed) (T : Tools β) (d : Str → Option β) (c : TargetSchema) : β :=
  T.pch (cmdText (pchCommand fx c)) (texts d c.pchs) (texts d c.headers)

def scratchPch? (fx : Fixed) (T : Tools β) (d : Str → Option β) (c : TargetSchema) : Option β :=
  if c.pchs = [] then none else some (scratchPch fx T d c)

def scratchObj (fx : Fixed) (T : Tools β) (d : Str → Option β) (c : TargetSchema)
    (src : Str) : β :=
  T.obj (cmdText (compileCommand fx c src)) (d src) (texts d c.headers)
    (texts d c.compileDeps) (scratchPch? fx T d c)

def scratchBin (fx : Fixed) (T : Tools β) (d : Str → Option β) (c : TargetSchema)
    (order : List Str) : β :=
  T.bin (cmdText (linkCommand fx c order)) (order.map fun s => some (scratchObj fx T d c s))
    (texts d c.libs) (texts d c.linkDeps) (scratchPch? fx T d c)

/-- The built files hold what a build from scratch would make of the contents of the files. -/
structure CleanBytes (fx : Fixed) (T : Tools β) (s : BSys β) (c : TargetSchema) : Prop where
  pch : c.pchs ≠ [] → s.pch = some (scratchPch fx T (text s.files) c)
  obj : ∀ p ∈ paths c.sources, s.objs (objPath fx p) = some (scratchObj fx T (text s.files) c p)
  bin : ∃ order : List Str, order.Perm (paths c.sources) ∧
    s.bin = some (scratchBin fx T (text s.files) c order)

end Verif.Target
