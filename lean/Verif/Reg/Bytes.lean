import Verif.Reg.OneScript
import Verif.Generator.Bytes

/-!
# What the files of a build script hold

`World` with contents of files.  The build system is the one of `World`: it sees time stamps only.
Beside it are the contents of all files, and for each builder what it has made
(`Target/Bytes.lean`, `Generator/Bytes.lean`).

Simplifications.
* Those of `World.lean`, `Target/Bytes.lean` and `Generator/Bytes.lean`.
* A callback that returns true has written all its outputs.
-/

namespace Verif.Reg
open Verif Verif.Schema
open Verif.Target (Fixed outputPath upd text paths)

variable {β : Type}

/-- The tools of the targets, and the callbacks of each generator. -/
structure Makers (β : Type) where
  tools : Target.Tools β
  callbacks : Str → Generator.Callbacks β

/-! ## Builders -/

/-- A target or a generator, with contents. -/
inductive BComp (β : Type) where
  | target (fx : Fixed) (s : Target.BSys β)
  | gen (s : Generator.BSys β)

/-- One step of the tasks of a builder. -/
inductive BEv (β : Type) where
  | t (e : Target.BEvent β)
  | g (e : Generator.BEvent β)

/-- The builder without contents. -/
def BComp.erase : BComp β → Comp
  | .target fx s => .target fx s.sys
  | .gen s => .gen s.sys

/-- The step without contents; to change outputs by hand is not a step of a generator. -/
def BEv.erase : BEv β → Ev
  | .t e => .t e.erase
  | .g e => .g (e.erase.getD .otherFail)

def BComp.step (M : Makers β) (j : Str) : BComp β → BEv β → BComp β
  | .target fx s, .t e => .target fx (Target.bstep fx M.tools s e)
  | .gen s, .g e => .gen (Generator.bstep (M.callbacks j) s e)
  | c, _ => c

/-- `Comp.write`. -/
def BComp.write (M : Makers β) (j : Str) (c : BComp β) (p : Str) : Option (Nat × β) → BComp β
  | some (t, x) => (c.step M j (.t (.edit p t x))).step M j (.g (.edit p t x))
  | none => (c.step M j (.t (.delete p))).step M j (.g (.delete p))

/-- `Comp.fail`. -/
def BComp.fail (M : Makers β) (j : Str) (c : BComp β) : BComp β :=
  (c.step M j (.t .otherFail)).step M j (.g .otherFail)

/-- `Comp.dropState`. -/
def BComp.dropState (M : Makers β) (j : Str) (c : BComp β) : BComp β :=
  (c.step M j (.t .dropState)).step M j (.g .dropState)

/-- `Comp.kill`. -/
def BComp.kill (M : Makers β) (j : Str) (c : BComp β) (order : List Str) (w : Option Nat) : BComp β :=
  (c.step M j (.t (.crash w))).step M j (.g (.crash order w))

/-- `Comp.start`. -/
def BComp.start (M : Makers β) (j : Str) (c : BComp β) : Setup → BComp β
  | .target cfg order => c.step M j (.t (.start cfg order))
  | .gen cfg => c.step M j (.g (.start cfg))

/-- The content of a file that the step has written; `c` is the builder after the step, and `junk` is
what is in files that nothing is known about. -/
def contentFor (c : BComp β) (e : BEv β) (junk : Str → β) (p : Str) : β :=
  match c, e with
  | .target fx s, .t (.linkExec _ _) => if p = outputPath fx then s.bin.getD (junk p) else junk p
  | .target _ s, .t (.exec _ _ _) => (s.objs p).getD (junk p)
  | .target fx s, .t (.pchExec _ _) =>
    if p = Path.pchCompilePath fx.buildDir fx.cfg.pchHeaderExt fx.cfg.pchCompileExt then s.pch.getD (junk p)
    else junk p
  | .gen s, .g (.call id _ _) => (s.outs id p).getD (junk p)
  | _, _ => junk p

/-! ## The world -/

structure BWorld (β : Type) where
  world : World
  files : Str → Option (Nat × β)
  comps : Str → BComp β
  hist : List (Str × Nat × β)   -- history variable: all versions of files

/-- What a step of the tasks of a builder is: for a callback the files that it writes tell what it
leaves in its outputs when it fails. -/
inductive BTask (β : Type) where
  | t (e : Target.BEvent β)
  | begin
  | task (id : Str)
  | call (id : Str) (ok : Bool)
  | finish (order : List Str) (canOpen : Bool)

def BTask.ev (ws : Writes) (junk : Str → β) : BTask β → BEv β
  | .t e => .t e
  | .begin => .g .begin
  | .task id => .g (.task id)
  | .call id ok => .g (.call id ok fun p =>
      match ws.find? (fun x => decide (x.1 = p)) with
      | none => none
      | some x => some (x.2.map fun _ => junk p))
  | .finish order b => .g (.finish order b)

/-- A builder reads a file. -/
inductive BLook where
  | t (p : Str) (v : Option Nat)
  | g (id p : Str) (v : Option Nat)

def BLook.ev : BLook → BEv β
  | .t p v => .t (.look p v)
  | .g id p v => .g (.look id p v)

inductive BWEvent (β : Type) where
  | edit (p : Str) (stamp : Nat) (x : β)
  | delete (p : Str)
  | dropState (id : Str)
  | launch (g : Graph) (setup : Str → Setup)
  | begin (id : Str)
  | task (id : Str) (e : BTask β) (ws : Writes) (junk : Str → β)
  | look (id : Str) (e : BLook)
  | join
  | kill (order : Str → List Str) (written : Str → Option Nat)

/-- The event as the build system sees it. -/
def BWEvent.erase : BWEvent β → WEvent
  | .edit p t _ => .edit p t
  | .delete p => .delete p
  | .dropState id => .dropState id
  | .launch g s => .launch g s
  | .begin id => .begin id
  | .task id e ws junk => .task id (e.ev ws junk).erase ws
  | .look id e => .look id (e.ev (β := β)).erase
  | .join => .join
  | .kill o w => .kill o w

/-- A callback that returns true has written all its outputs. -/
def writesAll : Comp → Ev → Writes → Bool
  | .gen σ, .g (.call id true), ws =>
    match σ.run with
    | some r =>
      match Generator.find id r.cfg with
      | some i => i.outputs.all fun p => ws.any fun x => x.1 = p && x.2.isSome
      | none => true
    | none => true
  | _, _, _ => true

/-- The step of the tasks is possible. -/
def World.acts (w : World) (id : Str) (e : Ev) (ws : Writes) : Bool :=
  w.active && id ∈ w.begun && (w.comps id).running && e.isTask && legal (w.comps id) e w.used ws

/-- A change of a file reaches the disk and all views (`World.write`). -/
def BWorld.put (M : Makers β) (b : BWorld β) (p : Str) (v : Option (Nat × β)) : BWorld β :=
  { b with
    files := upd b.files p v
    comps := fun j => (b.comps j).write M j p v
    hist := match v with
      | some (t, x) => (p, t, x) :: b.hist
      | none => b.hist }

/-- The contents of what is written. -/
def withContents (c : BComp β) (e : BEv β) (junk : Str → β) (ws : Writes) :
    List (Str × Option (Nat × β)) :=
  ws.map fun x => (x.1, x.2.map fun t => (t, contentFor c e junk x.1))

/-- One step of the tasks of `id` (`World.task`). -/
def BWorld.task (M : Makers β) (b : BWorld β) (id : Str) (e : BEv β) (ws : Writes) (junk : Str → β) :
    BWorld β :=
  let c := (b.comps id).step M id e
  let failed := b.world.ok && !c.erase.ok
  (withContents c e junk ws).foldl (fun b x => b.put M x.1 x.2)
    { b with
      world := b.world.task id e.erase ws
      comps := fun j => if j = id then c else if failed then (b.comps j).fail M j else b.comps j }

/-- One event (`World.step`). -/
def BWorld.step (M : Makers β) (b : BWorld β) : BWEvent β → BWorld β
  | .edit p t x => { b.put M p (some (t, x)) with world := b.world.step (.edit p t) }
  | .delete p => { b.put M p none with world := b.world.step (.delete p) }
  | .dropState id =>
    if b.world.active then b
    else { b with world := b.world.step (.dropState id)
                  comps := upd b.comps id ((b.comps id).dropState M id) }
  | .launch g s =>
    if !b.world.active && g.ids.all (fun id => ((b.world.comps id).start (s id)).running) then
      { b with world := b.world.step (.launch g s)
               comps := fun j => if j ∈ g.ids then (b.comps j).start M j (s j) else b.comps j }
    else b
  | .begin id => { b with world := b.world.step (.begin id) }
  | .task id e ws junk =>
    let e := e.ev ws junk
    if b.world.acts id e.erase ws && writesAll (b.world.comps id) e.erase ws then b.task M id e ws junk
    else b
  | .look id e =>
    if b.world.active && id ∈ b.world.begun && (b.world.comps id).running then
      { b with world := b.world.step (.look id (e.ev (β := β)).erase)
               comps := upd b.comps id ((b.comps id).step M id e.ev) }
    else b
  | .join =>
    if b.world.active && b.world.over then
      { b with world := b.world.step .join
               comps := fun j =>
                 if j ∈ b.world.graph.ids then (b.comps j).kill M j [] none else b.comps j }
    else b
  | .kill order written =>
    if b.world.active then
      { b with world := b.world.step (.kill order written)
               comps := fun j =>
                 if j ∈ b.world.graph.ids then (b.comps j).kill M j (order j) (written j)
                 else b.comps j }
    else b

/-- A history. -/
def BWorld.steps (M : Makers β) (b : BWorld β) (evs : List (BWEvent β)) : BWorld β :=
  evs.foldl (BWorld.step M) b

def Kind.binit : Kind → BComp β
  | .target fx => .target fx Target.BSys.init
  | .gen => .gen Generator.BSys.init

/-- Nothing exists. -/
def BWorld.init (kinds : Str → Kind) : BWorld β where
  world := World.init kinds
  files := fun _ => none
  comps := fun j => (kinds j).binit
  hist := []

/-! ## A build from scratch of the whole script -/

/-- What a builder makes of the files `d`. -/
def buildOne (M : Makers β) (kinds : Str → Kind) (s : Str → Setup) (orders : Str → List Str)
    (d : Str → Option β) (j : Str) : Str → Option β :=
  match kinds j, s j with
  | .target fx, .target c _ => upd d (outputPath fx) (some (Target.scratchBin fx M.tools d c (orders j)))
  | .gen, .gen c => fun p =>
    match c.find? (fun x => decide (p ∈ x.2.outputs)) with
    | some (id, i) => some (Generator.made (M.callbacks j) d id i p)
    | none => d p
  | _, _ => d

/-- The builders are run one after the other, each one once. -/
def buildAll (M : Makers β) (kinds : Str → Kind) (s : Str → Setup) (orders : Str → List Str)
    (l : List Str) (d : Str → Option β) : Str → Option β :=
  l.foldl (buildOne M kinds s orders) d

/-- All builders of the script, each one after those it depends on. -/
structure InOrder (g : Graph) (l : List Str) : Prop where
  all : l.Perm g.ids
  after : ∀ pre j post, l = pre ++ j :: post → ∀ a, (a, j) ∈ g.edges → a ∈ pre

/-- The files that the script makes, intermediate ones included. -/
def isMade (kinds : Str → Kind) (g : Graph) (s : Str → Setup) (p : Str) : Bool :=
  g.ids.any fun j => p ∈ outputs (kinds j).init (s j)

/-- The contents of the files that the script does not make; none of those it makes exists. -/
def sourcesOnly (kinds : Str → Kind) (g : Graph) (s : Str → Setup) (files : Str → Option (Nat × β)) :
    Str → Option β :=
  fun p => if isMade kinds g s p then none else text files p

/-- What a builder is for. -/
def products : Kind → Setup → List Str
  | .target fx, .target _ _ => [outputPath fx]
  | .gen, .gen c => c.flatMap fun x => x.2.outputs
  | _, _ => []

/-- Every product has one maker, and of the files that the script makes only products are read. -/
structure OneMaker (kinds : Str → Kind) (g : Graph) (s : Str → Setup) : Prop where
  /-- No other builder writes it. -/
  others : ∀ a ∈ g.ids, ∀ b ∈ g.ids, a ≠ b → ∀ p ∈ products (kinds a) (s a),
    p ∉ outputs (kinds b).init (s b)
  /-- The output of a target is not one of its intermediate files. -/
  target : ∀ a ∈ g.ids, ∀ fx, kinds a = .target fx → outputPath fx ∉ pchFiles fx ∧
    ∀ c o, s a = .target c o → ∀ q ∈ paths c.sources, Target.objPath fx q ≠ outputPath fx
  /-- The ids of a generator have different names and different outputs. -/
  gen : ∀ a ∈ g.ids, ∀ c, s a = .gen c → (Generator.keys c).Nodup ∧
    ∀ x ∈ c, ∀ y ∈ c, ∀ p ∈ x.2.outputs, p ∈ y.2.outputs → x.1 = y.1
  /-- Intermediate files are not read. -/
  reads : ∀ a ∈ g.ids, ∀ b ∈ g.ids, ∀ p ∈ outputs (kinds a).init (s a), p ∈ (s b).inputs →
    p ∈ products (kinds a) (s a)

/-! ## A history of the script -/

/-- Nobody changes by hand what the script makes. -/
def BWEvent.handsOff (kinds : Str → Kind) (g : Graph) (s : Str → Setup) : BWEvent β → Prop
  | .edit p _ _ => isMade kinds g s p = false
  | .delete p => isMade kinds g s p = false
  | _ => True

/-- The history is one of the script (`OfScript`). -/
def AllOfScriptB (M : Makers β) (kinds : Str → Kind) (g : Graph) (s : Str → Setup) :
    BWorld β → List (BWEvent β) → Prop
  | _, [] => True
  | b, e :: l => OfScript g s b.world e.erase ∧ e.handsOff kinds g s ∧ AllOfScriptB M kinds g s (b.step M e) l

end Verif.Reg
