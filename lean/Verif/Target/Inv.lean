import Verif.Target.HashLemmas
import Verif.Schema.Lemmas

/-! # Invariants of the target model -/

namespace Verif.Target
open Verif Verif.Command Verif.Schema Verif.Json

/-! ## Expected contents, from recorded hashes -/

def ePch (fx : Fixed) (g : TargetSchema) : PchArt where
  cmd := cmdText (pchCommand fx g)
  pchs := rd g.pchs
  headers := rd g.headers

def ePch? (fx : Fixed) (g : TargetSchema) : Option PchArt :=
  if g.pchs = [] then none else some (ePch fx g)

def eObj (fx : Fixed) (g : TargetSchema) (i : PathInfo) : ObjArt where
  cmd := cmdText (compileCommand fx g i.path)
  path := i.path
  src := some i.hash
  headers := rd g.headers
  deps := rd g.compileDeps
  pch := ePch? fx g

/-- Entry of a path in a list. -/
def infoOf (l : List PathInfo) (p : Str) : PathInfo := ⟨p, (lookupInfo l p).getD []⟩

def eBin (fx : Fixed) (g : TargetSchema) (order : List Str) : BinArt where
  cmd := cmdText (linkCommand fx g order)
  objs := order.map fun p => some (eObj fx g (infoOf g.sources p))
  libs := rd g.libs
  linkDeps := rd g.linkDeps
  pch := ePch? fx g

def DeadPch (σ : Sys) (g : TargetSchema) : Prop := ∃ i ∈ g.pchs ++ g.headers, Dead σ i

def DeadObj (σ : Sys) (g : TargetSchema) (s : PathInfo) : Prop :=
  Dead σ s ∨ ∃ i ∈ g.pchs ++ g.headers ++ g.compileDeps, Dead σ i

def DeadBin (σ : Sys) (g : TargetSchema) : Prop :=
  ∃ i ∈ g.sources ++ (g.pchs ++ g.headers ++ g.compileDeps) ++ g.libs ++ g.linkDeps, Dead σ i

/-- What the stored state `s` of a run with configuration `g` guarantees, when the
runs with configurations `A` may have changed built files since. -/
structure Stored (fx : Fixed) (σ : Sys) (A : List TargetSchema) (s g : TargetSchema) : Prop where
  agree : s = updateStore s g
  pchOr : (s.pchCompiled = true ∧ s.pchs = g.pchs ∧ g.pchs ≠ []) ∨
    (s.pchCompiled = false ∧ s.pchs = [])
  srcPch : s.sources ≠ [] → g.pchs ≠ [] → s.pchCompiled = true
  srcRec : s.sources ≠ [] → ∀ i ∈ g.headers ++ g.compileDeps, Rec σ i
  sub : ∀ i ∈ s.sources, i ∈ g.sources ∧ Rec σ i
  nodup : (paths g.sources).Nodup
  nodupS : (paths s.sources).Nodup
  pchRec : s.pchCompiled = true → ∀ i ∈ g.pchs ++ g.headers, Rec σ i
  link : s.targetLinked = true → s.sources.Perm g.sources ∧
    (g.pchs ≠ [] → s.pchCompiled = true) ∧
    ∀ i ∈ g.headers ++ g.compileDeps ++ g.libs ++ g.linkDeps, Rec σ i
  tPch : s.pchCompiled = true →
    σ.pch = some (ePch fx g) ∨ DeadPch σ g ∨ ∃ l ∈ A, ¬ SamePch s l
  tObj : ∀ i ∈ s.sources,
    σ.objs (objPath fx i.path) = some (eObj fx g i) ∨ DeadObj σ g i ∨ ∃ l ∈ A, ChangesObj s l
  tBin : s.targetLinked = true →
    (∃ order : List Str, order.Perm (paths g.sources) ∧ σ.bin = some (eBin fx g order)) ∨
      DeadBin σ g ∨ ∃ l ∈ A, ChangesLink s l

/-- Files only move forward. -/
structure Fwd (σ σ' : Sys) : Prop where
  recs : ∀ i, Rec σ i → Rec σ' i
  dead : ∀ i, Dead σ i → Dead σ' i

theorem Fwd.of_eq {σ σ' : Sys} (h1 : σ'.files = σ.files) (h2 : σ'.used = σ.used) : Fwd σ σ' :=
  ⟨fun i h => by simpa [Rec, h2] using h, fun i h => by simpa [Dead, h1, h2] using h⟩

theorem Fwd.pch {σ σ' : Sys} (h : Fwd σ σ') {g : TargetSchema} (hd : DeadPch σ g) : DeadPch σ' g := by
  obtain ⟨i, hi, hd⟩ := hd; exact ⟨i, hi, h.dead i hd⟩

theorem Fwd.obj {σ σ' : Sys} (h : Fwd σ σ') {g : TargetSchema} {s : PathInfo}
    (hd : DeadObj σ g s) : DeadObj σ' g s := by
  rcases hd with hd | ⟨i, hi, hd⟩
  · exact .inl (h.dead s hd)
  · exact .inr ⟨i, hi, h.dead i hd⟩

theorem Fwd.bin {σ σ' : Sys} (h : Fwd σ σ') {g : TargetSchema} (hd : DeadBin σ g) : DeadBin σ' g := by
  obtain ⟨i, hi, hd⟩ := hd; exact ⟨i, hi, h.dead i hd⟩

/-- Transfer of the guarantee to another system state. -/
theorem Stored.move {fx : Fixed} {σ σ' : Sys} {A A' : List TargetSchema} {s g : TargetSchema}
    (h : Stored fx σ A s g) (hf : Fwd σ σ') (hA : ∀ l ∈ A, l ∈ A')
    (hpch : s.pchCompiled = true → σ'.pch = σ.pch ∨ DeadPch σ' g ∨ ∃ l ∈ A', ¬ SamePch s l)
    (hobj : ∀ i ∈ s.sources, σ'.objs (objPath fx i.path) = σ.objs (objPath fx i.path) ∨
      DeadObj σ' g i ∨ ∃ l ∈ A', ChangesObj s l)
    (hbin : s.targetLinked = true → σ'.bin = σ.bin ∨ DeadBin σ' g ∨ ∃ l ∈ A', ChangesLink s l) :
    Stored fx σ' A' s g where
  agree := h.agree
  pchOr := h.pchOr
  srcPch := h.srcPch
  srcRec := fun h1 i hi => hf.recs i (h.srcRec h1 i hi)
  sub := fun i hi => ⟨(h.sub i hi).1, hf.recs i (h.sub i hi).2⟩
  nodup := h.nodup
  nodupS := h.nodupS
  pchRec := fun h1 i hi => hf.recs i (h.pchRec h1 i hi)
  link := fun h1 => ⟨(h.link h1).1, (h.link h1).2.1, fun i hi => hf.recs i ((h.link h1).2.2 i hi)⟩
  tPch := by
    intro h1
    rcases hpch h1 with e | hd
    · rcases h.tPch h1 with h2 | h2 | ⟨l, hl, h2⟩
      · exact .inl (e.trans h2)
      · exact .inr (.inl (hf.pch h2))
      · exact .inr (.inr ⟨l, hA l hl, h2⟩)
    · exact .inr hd
  tObj := by
    intro i hi
    rcases hobj i hi with e | hd
    · rcases h.tObj i hi with h2 | h2 | ⟨l, hl, h2⟩
      · exact .inl (e.trans h2)
      · exact .inr (.inl (hf.obj h2))
      · exact .inr (.inr ⟨l, hA l hl, h2⟩)
    · exact .inr hd
  tBin := by
    intro h1
    rcases hbin h1 with e | hd
    · rcases h.tBin h1 with ⟨o, ho, h2⟩ | h2 | ⟨l, hl, h2⟩
      · exact .inl ⟨o, ho, e.trans h2⟩
      · exact .inr (.inl (hf.bin h2))
      · exact .inr (.inr ⟨l, hA l hl, h2⟩)
    · exact .inr hd

/-- Built files did not change. -/
theorem Stored.still {fx : Fixed} {σ σ' : Sys} {A A' : List TargetSchema} {s g : TargetSchema}
    (h : Stored fx σ A s g) (hf : Fwd σ σ') (hA : ∀ l ∈ A, l ∈ A')
    (h1 : σ'.pch = σ.pch) (h2 : σ'.objs = σ.objs) (h3 : σ'.bin = σ.bin) : Stored fx σ' A' s g :=
  h.move hf hA (fun _ => .inl h1) (fun _ _ => .inl (by rw [h2])) (fun _ => .inl h3)

/-! ## Invariant of a run -/

/-- The state that would be stored if every compiled source were recorded. -/
def virt (r : Run) : TargetSchema :=
  { updateStore r.store r.user with sources := r.executed ++ r.store.sources }

def HashedL (σ : Sys) (l : List PathInfo) : Prop :=
  ∀ i ∈ l, Rec σ i ∧ (σ.fresh = true → Live σ i) ∧ Steady σ i

/-- The PCH part is done. -/
structure PchDone (σ : Sys) (r : Run) : Prop where
  pchs : r.cfg.pchs ≠ [] → r.store.pchs = r.user.pchs
  compiled : r.cfg.pchs ≠ [] → r.store.pchCompiled = true
  hashed : r.cfg.pchs ≠ [] → HashedL σ (r.user.pchs ++ r.user.headers)

/-- Why the PCH is compiled. -/
def WhyPch (σ : Sys) (r : Run) : Prop :=
  r.loaded = true → ¬ SamePch r.load r.cfg ∨ DeadPch σ σ.saved

/-- The stored PCH is up to date. -/
structure KeepPch (r : Run) : Prop where
  loaded : r.loaded = true
  same : SamePch r.load r.cfg
  headers : r.load.headers = r.user.headers
  pchs : r.load.pchs = r.user.pchs
  compiled : r.load.pchCompiled = true

def HdrStill (σ : Sys) (r : Run) : Prop :=
  ∀ i ∈ r.user.headers, Live σ i ∨ σ.files i.path = none

/-- Why the target is linked, as far as compilation is concerned. -/
def WhyLink (σ : Sys) (r : Run) : Prop :=
  r.loaded = true → r.load.targetLinked = true → DeadBin σ σ.saved ∨ ChangesLink r.load r.cfg

/-- All stored objects are up to date. -/
structure KeepObj (r : Run) : Prop where
  loaded : r.loaded = true
  same : SameObj r.load r.cfg
  pch : r.cfg.pchs ≠ [] → KeepPch r
  headers : r.load.headers = r.user.headers
  deps : r.load.compileDeps = r.user.compileDeps
  sources : r.load.sources.Perm r.user.sources

/-- The stored target is up to date. -/
structure KeepLink (r : Run) : Prop where
  obj : KeepObj r
  same : SameLink r.load r.cfg
  libs : r.load.libs = r.user.libs
  deps : r.load.linkDeps = r.user.linkDeps
  linked : r.load.targetLinked = true

structure AtPch (r : Run) : Prop where
  store : r.store = TargetSchema.empty
  dirty : r.dirty = false
  pending : r.pending = []
  executed : r.executed = []
  pchs : r.cfg.pchs ≠ []

structure AtPchRun (σ : Sys) (r : Run) : Prop where
  store : r.store = TargetSchema.empty
  dirty : r.dirty = true
  pending : r.pending = []
  executed : r.executed = []
  pchs : r.cfg.pchs ≠ []
  hashed : HashedL σ (r.user.pchs ++ r.user.headers)
  why : WhyPch σ r
  still : HdrStill σ r

structure AtObj (σ : Sys) (r : Run) : Prop where
  pending : r.pending = []
  executed : r.executed = []
  sources : r.store.sources = []
  linked : r.store.targetLinked = false
  why : r.dirty = true → WhyPch σ r
  dirtyPch : r.dirty = true → r.cfg.pchs ≠ []
  done : σ.ok = true → PchDone σ r
  keep : σ.ok = true → r.cfg.pchs ≠ [] → r.dirty = false → KeepPch r
  still : σ.ok = true → r.cfg.pchs ≠ [] → HdrStill σ r

structure AtObjRun (σ : Sys) (r : Run) : Prop where
  linked : r.store.targetLinked = false
  done : PchDone σ r
  hashed : HashedL σ (r.user.sources ++ r.user.headers ++ r.user.compileDeps)
  cover : σ.ok = true → (r.pending ++ (r.executed ++ r.store.sources)).Perm r.user.sources
  nodup : (paths (r.pending ++ (r.executed ++ r.store.sources))).Nodup
  sub : ∀ i ∈ r.pending, i ∈ r.user.sources
  whyObj : r.loaded = true → ∀ x ∈ r.pending, ∀ s ∈ r.load.sources, s.path = x.path →
    DeadObj σ σ.saved s ∨ ChangesObj r.load r.cfg
  pendDirty : r.pending ≠ [] → r.dirty = true
  why : r.dirty = true → WhyLink σ r
  keep : r.dirty = false → KeepObj r

structure AtLink (σ : Sys) (r : Run) : Prop where
  pending : r.pending = []
  executed : r.executed = []
  failed : σ.ok = false

structure AtLinkRun (σ : Sys) (r : Run) : Prop where
  pending : r.pending = []
  executed : r.executed = []
  linked : r.store.targetLinked = false
  dirty : r.dirty = true
  done : PchDone σ r
  hashed : HashedL σ (r.user.sources ++ r.user.headers ++ r.user.compileDeps)
  hashedL : HashedL σ (r.user.libs ++ r.user.linkDeps)
  cover : r.store.sources.Perm r.user.sources
  why : WhyLink σ r

structure AtFin (σ : Sys) (r : Run) : Prop where
  pending : r.pending = []
  executed : r.executed = []
  done : σ.ok = true → PchDone σ r
  hashed : σ.ok = true → HashedL σ (r.user.sources ++ r.user.headers ++ r.user.compileDeps)
  hashedL : σ.ok = true → HashedL σ (r.user.libs ++ r.user.linkDeps)
  cover : σ.ok = true → r.store.sources.Perm r.user.sources
  linked : σ.ok = true → r.dirty = true → r.store.targetLinked = true
  keep : σ.ok = true → r.dirty = false → KeepLink r

def PhaseInv (σ : Sys) (r : Run) : Prop :=
  match r.phase with
  | .pch => AtPch r
  | .pchRun => AtPchRun σ r
  | .obj => AtObj σ r
  | .objRun => AtObjRun σ r
  | .link => AtLink σ r
  | .linkRun => AtLinkRun σ r
  | .fin => AtFin σ r

structure RunInv (fx : Fixed) (σ : Sys) (r : Run) : Prop where
  load : loadTargetFile σ.stateFile = if r.loaded then some r.load else none
  same : SameCfg r.user r.cfg
  start : StartOk fx σ r.cfg
  order : r.order.Perm (paths r.cfg.sources)
  virt : Stored fx σ [] (virt r) r.user
  phase : PhaseInv σ r

/-- Configurations that may have changed built files since the last stored run. -/
def attempts (σ : Sys) : List TargetSchema :=
  σ.lost ++ match σ.run with
    | some r => if r.dirty then [r.cfg] else []
    | none => []

/-- The stored state `s` describes a complete build of `c` with the present files. -/
structure UpToDate (σ : Sys) (s c : TargetSchema) : Prop where
  load : loadTargetFile σ.stateFile = some s
  obj : SameObj s c
  link : SameLink s c
  pch : c.pchs ≠ [] → SamePch s c ∧ s.pchCompiled = true ∧ ∀ i ∈ s.pchs, Live σ i
  noPch : c.pchs = [] → s.pchs = []
  linked : s.targetLinked = true
  sources : (paths s.sources).Perm (paths c.sources)
  nodup : (paths c.sources).Nodup
  live : ∀ i ∈ s.sources ++ s.headers ++ s.compileDeps ++ s.libs ++ s.linkDeps, Live σ i

structure SysInv (fx : Fixed) (σ : Sys) : Prop where
  wf : WF σ
  view : ∀ p, σ.view p ∈ σ.seen p
  stored : ∀ s, loadTargetFile σ.stateFile = some s → Stored fx σ (attempts σ) s σ.saved
  run : ∀ r, σ.run = some r → RunInv fx σ r
  doneRun : σ.run.isSome = true → σ.done = none
  done : ∀ d, σ.done = some d → d.ok = true → σ.fresh = true →
    Clean fx σ d.cfg ∧ ∃ s, UpToDate σ s d.cfg

end Verif.Target
