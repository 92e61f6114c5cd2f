import Verif.Target.Order
import Verif.Target.Sound

/-!
# What a run does, exactly

For an undisturbed run the decisions are functions of the files, the loaded state and
the configuration; this module proves it by an invariant over the phases.
-/

namespace Verif.Target
open Verif Verif.Command Verif.Schema Verif.Json

/-! ## The decisions as functions -/

def hs (f : Str → Option Nat) (l : List PathInfo) : List PathInfo := (hashAll f l).1

def present (f : Str → Option Nat) (l : List PathInfo) : Bool := (hashAll f l).2

theorem hashAll_hs (f : Str → Option Nat) (l : List PathInfo) :
    hashAll f (hs f l) = hashAll f l := by
  induction l with
  | nil => rfl
  | cons i l ih =>
    simp only [hs] at ih ⊢
    rw [hashAll]
    cases h : fileHash f i.path with
    | none => simp [hashAll, h]
    | some x =>
      simp only [hashAll, h]
      rw [ih]

theorem hs_hs (f : Str → Option Nat) (l : List PathInfo) : hs f (hs f l) = hs f l := by
  simp only [hs]; rw [show (hashAll f l).1 = hs f l from rfl, hashAll_hs]; rfl

variable (f : Str → Option Nat) (L : Option TargetSchema) (c : TargetSchema)

def uP : TargetSchema := { c with headers := hs f c.headers, pchs := hs f c.pchs }
def u1 : TargetSchema := if c.pchs ≠ [] then uP f c else c
def uO : TargetSchema :=
  { u1 f c with
    sources := hs f c.sources
    headers := hs f c.headers
    compileDeps := hs f c.compileDeps }
def uL : TargetSchema := { uO f c with libs := hs f c.libs, linkDeps := hs f c.linkDeps }

def ld : TargetSchema := L.getD TargetSchema.empty

def dP : Bool := decide (c.pchs ≠ []) && pchDirty L.isSome (ld L) (uP f c)
def dA : Bool := objDirty (dP f L c) L.isSome (ld L) (uO f c)
def sel : List PathInfo :=
  if dA f L c then hs f c.sources else (recompile (ld L).sources (hs f c.sources)).selected
def dum : List PathInfo :=
  if dA f L c then [] else (recompile (ld L).sources (hs f c.sources)).dummy
def dO : Bool := dA f L c || (recompile (ld L).sources (hs f c.sources)).dirty
def dL : Bool := linkDirty (dO f L c) L.isSome (ld L) (uL f c)

def st1 : TargetSchema :=
  if c.pchs ≠ [] then updatePchCompiled TargetSchema.empty (uP f c) else TargetSchema.empty

def preCmd (b : Bool) : List Entry := if b then [.pch true] else []

/-- Compile commands with their outcomes. -/
def objCmds (B : List (PathInfo × Bool)) : List Entry := B.map fun x => .obj x.1.path x.2

def okInfos (B : List (PathInfo × Bool)) : List PathInfo := (B.filter (·.2)).map (·.1)

/-! ## Invariant -/

structure XPch (σ : Sys) (r : Run) : Prop where
  cmds : commands σ.log = []
  store : r.store = TargetSchema.empty
  dirty : r.dirty = false
  pending : r.pending = []
  executed : r.executed = []
  user : r.user = c
  pchs : c.pchs ≠ []

structure XPchRun (σ : Sys) (r : Run) : Prop where
  cmds : commands σ.log = []
  store : r.store = TargetSchema.empty
  dirty : r.dirty = true
  pending : r.pending = []
  executed : r.executed = []
  user : r.user = uP f c
  pchs : c.pchs ≠ []
  decided : dP f L c = true
  headersOk : present f c.headers = true
  pchsOk : present f c.pchs = true

/-- No compile decision was made. -/
structure XEarly (σ : Sys) (r : Run) : Prop where
  cmds : commands σ.log = [] ∨ dP f L c = true ∧ ∃ b, commands σ.log = [.pch b]
  pending : r.pending = []
  executed : r.executed = []
  sources : r.store.sources = []
  linked : r.store.targetLinked = false
  dirty : r.dirty = true → dP f L c = true

structure XObj (σ : Sys) (r : Run) : Prop where
  early : XEarly f L c σ r
  user : σ.ok = true → r.user = u1 f c
  dirty : σ.ok = true → r.dirty = dP f L c
  store : σ.ok = true → r.store = st1 f c
  cmds : σ.ok = true → commands σ.log = preCmd (dP f L c)
  headersOk : σ.ok = true → c.pchs ≠ [] → present f c.headers = true
  pchsOk : σ.ok = true → c.pchs ≠ [] → present f c.pchs = true

/-- The compile decision was made, `B` are the commands that ended. -/
structure XMid (B : List (PathInfo × Bool)) (r : Run) : Prop where
  dirtyO : dO f L c = true → r.dirty = true
  pchs : r.store.pchs = (st1 f c).pchs
  compiled : r.store.pchCompiled = (st1 f c).pchCompiled
  cover : (r.pending ++ B.map (·.1)).Perm (sel f L c)
  stored : (r.executed ++ r.store.sources).Perm (dum f L c ++ okInfos B)
  sourcesOk : present f c.sources = true
  headersOk : present f c.headers = true
  depsOk : present f c.compileDeps = true
  pchsOk : c.pchs ≠ [] → present f c.pchs = true

structure XObjRun (B : List (PathInfo × Bool)) (σ : Sys) (r : Run) : Prop where
  mid : XMid f L c B r
  cmds : commands σ.log = preCmd (dP f L c) ++ objCmds B
  user : r.user = uO f c
  dirty : r.dirty = dO f L c
  linked : r.store.targetLinked = false

structure XLinkRun (B : List (PathInfo × Bool)) (σ : Sys) (r : Run) : Prop where
  mid : XMid f L c B r
  cmds : commands σ.log = preCmd (dP f L c) ++ objCmds B
  user : r.user = uL f c
  dirty : r.dirty = true
  linked : r.store.targetLinked = false
  pending : r.pending = []
  executed : r.executed = []
  ok : ∀ x ∈ B, x.2 = true
  decided : dL f L c = true
  libsOk : present f c.libs = true
  linkDepsOk : present f c.linkDeps = true

/-- The run failed before the link decision. -/
structure XFail (B : List (PathInfo × Bool)) (σ : Sys) (r : Run) : Prop where
  mid : XMid f L c B r
  cmds : commands σ.log = preCmd (dP f L c) ++ objCmds B
  failed : σ.ok = false
  user : { r.user with libs := [], linkDeps := [] } = { uO f c with libs := [], linkDeps := [] }
  dirty : r.dirty = dO f L c
  linked : r.store.targetLinked = false
  pending : r.pending = []
  executed : r.executed = []

/-- The link decision was made. -/
structure XLate (B : List (PathInfo × Bool)) (b : Bool) (σ : Sys) (r : Run) : Prop where
  mid : XMid f L c B r
  cmds : commands σ.log = preCmd (dP f L c) ++ objCmds B ++ if dL f L c then [.link b] else []
  user : r.user = uL f c
  dirty : r.dirty = dL f L c
  linked : r.store.targetLinked = (dL f L c && b)
  pending : r.pending = []
  executed : r.executed = []
  ok : ∀ x ∈ B, x.2 = true
  libsOk : present f c.libs = true
  linkDepsOk : present f c.linkDeps = true

def XFin (σ : Sys) (r : Run) : Prop :=
  (XEarly f L c σ r ∧ σ.ok = false) ∨ (∃ B, XFail f L c B σ r) ∨ ∃ B b, XLate f L c B b σ r

def XPhase (σ : Sys) (r : Run) : Prop :=
  match r.phase with
  | .pch => XPch c σ r
  | .pchRun => XPchRun f L c σ r
  | .obj => XObj f L c σ r
  | .objRun => ∃ B, XObjRun f L c B σ r
  | .link => XEarly f L c σ r ∧ σ.ok = false
  | .linkRun => ∃ B, XLinkRun f L c B σ r
  | .fin => XFin f L c σ r

structure XRun (sf : Option Str) (o : List Str) (σ : Sys) (r : Run) : Prop where
  files : σ.files = f
  state : σ.stateFile = sf
  cfg : r.cfg = c
  order : r.order = o
  load : r.load = ld L
  loaded : r.loaded = L.isSome
  phase : XPhase f L c σ r

/-- The run is going on, was killed, or was finished. -/
structure XInv (sf : Option Str) (o : List Str) (σ : Sys) : Prop where
  log : LogInv σ
  noDone : NoDone σ
  run : ∀ r, σ.run = some r → XRun f L c sf o σ r
  done : ∀ d, σ.done = some d → ∃ σ' r b, LogInv σ' ∧ XRun f L c sf o σ' r ∧ r.phase = .fin ∧
    σ'.run = some r ∧ σ = finishRun σ' r b

variable {f L c}

/-! ## Preservation -/

theorem XInv.of_run {sf : Option Str} {o : List Str} {σ : Sys} {r : Run} (h1 : LogInv σ)
    (hd : σ.done = none) (h2 : σ.run = some r) (h3 : XRun f L c sf o σ r) : XInv f L c sf o σ :=
  ⟨h1, fun _ => hd, fun r' hr => by rw [h2] at hr; cases hr; exact h3, by simp [hd]⟩

theorem XRun.next {sf : Option Str} {o : List Str} {σ σ' : Sys} {r r' : Run}
    (h : XRun f L c sf o σ r) (h1 : σ'.files = σ.files) (h2 : σ'.stateFile = σ.stateFile)
    (h3 : r'.cfg = r.cfg) (h4 : r'.order = r.order) (h5 : r'.load = r.load)
    (h6 : r'.loaded = r.loaded) (h7 : XPhase f L c σ' r') : XRun f L c sf o σ' r' :=
  ⟨h1.trans h.files, h2.trans h.state, h3.trans h.cfg, h4.trans h.order, h5.trans h.load,
    h6.trans h.loaded, h7⟩

theorem commands_fail_missing (σ : Sys) (ph : Phase) :
    commands (σ.fail (.missing ph)).log = commands σ.log := by
  simp [Sys.fail, commands, Entry.isCommand]

theorem commands_fail_other (σ : Sys) : commands (σ.fail .other).log = commands σ.log := by
  simp [Sys.fail, commands, Entry.isCommand]

theorem XEarly.same {σ σ' : Sys} {r r' : Run} (h : XEarly f L c σ r)
    (h1 : commands σ'.log = commands σ.log) (h2 : r'.pending = r.pending)
    (h3 : r'.executed = r.executed) (h4 : r'.store = r.store) (h5 : r'.dirty = r.dirty) :
    XEarly f L c σ' r' :=
  ⟨by rw [h1]; exact h.cmds, by rw [h2]; exact h.pending, by rw [h3]; exact h.executed,
    by rw [h4]; exact h.sources, by rw [h4]; exact h.linked, by rw [h5]; exact h.dirty⟩

theorem XMid.same {B : List (PathInfo × Bool)} {r r' : Run} (h : XMid f L c B r)
    (h2 : r'.pending = r.pending) (h3 : r'.executed = r.executed)
    (h4 : r'.store.pchs = r.store.pchs) (h5 : r'.store.pchCompiled = r.store.pchCompiled)
    (h6 : r'.store.sources = r.store.sources) (h7 : r.dirty = true → r'.dirty = true) :
    XMid f L c B r' :=
  ⟨fun hd => h7 (h.dirtyO hd), by rw [h4]; exact h.pchs, by rw [h5]; exact h.compiled,
    by rw [h2]; exact h.cover, by rw [h3, h6]; exact h.stored, h.sourcesOk, h.headersOk, h.depsOk,
    h.pchsOk⟩

/-- A failure elsewhere. -/
theorem XPhase.other {σ : Sys} {r : Run} (h : XPhase f L c σ r) :
    XPhase f L c (σ.fail .other) r := by
  have hc := commands_fail_other σ
  unfold XPhase at *
  split <;> rename_i hp <;> simp only [hp] at h
  · exact ⟨hc.trans h.cmds, h.store, h.dirty, h.pending, h.executed, h.user, h.pchs⟩
  · exact ⟨hc.trans h.cmds, h.store, h.dirty, h.pending, h.executed, h.user, h.pchs, h.decided,
      h.headersOk, h.pchsOk⟩
  · exact ⟨h.early.same hc rfl rfl rfl rfl, by simp [Sys.fail], by simp [Sys.fail],
      by simp [Sys.fail], by simp [Sys.fail], by simp [Sys.fail], by simp [Sys.fail]⟩
  · obtain ⟨B, h⟩ := h
    exact ⟨B, h.mid, hc.trans h.cmds, h.user, h.dirty, h.linked⟩
  · exact ⟨h.1.same hc rfl rfl rfl rfl, rfl⟩
  · obtain ⟨B, h⟩ := h
    exact ⟨B, h.mid, hc.trans h.cmds, h.user, h.dirty, h.linked, h.pending, h.executed, h.ok,
      h.decided, h.libsOk, h.linkDepsOk⟩
  · rcases h with ⟨h, _⟩ | ⟨B, h⟩ | ⟨B, b, h⟩
    · exact .inl ⟨h.same hc rfl rfl rfl rfl, rfl⟩
    · exact .inr (.inl ⟨B, h.mid, hc.trans h.cmds, rfl, h.user, h.dirty, h.linked, h.pending,
        h.executed⟩)
    · exact .inr (.inr ⟨B, b, h.mid, hc.trans h.cmds, h.user, h.dirty, h.linked, h.pending, h.executed,
        h.ok, h.libsOk, h.linkDepsOk⟩)

/-- Only the log and the success flag matter. -/
theorem XPhase.same {σ σ' : Sys} {r : Run} (h : XPhase f L c σ r) (hl : σ'.log = σ.log)
    (ho : σ'.ok = σ.ok) : XPhase f L c σ' r := by
  have hc : commands σ'.log = commands σ.log := by rw [hl]
  unfold XPhase at *
  split <;> rename_i hp <;> simp only [hp] at h
  · exact ⟨hc.trans h.cmds, h.store, h.dirty, h.pending, h.executed, h.user, h.pchs⟩
  · exact ⟨hc.trans h.cmds, h.store, h.dirty, h.pending, h.executed, h.user, h.pchs, h.decided,
      h.headersOk, h.pchsOk⟩
  · refine ⟨h.early.same hc rfl rfl rfl rfl, ?_, ?_, ?_, ?_, ?_, ?_⟩ <;> rw [ho]
    · exact h.user
    · exact h.dirty
    · exact h.store
    · rw [hc]; exact h.cmds
    · exact h.headersOk
    · exact h.pchsOk
  · obtain ⟨B, h⟩ := h
    exact ⟨B, h.mid, hc.trans h.cmds, h.user, h.dirty, h.linked⟩
  · exact ⟨h.1.same hc rfl rfl rfl rfl, ho.trans h.2⟩
  · obtain ⟨B, h⟩ := h
    exact ⟨B, h.mid, hc.trans h.cmds, h.user, h.dirty, h.linked, h.pending, h.executed, h.ok,
      h.decided, h.libsOk, h.linkDepsOk⟩
  · rcases h with ⟨h, h'⟩ | ⟨B, h⟩ | ⟨B, b, h⟩
    · exact .inl ⟨h.same hc rfl rfl rfl rfl, ho.trans h'⟩
    · exact .inr (.inl ⟨B, h.mid, hc.trans h.cmds, ho.trans h.failed, h.user, h.dirty, h.linked, h.pending,
        h.executed⟩)
    · exact .inr (.inr ⟨B, b, h.mid, hc.trans h.cmds, h.user, h.dirty, h.linked, h.pending, h.executed,
        h.ok, h.libsOk, h.linkDepsOk⟩)

theorem XInv.settle {sf : Option Str} {o : List Str} {σ : Sys} {r : Run} (h : XInv f L c sf o σ)
    (hr : σ.run = some r) : XInv f L c sf o σ.settle :=
  have hx := h.run r hr
  .of_run (h.log.same rfl rfl rfl rfl) (h.noDone (by simp [hr])) hr
    ⟨hx.files, hx.state, hx.cfg, hx.order, hx.load, hx.loaded, hx.phase.same rfl rfl⟩

/-- Reading a file early or late changes no decision. -/
theorem xinv_look {fx : Fixed} {sf : Option Str} {o : List Str} {σ : Sys} {p : Str} {v : Option Nat}
    (h : XInv f L c sf o σ) : XInv f L c sf o (step fx σ (.look p v)) := by
  simp only [step, lookAt]
  split
  · refine ⟨h.log.same rfl rfl rfl rfl, h.noDone, fun r hr => ?_, fun d hd' => ?_⟩
    · have hx := h.run r hr
      exact ⟨hx.files, hx.state, hx.cfg, hx.order, hx.load, hx.loaded, hx.phase.same rfl rfl⟩
    · obtain ⟨σ', r, b, h1, hx, h3, h4, h5⟩ := h.done d hd'
      refine ⟨{ σ' with view := upd σ.view p v }, r, b, h1.same rfl rfl rfl rfl,
        ⟨hx.files, hx.state, hx.cfg, hx.order, hx.load, hx.loaded, hx.phase.same rfl rfl⟩, h3, h4, ?_⟩
      generalize upd σ.view p v = w
      rw [h5]
      simp only [finishRun]
      repeat' split
      all_goals rfl
  · exact h

theorem okInfos_append (B : List (PathInfo × Bool)) (i : PathInfo) (b : Bool) :
    okInfos (B ++ [(i, b)]) = okInfos B ++ if b then [i] else [] := by
  cases b <;> simp [okInfos]

theorem objCmds_append (B : List (PathInfo × Bool)) (i : PathInfo) (b : Bool) :
    objCmds (B ++ [(i, b)]) = objCmds B ++ [.obj i.path b] := by
  simp [objCmds]

theorem eraseIdx_perm' {l : List PathInfo} {k : Nat} {i : PathInfo} (h : l[k]? = some i) :
    l.Perm (i :: l.eraseIdx k) := by
  induction l generalizing k with
  | nil => simp at h
  | cons a l ih =>
    cases k with
    | zero => simp only [List.getElem?_cons_zero, Option.some.injEq] at h; simp [h]
    | succ k =>
      simp only [List.getElem?_cons_succ] at h
      simp only [List.eraseIdx_cons_succ]
      exact ((ih h).cons a).trans (.swap _ _ _)

theorem xinv_pchTask {fx : Fixed} {sf : Option Str} {o : List Str} {σ : Sys}
    (h : XInv f L c sf o σ) (hL : LogInv (step fx σ .pchTask)) :
    XInv f L c sf o (step fx σ .pchTask) := by
  revert hL
  simp only [step, inPhase]
  split
  · rename_i r hr
    split
    · rename_i hp
      have h := h.settle hr
      have hr : σ.settle.run = some r := hr
      generalize σ.settle = σ at h hr ⊢
      have hx := h.run r hr
      have hph := hx.phase
      simp only [XPhase, hp] at hph
      have hd := h.noDone (by simp [hr])
      have hf := hx.files
      have hu := hph.user
      have hearly : ∀ {σ' : Sys} {r' : Run}, commands σ'.log = commands σ.log → r'.pending = r.pending →
          r'.executed = r.executed → r'.store = r.store → r'.dirty = r.dirty → XEarly f L c σ' r' := by
        intro σ' r' h1 h2 h3 h4 h5
        refine ⟨.inl (h1.trans hph.cmds), h2.trans hph.pending, h3.trans hph.executed, ?_, ?_, ?_⟩
        · rw [h4, hph.store]; rfl
        · rw [h4, hph.store]; rfl
        · rw [h5, hph.dirty]; simp
      simp only [pchTask]
      split
      · rename_i hok
        intro hL
        refine .of_run hL hd rfl (hx.next rfl rfl rfl rfl rfl rfl ?_)
        have ho : σ.ok = false := by simpa using hok
        exact ⟨hearly rfl rfl rfl rfl rfl, by simp [ho], by simp [ho], by simp [ho], by simp [ho],
          by simp [ho], by simp [ho]⟩
      · rename_i hok
        have ho : σ.ok = true := by simpa using hok
        split
        · intro hL
          refine .of_run hL hd rfl (hx.next rfl rfl rfl rfl rfl rfl ?_)
          exact ⟨hearly (commands_fail_missing σ _) rfl rfl rfl rfl, by simp [Sys.fail],
            by simp [Sys.fail], by simp [Sys.fail], by simp [Sys.fail], by simp [Sys.fail],
            by simp [Sys.fail]⟩
        · rename_i h1
          split
          · intro hL
            refine .of_run hL hd rfl (hx.next rfl rfl rfl rfl rfl rfl ?_)
            exact ⟨hearly (commands_fail_missing σ _) rfl rfl rfl rfl, by simp [Sys.fail],
              by simp [Sys.fail], by simp [Sys.fail], by simp [Sys.fail], by simp [Sys.fail],
              by simp [Sys.fail]⟩
          · rename_i h2
            simp only [hu, hf, Bool.not_eq_true, Bool.not_eq_false'] at h1 h2
            have hu2 : { { r.user with headers := (hashAll σ.files r.user.headers).1 } with
                pchs := (hashAll σ.files r.user.pchs).1 } = uP f c := by
              rw [hu, hf]; rfl
            split
            · rename_i h3
              intro hL
              refine .of_run hL hd rfl (hx.next rfl rfl rfl rfl rfl rfl ?_)
              refine ⟨hph.cmds, hph.store, rfl, hph.pending, hph.executed, hu2, hph.pchs, ?_, h1, h2⟩
              rw [hu2, hx.load, hx.loaded] at h3
              simp [dP, hph.pchs, h3]
            · rename_i h3
              intro hL
              refine .of_run hL hd rfl (hx.next rfl rfl rfl rfl rfl rfl ?_)
              rw [hu2, hx.load, hx.loaded] at h3
              have hdp : dP f L c = false := by simpa [dP, hph.pchs] using h3
              refine ⟨⟨.inl hph.cmds, hph.pending, hph.executed, ?_, ?_, ?_⟩, ?_, ?_, ?_, ?_, ?_, ?_⟩
              · simp [updatePchCompiled, hph.store, TargetSchema.empty]
              · simp [updatePchCompiled, hph.store, TargetSchema.empty]
              · simp [hph.dirty]
              · intro _
                show { { r.user with headers := (hashAll σ.files r.user.headers).1 } with
                  pchs := (hashAll σ.files r.user.pchs).1 } = _
                rw [hu2]; simp [u1, hph.pchs]
              · intro _; simp [hph.dirty, hdp]
              · intro _
                show updatePchCompiled r.store
                  { { r.user with headers := (hashAll σ.files r.user.headers).1 } with
                    pchs := (hashAll σ.files r.user.pchs).1 } = _
                rw [hu2, hph.store]; simp [st1, hph.pchs]
              · intro _; rw [hdp]; exact hph.cmds
              · intro _ _; exact h1
              · intro _ _; exact h2
    · exact fun _ => h
  · exact fun _ => h

theorem xinv_pchExec {fx : Fixed} {sf : Option Str} {o : List Str} {σ : Sys} {ok : Bool}
    {junk : Option (Option PchArt)}
    (h : XInv f L c sf o σ) (hL : LogInv (step fx σ (.pchExec ok junk))) :
    XInv f L c sf o (step fx σ (.pchExec ok junk)) := by
  revert hL
  simp only [step, inPhase]
  split
  · rename_i r hr
    split
    · rename_i hp
      have hx := h.run r hr
      have hph := hx.phase
      simp only [XPhase, hp] at hph
      have hd := h.noDone (by simp [hr])
      simp only [pchExec]
      split
      · intro hL
        refine .of_run hL hd rfl (hx.next rfl rfl rfl rfl rfl rfl ?_)
        have hc : commands (σ.log ++ [.pch true]) = [.pch true] := by
          rw [commands_append, hph.cmds]; rfl
        refine ⟨⟨.inr ⟨hph.decided, true, hc⟩, hph.pending, hph.executed, ?_, ?_, ?_⟩, ?_, ?_, ?_, ?_, ?_, ?_⟩
        · simp [updatePchCompiled, hph.store, TargetSchema.empty]
        · simp [updatePchCompiled, hph.store, TargetSchema.empty]
        · intro _; exact hph.decided
        · intro _; simp [hph.user, u1, hph.pchs]
        · intro _; simp [hph.dirty, hph.decided]
        · intro _; simp [hph.store, hph.user, st1, hph.pchs]
        · intro _; rw [hph.decided]; exact hc
        · intro _ _; exact hph.headersOk
        · intro _ _; exact hph.pchsOk
      · intro hL
        refine .of_run hL hd rfl (hx.next rfl rfl rfl rfl rfl rfl ?_)
        have hc : commands (σ.log ++ [.pch false]) = [.pch false] := by
          rw [commands_append, hph.cmds]; rfl
        refine ⟨⟨.inr ⟨hph.decided, false, hc⟩, hph.pending, hph.executed, ?_, ?_, ?_⟩, ?_, ?_, ?_, ?_, ?_, ?_⟩
        · simp [hph.store, TargetSchema.empty]
        · simp [hph.store, TargetSchema.empty]
        · intro _; exact hph.decided
        all_goals simp [Sys.fail]
    · exact fun _ => h
  · exact fun _ => h

theorem uO_eq (u : TargetSchema) (hu : u = u1 f c) :
    { { { u with sources := hs f u.sources } with headers := hs f u.headers } with
      compileDeps := hs f u.compileDeps } = uO f c := by
  subst hu
  unfold uO u1
  split
  · simp [uP, hs_hs]
  · rfl

theorem u1_sources : (u1 f c).sources = c.sources := by unfold u1; split <;> rfl
theorem u1_deps : (u1 f c).compileDeps = c.compileDeps := by unfold u1; split <;> rfl
theorem u1_headers : hashAll f (u1 f c).headers = hashAll f c.headers := by
  unfold u1; split
  · exact hashAll_hs f _
  · rfl

theorem st1_sources : (st1 f c).sources = [] := by unfold st1; split <;> rfl
theorem st1_linked : (st1 f c).targetLinked = false := by unfold st1; split <;> rfl

theorem xinv_objTask {fx : Fixed} {sf : Option Str} {o : List Str} {σ : Sys}
    (h : XInv f L c sf o σ) (hL : LogInv (step fx σ .objTask)) :
    XInv f L c sf o (step fx σ .objTask) := by
  revert hL
  simp only [step, inPhase]
  split
  · rename_i r hr
    split
    · rename_i hp
      have h := h.settle hr
      have hr : σ.settle.run = some r := hr
      generalize σ.settle = σ at h hr ⊢
      have hx := h.run r hr
      have hph := hx.phase
      simp only [XPhase, hp] at hph
      have hd := h.noDone (by simp [hr])
      have hf := hx.files
      simp only [objTask]
      split
      · rename_i hok
        intro hL
        refine .of_run hL hd rfl (hx.next rfl rfl rfl rfl rfl rfl ?_)
        exact ⟨hph.early.same rfl rfl rfl rfl rfl, by simpa using hok⟩
      · rename_i hok
        have ho : σ.ok = true := by simpa using hok
        have hu := hph.user ho
        split
        · intro hL
          refine .of_run hL hd rfl (hx.next rfl rfl rfl rfl rfl rfl ?_)
          exact ⟨hph.early.same (commands_fail_missing σ _) rfl rfl rfl rfl, rfl⟩
        · rename_i h1
          split
          · intro hL
            refine .of_run hL hd rfl (hx.next rfl rfl rfl rfl rfl rfl ?_)
            exact ⟨hph.early.same (commands_fail_missing σ _) rfl rfl rfl rfl, rfl⟩
          · rename_i h2
            split
            · intro hL
              refine .of_run hL hd rfl (hx.next rfl rfl rfl rfl rfl rfl ?_)
              exact ⟨hph.early.same (commands_fail_missing σ _) rfl rfl rfl rfl, rfl⟩
            · rename_i h3
              simp only [hu, hf, Bool.not_eq_true, Bool.not_eq_false', u1_sources, u1_deps,
                u1_headers] at h1 h2 h3
              have hu3 : { { { r.user with sources := (hashAll σ.files r.user.sources).1 } with
                  headers := (hashAll σ.files r.user.headers).1 } with
                  compileDeps := (hashAll σ.files r.user.compileDeps).1 } = uO f c := by
                rw [hf]; exact uO_eq _ hu
              have hsrc : (hashAll σ.files r.user.sources).1 = hs f c.sources := by
                rw [hf, hu, u1_sources]; rfl
              split
              · rename_i h4
                rw [hu3, hx.load, hx.loaded, hph.dirty ho] at h4
                have hda : dA f L c = true := h4
                intro hL
                refine .of_run hL hd rfl (hx.next rfl rfl rfl rfl rfl rfl ?_)
                refine ⟨[], ⟨fun _ => rfl, ?_, ?_, ?_, ?_, h1, h2, h3, fun hp => hph.pchsOk ho hp⟩, ?_, hu3,
                  ?_, ?_⟩
                · show r.store.pchs = _; rw [hph.store ho]
                · show r.store.pchCompiled = _; rw [hph.store ho]
                · show ((hashAll σ.files r.user.sources).1 ++ []).Perm _
                  rw [hsrc]; simp [sel, hda]
                · show (r.executed ++ r.store.sources).Perm _
                  rw [hph.early.executed, hph.early.sources]; simp [dum, hda, okInfos]
                · show commands σ.log = _; rw [hph.cmds ho]; simp [objCmds]
                · simp [dO, hda]
                · exact hph.early.linked
              · rename_i h4
                rw [hu3, hx.load, hx.loaded, hph.dirty ho] at h4
                have hda : dA f L c = false := by simpa [dA] using h4
                intro hL
                refine .of_run hL hd rfl (hx.next rfl rfl rfl rfl rfl rfl ?_)
                refine ⟨[], ⟨?_, ?_, ?_, ?_, ?_, h1, h2, h3, fun hp => hph.pchsOk ho hp⟩, ?_, hu3,
                  ?_, ?_⟩
                · show _ → (recompile r.load.sources (hashAll σ.files r.user.sources).1).dirty = true
                  rw [hsrc, hx.load]; simp [dO, hda]
                · simp only [foldl_addSource]; rw [hph.store ho]
                · simp only [foldl_addSource]; rw [hph.store ho]
                · show ((recompile r.load.sources (hashAll σ.files r.user.sources).1).selected ++ []).Perm _
                  rw [hsrc, hx.load]; simp [sel, hda]
                · simp only [foldl_addSource]
                  rw [hph.early.executed, hph.early.sources, hsrc, hx.load]
                  simp [dum, hda, okInfos]
                · show commands σ.log = _; rw [hph.cmds ho]; simp [objCmds]
                · show (recompile r.load.sources (hashAll σ.files r.user.sources).1).dirty = _
                  rw [hsrc, hx.load]; simp [dO, hda]
                · simp only [foldl_addSource]; exact hph.early.linked
    · exact fun _ => h
  · exact fun _ => h

theorem xinv_exec {fx : Fixed} {sf : Option Str} {o : List Str} {σ : Sys} {k : Nat} {ok : Bool}
    {junk : Option (Option ObjArt)}
    (h : XInv f L c sf o σ) (hL : LogInv (step fx σ (.exec k ok junk))) :
    XInv f L c sf o (step fx σ (.exec k ok junk)) := by
  revert hL
  simp only [step, inPhase]
  split
  · rename_i r hr
    split
    · rename_i hp
      have hx := h.run r hr
      have hph := hx.phase
      simp only [XPhase, hp] at hph
      obtain ⟨B, hph⟩ := hph
      have hd := h.noDone (by simp [hr])
      simp only [execObj]
      split
      · exact fun _ => h
      · rename_i i hk
        have hcov : ∀ b : Bool, (r.pending.eraseIdx k ++ (B ++ [(i, b)]).map (·.1)).Perm (sel f L c) := by
          intro b
          refine List.Perm.trans ?_ hph.mid.cover
          refine List.Perm.trans ?_ ((eraseIdx_perm' hk).symm.append_right _)
          simp only [List.map_append, List.map_cons, List.map_nil, List.cons_append]
          rw [← List.append_assoc]
          exact List.perm_append_comm (l₂ := [i])
        split
        · intro hL
          refine .of_run hL hd rfl (hx.next rfl rfl rfl rfl rfl rfl ?_)
          simp only [XPhase, hp]
          refine ⟨B ++ [(i, true)], ⟨hph.mid.dirtyO, hph.mid.pchs, hph.mid.compiled, hcov true, ?_,
            hph.mid.sourcesOk, hph.mid.headersOk, hph.mid.depsOk, hph.mid.pchsOk⟩, ?_, hph.user, hph.dirty,
            hph.linked⟩
          · rw [okInfos_append]
            show (i :: r.executed ++ r.store.sources).Perm _
            rw [if_pos rfl, ← List.append_assoc]
            refine List.Perm.trans (hph.mid.stored.cons i) ?_
            exact List.perm_append_comm (l₁ := [i])
          · rw [objCmds_append, commands_append, hph.cmds]; simp [commands, Entry.isCommand]
        · intro hL
          refine .of_run hL hd rfl (hx.next rfl rfl rfl rfl rfl rfl ?_)
          simp only [XPhase, hp]
          refine ⟨B ++ [(i, false)], ⟨hph.mid.dirtyO, hph.mid.pchs, hph.mid.compiled, hcov false, ?_,
            hph.mid.sourcesOk, hph.mid.headersOk, hph.mid.depsOk, hph.mid.pchsOk⟩, ?_, hph.user, hph.dirty,
            hph.linked⟩
          · rw [okInfos_append]
            simpa using hph.mid.stored
          · simp only [Sys.fail]
            rw [objCmds_append, commands_append, hph.cmds]; simp [commands, Entry.isCommand]
    · exact fun _ => h
  · exact fun _ => h

theorem xinv_add {fx : Fixed} {sf : Option Str} {o : List Str} {σ : Sys} {k : Nat}
    (h : XInv f L c sf o σ) (hL : LogInv (step fx σ (.add k))) :
    XInv f L c sf o (step fx σ (.add k)) := by
  revert hL
  simp only [step, inPhase]
  split
  · rename_i r hr
    split
    · rename_i hp
      have hx := h.run r hr
      have hph := hx.phase
      simp only [XPhase, hp] at hph
      obtain ⟨B, hph⟩ := hph
      have hd := h.noDone (by simp [hr])
      simp only [addObj]
      split
      · exact fun _ => h
      · rename_i i hk
        intro hL
        refine .of_run hL hd rfl (hx.next rfl rfl rfl rfl rfl rfl ?_)
        simp only [XPhase, hp]
        refine ⟨B, ⟨hph.mid.dirtyO, hph.mid.pchs, hph.mid.compiled, hph.mid.cover, ?_,
          hph.mid.sourcesOk, hph.mid.headersOk, hph.mid.depsOk, hph.mid.pchsOk⟩, hph.cmds, hph.user,
          hph.dirty, hph.linked⟩
        refine List.Perm.trans ?_ hph.mid.stored
        refine List.Perm.trans ?_ ((eraseIdx_perm' hk).symm.append_right _)
        show (r.executed.eraseIdx k ++ (r.store.sources ++ [(⟨i.path, i.hash⟩ : PathInfo)])).Perm _
        rw [← List.append_assoc]
        exact List.perm_append_comm (l₂ := [i])
    · exact fun _ => h
  · exact fun _ => h

theorem xinv_linkTask {fx : Fixed} {sf : Option Str} {o : List Str} {σ : Sys}
    (h : XInv f L c sf o σ) (hL : LogInv (step fx σ .linkTask)) :
    XInv f L c sf o (step fx σ .linkTask) := by
  revert hL
  simp only [step]
  split
  · rename_i r hr
    split
    · rename_i hp
      have h := h.settle hr
      have hr : σ.settle.run = some r := hr
      generalize σ.settle = σ at h hr ⊢
      have hx := h.run r hr
      have hph := hx.phase
      have hd := h.noDone (by simp [hr])
      have hf := hx.files
      simp only [linkTask]
      rcases hp with hp | ⟨hp, hpe, hex⟩
      · simp only [XPhase, hp] at hph
        simp only [hph.2, Bool.not_false, if_true]
        intro hL
        refine .of_run hL hd rfl (hx.next rfl rfl rfl rfl rfl rfl ?_)
        exact .inl ⟨hph.1.same rfl rfl rfl rfl rfl, rfl⟩
      · simp only [XPhase, hp] at hph
        obtain ⟨B, hph⟩ := hph
        have hmid : ∀ {r' : Run}, r'.pending = r.pending → r'.executed = r.executed →
            r'.store = r.store → (r.dirty = true → r'.dirty = true) → XMid f L c B r' :=
          fun h1 h2 h3 h4 => hph.mid.same h1 h2 (by rw [h3]) (by rw [h3]) (by rw [h3]) h4
        have hud : (uO f c).libs = c.libs ∧ (uO f c).linkDeps = c.linkDeps := by
          simp only [uO, u1]; split <;> exact ⟨rfl, rfl⟩
        split
        · rename_i hok
          intro hL
          refine .of_run hL hd rfl (hx.next rfl rfl rfl rfl rfl rfl ?_)
          refine .inr (.inl ⟨B, hmid rfl rfl rfl id, hph.cmds, by simpa using hok,
            by rw [hph.user], hph.dirty, hph.linked, hpe, hex⟩)
        · rename_i hok
          have ho : σ.ok = true := by simpa using hok
          have hB : ∀ x ∈ B, x.2 = true := by
            intro x hxB
            have := allOk_of_ok h.log ho (.obj x.1.path x.2) (by
              rw [hph.cmds]
              exact List.mem_append_right _ (List.mem_map.2 ⟨x, hxB, rfl⟩))
            simpa [Entry.failed] using this
          split
          · intro hL
            refine .of_run hL hd rfl (hx.next rfl rfl rfl rfl rfl rfl ?_)
            refine .inr (.inl ⟨B, hmid rfl rfl rfl id, (commands_fail_missing σ _).trans hph.cmds, rfl,
              by simp only [hph.user], hph.dirty, hph.linked, hpe, hex⟩)
          · rename_i h1
            split
            · intro hL
              refine .of_run hL hd rfl (hx.next rfl rfl rfl rfl rfl rfl ?_)
              refine .inr (.inl ⟨B, hmid rfl rfl rfl id, (commands_fail_missing σ _).trans hph.cmds, rfl,
                by simp only [hph.user], hph.dirty, hph.linked, hpe, hex⟩)
            · rename_i h2
              simp only [hph.user, hf, Bool.not_eq_true, Bool.not_eq_false', hud.1, hud.2] at h1 h2
              have hu2 : { { r.user with libs := (hashAll σ.files r.user.libs).1 } with
                  linkDeps := (hashAll σ.files r.user.linkDeps).1 } = uL f c := by
                rw [hf, hph.user, hud.1, hud.2]; rfl
              split
              · rename_i h3
                rw [hu2, hx.load, hx.loaded, hph.dirty] at h3
                intro hL
                refine .of_run hL hd rfl (hx.next rfl rfl rfl rfl rfl rfl ?_)
                exact ⟨B, hmid rfl rfl rfl (fun _ => rfl), hph.cmds, hu2, rfl, hph.linked, hpe, hex, hB, h3,
                  h1, h2⟩
              · rename_i h3
                rw [hu2, hx.load, hx.loaded, hph.dirty] at h3
                have hdl : dL f L c = false := by simpa [dL] using h3
                intro hL
                refine .of_run hL hd rfl (hx.next rfl rfl rfl rfl rfl rfl ?_)
                refine .inr (.inr ⟨B, true, hmid rfl rfl rfl id, ?_, hu2, ?_, ?_, hpe, hex, hB, h1, h2⟩)
                · rw [hdl]; simpa using hph.cmds
                · rw [hdl]
                  show r.dirty = false
                  rw [hph.dirty]
                  cases hdo : dO f L c
                  · rfl
                  · rw [dL, hdo] at hdl
                    simp [linkDirty] at hdl
                · rw [hdl]; exact hph.linked
    · exact fun _ => h
  · exact fun _ => h

theorem xinv_linkExec {fx : Fixed} {sf : Option Str} {o : List Str} {σ : Sys} {ok : Bool}
    {junk : Option (Option BinArt)}
    (h : XInv f L c sf o σ) (hL : LogInv (step fx σ (.linkExec ok junk))) :
    XInv f L c sf o (step fx σ (.linkExec ok junk)) := by
  revert hL
  simp only [step, inPhase]
  split
  · rename_i r hr
    split
    · rename_i hp
      have hx := h.run r hr
      have hph := hx.phase
      simp only [XPhase, hp] at hph
      obtain ⟨B, hph⟩ := hph
      have hd := h.noDone (by simp [hr])
      simp only [linkExec]
      split
      · intro hL
        refine .of_run hL hd rfl (hx.next rfl rfl rfl rfl rfl rfl ?_)
        refine .inr (.inr ⟨B, true, hph.mid.same rfl rfl rfl rfl rfl id, ?_, hph.user, ?_, ?_, hph.pending,
          hph.executed, hph.ok, hph.libsOk, hph.linkDepsOk⟩)
        · rw [commands_append, hph.cmds, hph.decided]; rfl
        · rw [hph.decided]; exact hph.dirty
        · rw [hph.decided]; rfl
      · intro hL
        refine .of_run hL hd rfl (hx.next rfl rfl rfl rfl rfl rfl ?_)
        refine .inr (.inr ⟨B, false, hph.mid.same rfl rfl rfl rfl rfl id, ?_, hph.user, ?_, ?_, hph.pending,
          hph.executed, hph.ok, hph.libsOk, hph.linkDepsOk⟩)
        · simp only [Sys.fail]
          rw [commands_append, hph.cmds, hph.decided]; rfl
        · rw [hph.decided]; exact hph.dirty
        · rw [hph.decided]; exact hph.linked
    · exact fun _ => h
  · exact fun _ => h

theorem xinv_step {fx : Fixed} {sf : Option Str} {o : List Str} {σ : Sys} {e : Event}
    (h1 : e.outside = false) (h2 : e.isStart = false) (h : XInv f L c sf o σ) :
    XInv f L c sf o (step fx σ e) := by
  have hL := logInv_step fx σ e h.log h.noDone
  have hN := noDone_step fx σ e h.noDone
  cases e <;> simp only [Event.outside, Event.isStart, Bool.true_eq_false] at h1 h2
  case pchTask => exact xinv_pchTask h hL
  case pchExec => exact xinv_pchExec h hL
  case objTask => exact xinv_objTask h hL
  case exec => exact xinv_exec h hL
  case add => exact xinv_add h hL
  case linkTask => exact xinv_linkTask h hL
  case linkExec => exact xinv_linkExec h hL
  case look => exact xinv_look h
  case otherFail =>
    revert hL
    simp only [step]
    split
    · rename_i hs
      obtain ⟨r, hr⟩ := Option.isSome_iff_exists.1 hs
      intro hL
      have hx := h.run r hr
      exact .of_run hL (h.noDone hs) hr (hx.next rfl rfl rfl rfl rfl rfl hx.phase.other)
    · exact fun _ => h
  case finish b =>
    revert hL hN
    simp only [step, inPhase]
    split
    · rename_i r hr
      split
      · rename_i hp
        intro hL hN
        refine ⟨hL, hN, ?_, ?_⟩
        · intro r' hr'
          exfalso
          revert hr'
          simp only [finishRun]
          repeat' split
          all_goals simp
        · intro d _
          exact ⟨σ, r, b, h.log, h.run r hr, hp, hr, rfl⟩
      · exact fun _ _ => h
    · exact fun _ _ => h
  case crash w =>
    revert hL hN
    simp only [step]
    split
    · rename_i r hr
      intro hL hN
      have hd := h.noDone (by simp [hr])
      refine ⟨hL, hN, ?_, ?_⟩
      · intro r' hr'
        exfalso
        revert hr'
        simp only [crashRun]
        repeat' split
        all_goals simp
      · intro d hd'
        exfalso
        revert hd'
        simp only [crashRun]
        repeat' split
        all_goals simp [hd]
    · exact fun _ _ => h

theorem xinv_steps {fx : Fixed} {sf : Option Str} {o : List Str} (evs : List Event) : ∀ {σ : Sys},
    (∀ e ∈ evs, e.outside = false ∧ e.isStart = false) → XInv f L c sf o σ →
    XInv f L c sf o (steps fx σ evs) := by
  induction evs with
  | nil => intro σ _ h; exact h
  | cons e l ih =>
    intro σ he h
    obtain ⟨h1, h2⟩ := he e List.mem_cons_self
    exact ih (fun e' h' => he e' (List.mem_cons_of_mem _ h')) (xinv_step h1 h2 h)

theorem xinv_start {fx : Fixed} {σ : Sys} {c : TargetSchema} {o : List Str} (hi : σ.run = none)
    (hs : (step fx σ (.start c o)).run.isSome = true) :
    XInv σ.files (loadTargetFile σ.stateFile) c σ.stateFile o (step fx σ (.start c o)) := by
  revert hs
  simp only [step, startRun, hi]
  split
  · intro _
    refine .of_run ?_ rfl rfl ⟨rfl, rfl, rfl, rfl, rfl, rfl, ?_⟩
    · refine .of_run (r := _) (by simp) rfl ?_ rfl
      show Shape (if c.pchs ≠ [] then .pch else .obj) []
      split
      · exact .pch
      · exact .obj (.inl rfl)
    · by_cases hp : c.pchs = []
      · have hdp : dP σ.files (loadTargetFile σ.stateFile) c = false := by simp [dP, hp]
        simp only [XPhase, hp, ne_eq, not_true_eq_false, if_false]
        exact ⟨⟨.inl rfl, rfl, rfl, rfl, rfl, by simp⟩, by simp [u1, hp], by simp [hdp],
          by simp [st1, hp], by simp [hdp, preCmd, commands], by simp [hp], by simp [hp]⟩
      · simp only [XPhase, hp, ne_eq, not_false_eq_true, if_true]
        exact ⟨rfl, rfl, rfl, rfl, rfl, rfl, hp⟩
  · simp [hi]

end Verif.Target
