import Verif.Target.ExactLemmas

/-! # Determinism of runs up to the order of the compile commands -/

namespace Verif.Target
open Verif Verif.Command Verif.Schema Verif.Json

/-- Which commands succeed. -/
structure Outcome where
  pch : Bool
  obj : Str → Bool
  link : Bool

/-- The commands of a run succeeded or failed as `w` says. -/
structure Obeys (w : Outcome) (log : List Entry) : Prop where
  pch : ∀ b, Entry.pch b ∈ log → b = w.pch
  obj : ∀ p b, Entry.obj p b ∈ log → b = w.obj p
  link : ∀ b, Entry.link b ∈ log → b = w.link

theorem Obeys.mono {w : Outcome} {l l' : List Entry} (h : Obeys w l') (hl : ∀ e ∈ l, e ∈ l') :
    Obeys w l :=
  ⟨fun b hb => h.pch b (hl _ hb), fun p b hb => h.obj p b (hl _ hb), fun b hb => h.link b (hl _ hb)⟩

variable (f : Str → Option Nat) (L : Option TargetSchema) (c : TargetSchema) (w : Outcome)

/-- The PCH phase finds its files. -/
def pchFound : Bool := decide (c.pchs = []) || (present f c.headers && present f c.pchs)

/-- The PCH phase succeeds. -/
def pchPassed : Bool := pchFound f c && (!dP f L c || w.pch)

/-- The compile phase takes its decisions. -/
def reached : Bool :=
  pchPassed f L c w && present f c.sources && present f c.headers && present f c.compileDeps

def pchUser : TargetSchema :=
  if present f c.headers then uP f c else { c with headers := hs f c.headers }

def objUser (u : TargetSchema) : TargetSchema :=
  let u1 := { u with sources := hs f u.sources }
  if present f u.sources then
    let u2 := { u1 with headers := hs f u1.headers }
    if present f u1.headers then { u2 with compileDeps := hs f u2.compileDeps } else u2
  else u1

/-- What a run that ends before the compile decisions leaves. -/
structure E (σ : Sys) (r : Run) : Prop where
  user : r.user = if pchFound f c then (if pchPassed f L c w then objUser f (u1 f c) else uP f c)
    else pchUser f c
  dirty : r.dirty = (pchFound f c && dP f L c)
  store : r.store = if pchPassed f L c w then st1 f c else TargetSchema.empty
  not : reached f L c w = false
  cmds : commands σ.log = if pchFound f c && dP f L c then [.pch w.pch] else []

/-- What a run that ends between compiling and the link decision leaves. -/
structure F (B : List (PathInfo × Bool)) (r : Run) : Prop where
  user : r.user = if B.all (·.2) then
      (if present f c.libs then uL f c else { uO f c with libs := hs f c.libs })
    else uO f c
  not : B.all (·.2) = true → (present f c.libs && present f c.linkDeps) = false

def Det (σ : Sys) (r : Run) : Prop :=
  match r.phase with
  | .pch => σ.ok = true
  | .pchRun => σ.ok = true
  | .obj => (σ.ok = true ∧ pchPassed f L c w = true) ∨
      (σ.ok = false ∧ E f L c w σ r ∧ pchPassed f L c w = false)
  | .link => E f L c w σ r
  | .objRun => reached f L c w = true ∧ σ.ok = !(commands σ.log).any Entry.failed
  | .linkRun => reached f L c w = true ∧ σ.ok = true
  | .fin => (XEarly f L c σ r ∧ σ.ok = false ∧ E f L c w σ r) ∨
      (reached f L c w = true ∧ ∃ B, XFail f L c B σ r ∧ F f c B r) ∨
      (reached f L c w = true ∧ ∃ B b, XLate f L c B b σ r ∧ σ.ok = (!dL f L c || b) ∧
        (present f c.libs && present f c.linkDeps) = true)

variable {f L c w}

theorem uP_hs : hs f (uP f c).headers = hs f c.headers := hs_hs f _

/-- The log only grows. -/
theorem log_mono (fx : Fixed) (σ : Sys) (e : Event) (h : e.isStart = false) :
    ∀ x ∈ σ.log, x ∈ (step fx σ e).log := by
  intro x hx
  cases e <;> simp only [Event.isStart, Bool.true_eq_false] at h <;>
    simp only [step, inPhase, Sys.put, lookAt, pchTask, pchExec, objTask, execObj, addObj, linkTask, linkExec,
      finishRun, crashRun] <;> repeat' split
  all_goals first
    | exact hx
    | exact List.mem_append_left _ hx

theorem any_objCmds {b : Bool} {B : List (PathInfo × Bool)} :
    (preCmd b ++ objCmds B).any Entry.failed = !B.all (·.2) := by
  have h1 : (preCmd b).any Entry.failed = false := by cases b <;> rfl
  rw [List.any_append, h1, Bool.false_or]
  induction B with
  | nil => rfl
  | cons x l ih =>
    simp only [objCmds, List.map_cons, List.any_cons, List.all_cons] at ih ⊢
    rw [ih]
    obtain ⟨i, b⟩ := x
    cases b <;> simp [Entry.failed]

theorem E.same {σ σ' : Sys} {r : Run} (h : E f L c w σ r) (hl : σ'.log = σ.log) : E f L c w σ' r :=
  ⟨h.user, h.dirty, h.store, h.not, by rw [hl]; exact h.cmds⟩

/-- Only the log and the success flag matter. -/
theorem Det.same {σ σ' : Sys} {r : Run} (h : Det f L c w σ r) (hl : σ'.log = σ.log)
    (ho : σ'.ok = σ.ok) : Det f L c w σ' r := by
  have hc : commands σ'.log = commands σ.log := by rw [hl]
  unfold Det at *
  split <;> rename_i hp <;> simp only [hp] at h
  · exact ho.trans h
  · exact ho.trans h
  · rcases h with ⟨h1, h2⟩ | ⟨h1, h2, h3⟩
    · exact .inl ⟨ho.trans h1, h2⟩
    · exact .inr ⟨ho.trans h1, h2.same hl, h3⟩
  · exact h.same hl
  · exact ⟨h.1, by rw [ho, hl]; exact h.2⟩
  · exact ⟨h.1, ho.trans h.2⟩
  · rcases h with ⟨h1, h2, h3⟩ | ⟨h1, B, h, h3⟩ | ⟨h1, B, b, h, h3, h4⟩
    · exact .inl ⟨h1.same hc rfl rfl rfl rfl, ho.trans h2, h3.same hl⟩
    · exact .inr (.inl ⟨h1, B, ⟨h.mid, hc.trans h.cmds, ho.trans h.failed, h.user, h.dirty, h.linked,
        h.pending, h.executed⟩, h3⟩)
    · exact .inr (.inr ⟨h1, B, b, ⟨h.mid, hc.trans h.cmds, h.user, h.dirty, h.linked, h.pending,
        h.executed, h.ok, h.libsOk, h.linkDepsOk⟩, ho.trans h3, h4⟩)

theorem det_look {fx : Fixed} {σ : Sys} {p : Str} {v : Option Nat}
    (hd : ∀ r, σ.run = some r → Det f L c w σ r) :
    ∀ r, (step fx σ (.look p v)).run = some r → Det f L c w (step fx σ (.look p v)) r := by
  simp only [step, lookAt]
  split
  · exact fun r hr => (hd r hr).same rfl rfl
  · exact hd

theorem det_pchTask {fx : Fixed} {sf : Option Str} {o : List Str} {σ : Sys}
    (h : XInv f L c sf o σ) (hd : ∀ r, σ.run = some r → Det f L c w σ r) :
    ∀ r, (step fx σ .pchTask).run = some r → Det f L c w (step fx σ .pchTask) r := by
  simp only [step, inPhase]
  split
  · rename_i r hr
    split
    · rename_i hp
      have h := h.settle hr
      have hd : ∀ r, σ.settle.run = some r → Det f L c w σ.settle r := fun r hr => (hd r hr).same rfl rfl
      have hr : σ.settle.run = some r := hr
      generalize σ.settle = σ at h hd hr ⊢
      have hx := h.run r hr
      have hph := hx.phase
      simp only [XPhase, hp] at hph
      have hdr := hd r hr
      simp only [Det, hp] at hdr
      have hf := hx.files
      have hu := hph.user
      have hpn := hph.pchs
      simp only [pchTask, hdr, Bool.not_true, Bool.false_eq_true, if_false]
      split
      · rename_i h1
        simp only [hf, hu, Bool.not_eq_true'] at h1
        have hnf : pchFound f c = false := by simp [pchFound, hpn, present, h1]
        have hnp : pchPassed f L c w = false := by simp [pchPassed, hnf]
        intro r' hr'
        cases hr'
        refine .inr ⟨rfl, ⟨?_, ?_, ?_, ?_, ?_⟩, hnp⟩
        · simp only [hnf, Bool.false_eq_true, if_false, pchUser, present, h1, hu, hf]
          rfl
        · simp [hnf, hph.dirty]
        · simp [hnp, hph.store]
        · simp [reached, hnp]
        · rw [hnf]; exact (commands_fail_missing σ _).trans hph.cmds
      · rename_i h1
        simp only [hf, hu, Bool.not_eq_true, Bool.not_eq_false'] at h1
        split
        · rename_i h2
          simp only [hf, hu, Bool.not_eq_true'] at h2
          have hnf : pchFound f c = false := by simp [pchFound, hpn, present, h2]
          have hnp : pchPassed f L c w = false := by simp [pchPassed, hnf]
          intro r' hr'
          cases hr'
          refine .inr ⟨rfl, ⟨?_, ?_, ?_, ?_, ?_⟩, hnp⟩
          · simp only [hnf, Bool.false_eq_true, if_false, pchUser, present, h1, hu, hf, if_true]
            rfl
          · simp [hnf, hph.dirty]
          · simp [hnp, hph.store]
          · simp [reached, hnp]
          · rw [hnf]; exact (commands_fail_missing σ _).trans hph.cmds
        · rename_i h2
          simp only [hf, hu, Bool.not_eq_true, Bool.not_eq_false'] at h2
          have hu2 : { { r.user with headers := (hashAll σ.files r.user.headers).1 } with
              pchs := (hashAll σ.files r.user.pchs).1 } = uP f c := by
            rw [hu, hf]; rfl
          split
          · intro r' hr'
            cases hr'
            exact rfl
          · rename_i h3
            rw [hu2, hx.load, hx.loaded] at h3
            intro r' hr'
            cases hr'
            refine .inl ⟨rfl, ?_⟩
            simp only [pchPassed, pchFound, present, h1, h2, dP, Bool.and_self, Bool.or_true,
              Bool.true_and, hpn]
            simp [h3]
    · exact hd
  · exact hd

theorem det_pchExec {fx : Fixed} {sf : Option Str} {o : List Str} {σ : Sys} {ok : Bool}
    {junk : Option (Option PchArt)}
    (h : XInv f L c sf o σ) (hd : ∀ r, σ.run = some r → Det f L c w σ r)
    (hw : Obeys w (step fx σ (.pchExec ok junk)).log) :
    ∀ r, (step fx σ (.pchExec ok junk)).run = some r →
      Det f L c w (step fx σ (.pchExec ok junk)) r := by
  revert hw
  simp only [step, inPhase]
  split
  · rename_i r hr
    split
    · rename_i hp
      have hx := h.run r hr
      have hph := hx.phase
      simp only [XPhase, hp] at hph
      have hdr := hd r hr
      simp only [Det, hp] at hdr
      have hfo : pchFound f c = true := by simp [pchFound, hph.headersOk, hph.pchsOk]
      simp only [pchExec]
      split
      · intro hw r' hr'
        have hb : true = w.pch := hw.pch true (by simp)
        cases hr'
        exact .inl ⟨hdr, by simp [pchPassed, hfo, ← hb]⟩
      · intro hw r' hr'
        have hb : false = w.pch := hw.pch false (by simp [Sys.fail])
        have hnp : pchPassed f L c w = false := by simp [pchPassed, ← hb, hph.decided]
        cases hr'
        refine .inr ⟨rfl, ⟨?_, ?_, ?_, ?_, ?_⟩, hnp⟩
        · simp [hfo, hnp, hph.user]
        · simp [hfo, hph.dirty, hph.decided]
        · simp [hnp, hph.store]
        · simp [reached, hnp]
        · simp only [Sys.fail]
          rw [commands_append, hph.cmds, ← hb, hfo, hph.decided]; rfl
    · exact fun _ => hd
  · exact fun _ => hd

theorem det_objTask {fx : Fixed} {sf : Option Str} {o : List Str} {σ : Sys}
    (h : XInv f L c sf o σ) (hd : ∀ r, σ.run = some r → Det f L c w σ r) :
    ∀ r, (step fx σ .objTask).run = some r → Det f L c w (step fx σ .objTask) r := by
  simp only [step, inPhase]
  split
  · rename_i r hr
    split
    · rename_i hp
      have h := h.settle hr
      have hd : ∀ r, σ.settle.run = some r → Det f L c w σ.settle r := fun r hr => (hd r hr).same rfl rfl
      have hr : σ.settle.run = some r := hr
      generalize σ.settle = σ at h hd hr ⊢
      have hx := h.run r hr
      have hph := hx.phase
      simp only [XPhase, hp] at hph
      have hdr := hd r hr
      simp only [Det, hp] at hdr
      have hf := hx.files
      simp only [objTask]
      rcases hdr with ⟨hok, hpp⟩ | ⟨hok, hE, -⟩
      · simp only [hok, Bool.not_true, Bool.false_eq_true, if_false]
        have hu := hph.user hok
        have hfo : pchFound f c = true := by
          simp only [pchPassed, Bool.and_eq_true] at hpp; exact hpp.1
        have e1 : (u1 f c).sources = c.sources := by unfold u1; split <;> rfl
        have e2 : hashAll f (u1 f c).headers = hashAll f c.headers := by
          unfold u1; split
          · exact hashAll_hs f _
          · rfl
        have e3 : (u1 f c).compileDeps = c.compileDeps := by unfold u1; split <;> rfl
        have mkE : ∀ (σ' : Sys) (r' : Run), commands σ'.log = commands σ.log →
            r'.user = objUser f (u1 f c) → r'.dirty = r.dirty →
            r'.store = r.store → reached f L c w = false → E f L c w σ' r' := by
          intro σ' r' h0 h1 h2 h3 h4
          refine ⟨?_, ?_, ?_, h4, ?_⟩
          rotate_left 3
          · rw [h0, hph.cmds hok]
            simp only [pchPassed, hfo, Bool.true_and, Bool.or_eq_true, Bool.not_eq_true'] at hpp
            cases hdp : dP f L c
            · simp [preCmd]
            · rcases hpp with h | h
              · rw [h] at hdp; simp at hdp
              · simp [preCmd, h, hfo]
          · simp [hfo, hpp, h1]
          · simp [hfo, h2, hph.dirty hok]
          · simp [hpp, h3, hph.store hok]
        split
        · rename_i h1
          simp only [hf, hu, Bool.not_eq_true'] at h1
          intro r' hr'
          cases hr'
          refine mkE _ _ (commands_fail_missing σ _) ?_ rfl rfl ?_
          · simp only [objUser, present, h1, Bool.false_eq_true, if_false, hf, hu]; rfl
          · rw [e1] at h1; simp [reached, present, h1]
        · rename_i h1
          simp only [hf, hu, Bool.not_eq_true, Bool.not_eq_false'] at h1
          split
          · rename_i h2
            simp only [hf, hu, Bool.not_eq_true'] at h2
            intro r' hr'
            cases hr'
            refine mkE _ _ (commands_fail_missing σ _) ?_ rfl rfl ?_
            · simp only [objUser, present, h1, h2, Bool.false_eq_true, if_false, if_true, hf, hu]; rfl
            · rw [e2] at h2; simp [reached, present, h2]
          · rename_i h2
            simp only [hf, hu, Bool.not_eq_true, Bool.not_eq_false'] at h2
            split
            · rename_i h3
              simp only [hf, hu, Bool.not_eq_true'] at h3
              intro r' hr'
              cases hr'
              refine mkE _ _ (commands_fail_missing σ _) ?_ rfl rfl ?_
              · simp only [objUser, present, h1, h2, if_true, hf, hu]; rfl
              · rw [e3] at h3; simp [reached, present, h3]
            · rename_i h3
              simp only [hf, hu, Bool.not_eq_true, Bool.not_eq_false'] at h3
              have hre : reached f L c w = true := by
                rw [e1] at h1; rw [e2] at h2; rw [e3] at h3
                simp [reached, present, hpp, h1, h2, h3]
              have hany : (commands σ.log).any Entry.failed = false := by
                rw [hph.cmds hok]; cases dP f L c <;> rfl
              split
              · intro r' hr'
                cases hr'
                exact ⟨hre, by simp only [hany, hok]; rfl⟩
              · intro r' hr'
                cases hr'
                exact ⟨hre, by simp only [hany, hok]; rfl⟩
      · simp only [hok, Bool.not_false, if_true]
        intro r' hr'
        cases hr'
        exact ⟨hE.user, hE.dirty, hE.store, hE.not, hE.cmds⟩
    · exact hd
  · exact hd

theorem det_exec {fx : Fixed} {σ : Sys} {k : Nat} {ok : Bool} {junk : Option (Option ObjArt)}
    (hd : ∀ r, σ.run = some r → Det f L c w σ r) :
    ∀ r, (step fx σ (.exec k ok junk)).run = some r →
      Det f L c w (step fx σ (.exec k ok junk)) r := by
  simp only [step, inPhase]
  split
  · rename_i r hr
    split
    · rename_i hp
      have hdr := hd r hr
      simp only [Det, hp] at hdr
      simp only [execObj]
      split
      · exact hd
      · split
        · intro r' hr'
          cases hr'
          simp only [Det, hp]
          refine ⟨hdr.1, ?_⟩
          rw [commands_append, List.any_append, hdr.2]
          simp [commands, Entry.isCommand, Entry.failed]
        · intro r' hr'
          cases hr'
          simp only [Det, hp]
          refine ⟨hdr.1, ?_⟩
          simp only [Sys.fail]
          rw [commands_append, List.any_append]
          simp [commands, Entry.isCommand, Entry.failed]
    · exact hd
  · exact hd

theorem det_add {fx : Fixed} {σ : Sys} {k : Nat}
    (hd : ∀ r, σ.run = some r → Det f L c w σ r) :
    ∀ r, (step fx σ (.add k)).run = some r → Det f L c w (step fx σ (.add k)) r := by
  simp only [step, inPhase]
  split
  · rename_i r hr
    split
    · rename_i hp
      have hdr := hd r hr
      simp only [Det, hp] at hdr
      simp only [addObj]
      split
      · exact hd
      · intro r' hr'
        cases hr'
        simp only [Det, hp]
        exact hdr
    · exact hd
  · exact hd

theorem det_linkTask {fx : Fixed} {sf : Option Str} {o : List Str} {σ : Sys}
    (h : XInv f L c sf o σ) (hd : ∀ r, σ.run = some r → Det f L c w σ r) :
    ∀ r, (step fx σ .linkTask).run = some r → Det f L c w (step fx σ .linkTask) r := by
  simp only [step]
  split
  · rename_i r hr
    split
    · rename_i hp
      have h := h.settle hr
      have hd : ∀ r, σ.settle.run = some r → Det f L c w σ.settle r := fun r hr => (hd r hr).same rfl rfl
      have hr : σ.settle.run = some r := hr
      generalize σ.settle = σ at h hd hr ⊢
      have hx := h.run r hr
      have hph := hx.phase
      have hdr := hd r hr
      have hf := hx.files
      simp only [linkTask]
      rcases hp with hp | ⟨hp, hpe, hex⟩
      · simp only [XPhase, hp] at hph
        simp only [Det, hp] at hdr
        simp only [hph.2, Bool.not_false, if_true]
        intro r' hr'
        cases hr'
        exact .inl ⟨hph.1.same rfl rfl rfl rfl rfl, rfl, hdr.user, hdr.dirty, hdr.store, hdr.not, hdr.cmds⟩
      · simp only [XPhase, hp] at hph
        simp only [Det, hp] at hdr
        obtain ⟨B, hph⟩ := hph
        have hBall : σ.ok = B.all (·.2) := by
          rw [hdr.2, hph.cmds, any_objCmds, Bool.not_not]
        have hmid : ∀ {r' : Run}, r'.pending = r.pending → r'.executed = r.executed →
            r'.store = r.store → (r.dirty = true → r'.dirty = true) → XMid f L c B r' :=
          fun h1 h2 h3 h4 => hph.mid.same h1 h2 (by rw [h3]) (by rw [h3]) (by rw [h3]) h4
        have hud : (uO f c).libs = c.libs ∧ (uO f c).linkDeps = c.linkDeps := by
          simp only [uO, u1]; split <;> exact ⟨rfl, rfl⟩
        split
        · rename_i hok
          intro r' hr'
          cases hr'
          have hok' : σ.ok = false := by simpa using hok
          refine .inr (.inl ⟨hdr.1, B, ⟨hmid rfl rfl rfl id, hph.cmds, hok',
            by rw [hph.user], hph.dirty, hph.linked, hpe, hex⟩, ?_, ?_⟩)
          · rw [← hBall, hok']; exact hph.user
          · rw [← hBall, hok']; simp
        · rename_i hok
          have ho : σ.ok = true := by simpa using hok
          have hBt : B.all (·.2) = true := by rw [← hBall, ho]
          split
          · rename_i h1
            simp only [hph.user, hf, Bool.not_eq_true', hud.1] at h1
            intro r' hr'
            cases hr'
            refine .inr (.inl ⟨hdr.1, B, ⟨hmid rfl rfl rfl id,
              (commands_fail_missing σ _).trans hph.cmds, rfl, by simp only [hph.user], hph.dirty,
              hph.linked, hpe, hex⟩, ?_, ?_⟩)
            · rw [hBt]
              simp only [present, h1, Bool.false_eq_true, if_false, if_true, hph.user, hf, hud.1]
              rfl
            · simp [present, h1]
          · rename_i h1
            simp only [hph.user, hf, Bool.not_eq_true, Bool.not_eq_false', hud.1] at h1
            split
            · rename_i h2
              simp only [hph.user, hf, Bool.not_eq_true', hud.2] at h2
              intro r' hr'
              cases hr'
              refine .inr (.inl ⟨hdr.1, B, ⟨hmid rfl rfl rfl id,
                (commands_fail_missing σ _).trans hph.cmds, rfl, by simp only [hph.user], hph.dirty,
                hph.linked, hpe, hex⟩, ?_, ?_⟩)
              · rw [hBt]
                simp only [present, h1, if_true, hph.user, hf, hud.1, hud.2]
                rfl
              · simp [present, h2]
            · rename_i h2
              simp only [hph.user, hf, Bool.not_eq_true, Bool.not_eq_false', hud.2] at h2
              have hB : ∀ x ∈ B, x.2 = true := List.all_eq_true.1 hBt
              have hu2 : { { r.user with libs := (hashAll σ.files r.user.libs).1 } with
                  linkDeps := (hashAll σ.files r.user.linkDeps).1 } = uL f c := by
                rw [hf, hph.user, hud.1, hud.2]; rfl
              split
              · intro r' hr'
                cases hr'
                exact ⟨hdr.1, ho⟩
              · rename_i h3
                rw [hu2, hx.load, hx.loaded, hph.dirty] at h3
                have hdl : dL f L c = false := by simpa [dL] using h3
                intro r' hr'
                cases hr'
                refine .inr (.inr ⟨hdr.1, B, true, ⟨hmid rfl rfl rfl id, ?_, hu2, ?_, ?_, hpe, hex, hB,
                  h1, h2⟩, by simp [hdl, ho], by simp [present, h1, h2]⟩)
                · rw [hdl]; simpa using hph.cmds
                · rw [hdl]
                  show r.dirty = false
                  rw [hph.dirty]
                  cases hdo : dO f L c
                  · rfl
                  · rw [dL, hdo] at hdl
                    simp [linkDirty] at hdl
                · rw [hdl]; exact hph.linked
    · exact hd
  · exact hd

theorem det_linkExec {fx : Fixed} {sf : Option Str} {o : List Str} {σ : Sys} {ok : Bool}
    {junk : Option (Option BinArt)}
    (h : XInv f L c sf o σ) (hd : ∀ r, σ.run = some r → Det f L c w σ r) :
    ∀ r, (step fx σ (.linkExec ok junk)).run = some r →
      Det f L c w (step fx σ (.linkExec ok junk)) r := by
  simp only [step, inPhase]
  split
  · rename_i r hr
    split
    · rename_i hp
      have hx := h.run r hr
      have hph := hx.phase
      simp only [XPhase, hp] at hph
      obtain ⟨B, hph⟩ := hph
      have hdr := hd r hr
      simp only [Det, hp] at hdr
      simp only [linkExec]
      split
      · intro r' hr'
        cases hr'
        refine .inr (.inr ⟨hdr.1, B, true, ⟨hph.mid.same rfl rfl rfl rfl rfl id, ?_, hph.user, ?_, ?_,
          hph.pending, hph.executed, hph.ok, hph.libsOk, hph.linkDepsOk⟩, by simp [hdr.2],
          by simp [hph.libsOk, hph.linkDepsOk]⟩)
        · rw [commands_append, hph.cmds, hph.decided]; rfl
        · rw [hph.decided]; exact hph.dirty
        · rw [hph.decided]; rfl
      · intro r' hr'
        cases hr'
        refine .inr (.inr ⟨hdr.1, B, false, ⟨hph.mid.same rfl rfl rfl rfl rfl id, ?_, hph.user, ?_, ?_,
          hph.pending, hph.executed, hph.ok, hph.libsOk, hph.linkDepsOk⟩,
          by simp [hph.decided, Sys.fail], by simp [hph.libsOk, hph.linkDepsOk]⟩)
        · simp only [Sys.fail]
          rw [commands_append, hph.cmds, hph.decided]; rfl
        · rw [hph.decided]; exact hph.dirty
        · rw [hph.decided]; exact hph.linked
    · exact hd
  · exact hd

/-- The invariant, also of a finished run. -/
structure DInv (f : Str → Option Nat) (L : Option TargetSchema) (c : TargetSchema) (w : Outcome)
    (sf : Option Str) (σ : Sys) : Prop where
  run : ∀ r, σ.run = some r → Det f L c w σ r
  done : ∀ d, σ.done = some d → ∃ σ' r b, Det f L c w σ' r ∧ r.phase = .fin ∧
    σ'.stateFile = sf ∧ r.cfg = c ∧ σ = finishRun σ' r b ∧ Obeys w σ'.log ∧ Entry.storeFailed ∉ σ'.log

theorem progress_done {fx : Fixed} {σ : Sys} {e : Event} (h1 : e.outside = false)
    (h2 : e.isStart = false) (h3 : ∀ b, e ≠ .finish b) (hn : NoDone σ) {d : Done}
    (hd : (step fx σ e).done = some d) :
    σ.done = some d ∧ ∃ v, step fx σ e = { σ with view := v } := by
  cases hr : σ.run with
  | none =>
    have : ∃ v, step fx σ e = { σ with view := v } := by
      cases e <;> simp only [Event.outside, Event.isStart, Bool.true_eq_false] at h1 h2
      case look p v =>
        simp only [step, lookAt]
        split
        · exact ⟨_, rfl⟩
        · exact ⟨σ.view, rfl⟩
      all_goals
        refine ⟨σ.view, ?_⟩
        show step fx σ _ = σ
        simp [step, inPhase, hr]
    obtain ⟨v, this⟩ := this
    rw [this] at hd
    exact ⟨hd, v, by rw [this, ← hr]⟩
  | some r =>
    exfalso
    have hnd := hn (by simp [hr])
    revert hd
    cases e <;> simp only [Event.outside, Event.isStart, Bool.true_eq_false] at h1 h2
    case finish b => exact absurd rfl (h3 b)
    all_goals
      simp only [step, inPhase, hr, Sys.put, lookAt, pchTask, pchExec, objTask, execObj, addObj, linkTask, linkExec,
        crashRun, Sys.fail]
      repeat' split
      all_goals simp [hnd]

theorem noStore_step {fx : Fixed} {σ : Sys} {e : Event} (h1 : e.outside = false)
    (h2 : e.isStart = false) (h : σ.run.isSome = true → Entry.storeFailed ∉ σ.log) :
    (step fx σ e).run.isSome = true → Entry.storeFailed ∉ (step fx σ e).log := by
  cases hr : σ.run with
  | none =>
    have : (step fx σ e).run = σ.run ∧ (step fx σ e).log = σ.log := by
      cases e <;> simp only [Event.outside, Event.isStart, Bool.true_eq_false] at h1 h2
      case look p v => simp only [step, lookAt]; split <;> exact ⟨rfl, rfl⟩
      all_goals simp [step, inPhase, hr]
    rw [this.1, this.2]; exact h
  | some r =>
    have hl := h (by simp [hr])
    cases e <;> simp only [Event.outside, Event.isStart, Bool.true_eq_false] at h1 h2 <;>
      simp only [step, inPhase, hr, Sys.put, lookAt, pchTask, pchExec, objTask, execObj, addObj, linkTask, linkExec,
        finishRun, crashRun, Sys.fail] <;> repeat' split
    all_goals first
      | exact fun _ => hl
      | (intro h; simp at h; done)
      | simp [hl]

theorem dinv_step {fx : Fixed} {sf : Option Str} {o : List Str} {σ : Sys} {e : Event}
    (h1 : e.outside = false) (h2 : e.isStart = false) (h : XInv f L c sf o σ)
    (hd : DInv f L c w sf σ) (hw : Obeys w (step fx σ e).log)
    (hs : σ.run.isSome = true → Entry.storeFailed ∉ σ.log)
    (ho : Entry.other ∉ (step fx σ e).log) : DInv f L c w sf (step fx σ e) := by
  refine ⟨?_, ?_⟩
  · cases e <;> simp only [Event.outside, Event.isStart, Bool.true_eq_false] at h1 h2
    case pchTask => exact det_pchTask h hd.run
    case pchExec => exact det_pchExec h hd.run hw
    case objTask => exact det_objTask h hd.run
    case exec => exact det_exec hd.run
    case add => exact det_add hd.run
    case linkTask => exact det_linkTask h hd.run
    case linkExec => exact det_linkExec h hd.run
    case look => exact det_look hd.run
    case otherFail =>
      revert ho
      simp only [step]
      split
      · intro ho; simp [Sys.fail] at ho
      · exact fun _ => hd.run
    case finish =>
      simp only [step, inPhase]
      split
      · rename_i r hr
        split
        · intro r' hr'
          exfalso
          revert hr'
          simp only [finishRun]
          repeat' split
          all_goals simp
        · exact hd.run
      · exact hd.run
    case crash =>
      simp only [step]
      split
      · intro r' hr'
        exfalso
        revert hr'
        simp only [crashRun]
        repeat' split
        all_goals simp
      · exact hd.run
  · intro d hdd
    by_cases hf : ∃ b, e = .finish b
    · obtain ⟨b, rfl⟩ := hf
      have hmono := log_mono fx σ (.finish b) rfl
      revert hdd hw
      simp only [step, inPhase] at hmono ⊢
      split
      · rename_i r hr
        split
        · rename_i hp
          intro hw hdd
          simp only [hr, hp, if_true] at hmono
          exact ⟨σ, r, b, hd.run r hr, hp, (h.run r hr).state, (h.run r hr).cfg, rfl,
            hw.mono hmono, hs (by simp [hr])⟩
        · exact fun _ hdd => hd.done d hdd
      · exact fun _ hdd => hd.done d hdd
    · obtain ⟨k1, k2⟩ := progress_done h1 h2 (fun b hb => hf ⟨b, hb⟩) h.noDone hdd
      obtain ⟨v, k2⟩ := k2
      obtain ⟨σ', r, b, g1, g2, g3, g4, g5, g6, g7⟩ := hd.done d k1
      refine ⟨{ σ' with view := v }, r, b, g1.same rfl rfl, g2, g3, g4, ?_, g6, g7⟩
      rw [k2, g5]
      simp only [finishRun]
      repeat' split
      all_goals rfl

theorem steps_mono (fx : Fixed) : ∀ (evs : List Event) (σ : Sys),
    (∀ e ∈ evs, e.isStart = false) → ∀ x ∈ σ.log, x ∈ (steps fx σ evs).log := by
  intro evs
  induction evs with
  | nil => intro σ _ x hx; exact hx
  | cons e l ih =>
    intro σ h x hx
    exact ih _ (fun e' he => h e' (List.mem_cons_of_mem _ he)) x
      (log_mono fx σ e (h e List.mem_cons_self) x hx)

theorem dinv_steps {fx : Fixed} {sf : Option Str} {o : List Str} (evs : List Event) : ∀ {σ : Sys},
    (∀ e ∈ evs, e.outside = false ∧ e.isStart = false) → XInv f L c sf o σ → DInv f L c w sf σ →
    (σ.run.isSome = true → Entry.storeFailed ∉ σ.log) →
    Obeys w (steps fx σ evs).log → Entry.other ∉ (steps fx σ evs).log →
    DInv f L c w sf (steps fx σ evs) := by
  induction evs with
  | nil => intro σ _ _ h _ _ _; exact h
  | cons e l ih =>
    intro σ he h hd hs hw ho
    obtain ⟨h1, h2⟩ := he e List.mem_cons_self
    have hm := steps_mono fx l (step fx σ e) (fun e' h' => (he e' (List.mem_cons_of_mem _ h')).2)
    exact ih (fun e' h' => he e' (List.mem_cons_of_mem _ h')) (xinv_step h1 h2 h)
      (dinv_step h1 h2 h hd (hw.mono hm) hs (fun hh => ho (hm _ hh)))
      (noStore_step h1 h2 hs) hw ho

theorem QuietRun.dinv {fx : Fixed} {σ₀ σ : Sys} {c : TargetSchema} {o : List Str} {mid : List Event}
    {w : Outcome} (h : QuietRun fx σ₀ c o mid σ) (hw : Obeys w σ.log) (ho : Entry.other ∉ σ.log) :
    DInv σ₀.files (loadTargetFile σ₀.stateFile) c w σ₀.stateFile σ := by
  rw [← h.result] at hw ho ⊢
  refine dinv_steps mid h.quiet (xinv_start h.idle h.started) ⟨?_, ?_⟩ ?_ hw ho
  · have hs := h.started
    revert hs
    simp only [step, startRun, h.idle]
    split
    · intro _ r hr
      cases hr
      by_cases hp : c.pchs = []
      · simp only [Det, hp, ne_eq, not_true_eq_false, if_false]
        exact .inl ⟨by trivial, by simp [pchPassed, pchFound, hp, dP]⟩
      · simp only [Det, hp, ne_eq, not_false_eq_true, if_true]
    · simp [h.idle]
  · intro d hd
    exfalso
    have := (xinv_start h.idle h.started).noDone h.started
    rw [this] at hd; simp at hd
  · rw [(start_log h.idle h.started).1]; simp

end Verif.Target
