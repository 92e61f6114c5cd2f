import Verif.Target.Report

/-! # What an undisturbed run has done up to any point, also if it is killed -/

namespace Verif.Target
open Verif Verif.Command Verif.Schema Verif.Json

variable {f : Str → Option Nat} {L : Option TargetSchema} {c : TargetSchema}

/-! ## Current means present -/

theorem present_iff {f : Str → Option Nat} {l : List PathInfo} :
    present f l = true ↔ ∀ p ∈ paths l, ∃ t, f p = some t := by
  induction l with
  | nil => simp [present, hashAll, paths]
  | cons i l ih =>
    simp only [present, hashAll, fileHash, paths, List.map_cons, List.mem_cons, forall_eq_or_imp]
      at ih ⊢
    cases hh : f i.path with
    | none => simp
    | some x => simp [ih]

theorem present_of_recorded {f : Str → Option Nat} : ∀ {l a : List PathInfo},
    recorded a = versions f l → present f l = true := by
  intro l
  induction l with
  | nil => intro a _; rfl
  | cons i l ih =>
    intro a h
    cases a with
    | nil => simp [recorded, versions] at h
    | cons j a =>
      simp only [recorded, versions, List.map_cons, List.cons.injEq, Prod.mk.injEq] at h
      have h1 : fileHash f i.path = some j.hash := h.1.2.symm
      have h2 := ih (a := a) h.2
      simp only [present, hashAll, h1] at h2 ⊢
      exact h2

theorem PchCurrent.present {s : TargetSchema} (h : PchCurrent f s c) :
    present f c.headers = true ∧ present f c.pchs = true :=
  ⟨present_of_recorded h.headers, present_of_recorded h.pchs⟩

theorem present_sources {s : TargetSchema} (h : ∀ p ∈ paths c.sources, SourceCurrent f s p) :
    present f c.sources = true := by
  rw [present_iff]
  intro p hp
  obtain ⟨i, -, hv⟩ := h p hp
  simp only [version, Option.map_eq_some_iff] at hv
  obtain ⟨t, ht, -⟩ := hv
  exact ⟨t, ht⟩

theorem AllCurrent.inputs {s : TargetSchema} (h : AllCurrent f s c) :
    Inputs f c ∧ present f c.libs = true ∧ present f c.linkDeps = true :=
  ⟨⟨present_sources h.sources, present_of_recorded h.shared.headers,
      present_of_recorded h.shared.deps, fun hp => (h.shared.pch hp).present.2⟩,
    present_of_recorded h.link.libs, present_of_recorded h.link.deps⟩

theorem dP_need (h : dP f L c = true) : NeedPch f L c := by
  have hp : c.pchs ≠ [] := by
    intro hp; simp [dP, hp] at h
  refine ⟨hp, ?_⟩
  rintro s rfl hc
  rw [(dP_current hp hc.present.1 hc.present.2).2 hc] at h
  simp at h

/-- All files that a build of `c` looks at exist. -/
def AllPresent (f : Str → Option Nat) (c : TargetSchema) : Prop :=
  ∀ p ∈ tracked c, ∃ t, f p = some t

/-! ## The facts -/

structure Sofar (f : Str → Option Nat) (L : Option TargetSchema) (c : TargetSchema)
    (l : List Entry) : Prop where
  pch : ∀ b, Entry.pch b ∈ l → NeedPch f L c
  once : (compiledSources l).Nodup
  obj : ∀ p ∈ compiledSources l, NeedObj f L c p
  link : ∀ b, Entry.link b ∈ l → NeedLink f L c ∧ (∀ p, NeedObj f L c p → Entry.obj p true ∈ l) ∧
    (NeedPch f L c → Entry.pch true ∈ l)

theorem Sofar.of_pre {l : List Entry} (h : l = [] ∨ dP f L c = true ∧ ∃ b, l = [.pch b]) :
    Sofar f L c l := by
  rcases h with rfl | ⟨h, b, rfl⟩
  · exact ⟨by simp, by simp [compiledSources], by simp [compiledSources], by simp⟩
  · exact ⟨fun _ _ => dP_need h, by simp [compiledSources], by simp [compiledSources], by simp⟩

theorem Sofar.of_mid {B : List (PathInfo × Bool)} {r : Run} (hn : (paths c.sources).Nodup)
    (h : XMid f L c B r) : Sofar f L c (preCmd (dP f L c) ++ objCmds B) := by
  have hs : compiledSources (preCmd (dP f L c) ++ objCmds B) = paths (B.map (·.1)) := by
    rw [compiledSources_append, compiledSources_pre, compiledSources_objCmds]; rfl
  have hpp : (paths r.pending ++ paths (B.map (·.1))).Perm (paths (sel f L c)) := by
    have := h.cover.map (fun i : PathInfo => i.path)
    rw [List.map_append] at this
    exact this
  refine ⟨?_, ?_, ?_, ?_⟩
  · intro b hb
    exact dP_need (pch_mem (l := []) (by simp) (by simpa using hb))
  · rw [hs]
    exact (List.nodup_append.1 (hpp.nodup_iff.2 (sel_nodup hn))).2.1
  · rw [hs]
    intro p hp
    obtain ⟨i, him, rfl⟩ := mem_paths.1 (hpp.mem_iff.1 (List.mem_append_right _ hp))
    exact ((mem_sel h.inputs hn i).1 him).2
  · intro b hb
    exact absurd hb (not_link_pre _ _ _)

theorem Sofar.of_late {B : List (PathInfo × Bool)} {r : Run} {b : Bool}
    (hn : (paths c.sources).Nodup) (h : XMid f L c B r) (hp : r.pending = [])
    (hok : ∀ x ∈ B, x.2 = true) (hl : dL f L c = true) (h1 : present f c.libs = true)
    (h2 : present f c.linkDeps = true) :
    Sofar f L c (preCmd (dP f L c) ++ objCmds B ++ [.link b]) := by
  have hm := Sofar.of_mid hn h
  have hi := h.inputs
  have hcov : (B.map (·.1)).Perm (sel f L c) := by simpa [hp] using h.cover
  have hsr : compiledSources (preCmd (dP f L c) ++ objCmds B ++ [.link b]) =
      compiledSources (preCmd (dP f L c) ++ objCmds B) := by
    rw [compiledSources_append]; simp [compiledSources]
  refine ⟨?_, ?_, ?_, ?_⟩
  · intro b' hb
    refine hm.pch b' ?_
    simpa using hb
  · rw [hsr]; exact hm.once
  · rw [hsr]; exact hm.obj
  · intro b' _
    refine ⟨(dL_iff hi hn h1 h2).1 hl, ?_, ?_⟩
    · intro p hp
      have h1 := hp.1
      rw [← hs_paths f] at h1
      obtain ⟨i, him, rfl⟩ := mem_paths.1 h1
      obtain ⟨⟨j, bj⟩, hx, e⟩ := List.mem_map.1 (hcov.mem_iff.2 ((mem_sel hi hn i).2 ⟨him, hp⟩))
      simp only at e
      subst e
      exact List.mem_append_left _ (List.mem_append_right _ (objCmds_mem.2 ⟨_, hx, rfl, hok _ hx⟩))
    · intro hp
      rw [(dP_iff (fun _ => hi.headers) hi.pchs).2 hp]
      simp [preCmd]

theorem Sofar.of_run {sf : Option Str} {o : List Str} {σ : Sys} {r : Run}
    (hn : (paths c.sources).Nodup) (h : XRun f L c sf o σ r) : Sofar f L c (commands σ.log) := by
  have hp := h.phase
  unfold XPhase at hp
  split at hp
  · exact .of_pre (.inl hp.cmds)
  · exact .of_pre (.inl hp.cmds)
  · exact .of_pre hp.early.cmds
  · obtain ⟨B, hp⟩ := hp; rw [hp.cmds]; exact .of_mid hn hp.mid
  · exact .of_pre hp.1.cmds
  · obtain ⟨B, hp⟩ := hp; rw [hp.cmds]; exact .of_mid hn hp.mid
  · rcases hp with ⟨hp, -⟩ | ⟨B, hp⟩ | ⟨B, b, hp⟩
    · exact .of_pre hp.cmds
    · rw [hp.cmds]; exact .of_mid hn hp.mid
    · rw [hp.cmds]
      cases hl : dL f L c
      · simpa using Sofar.of_mid hn hp.mid
      · exact .of_late hn hp.mid hp.pending hp.ok hl hp.libsOk hp.linkDepsOk

/-- A step after which no build runs issues no command and touches no output. -/
theorem step_ended {fx : Fixed} {σ : Sys} {e : Event} (h1 : e.outside = false)
    (h2 : e.isStart = false) (h : (step fx σ e).run = none) :
    commands (step fx σ e).log = commands σ.log ∧ (step fx σ e).objs = σ.objs ∧
      (step fx σ e).pch = σ.pch ∧ (step fx σ e).bin = σ.bin ∧ (step fx σ e).files = σ.files := by
  revert h
  cases e <;> simp only [Event.outside, Event.isStart, Bool.true_eq_false] at h1 h2 <;>
    simp only [step, inPhase, Sys.put, lookAt, pchTask, pchExec, objTask, execObj, addObj, linkTask, linkExec,
      finishRun, crashRun] <;> repeat' split
  all_goals first
    | exact fun _ => ⟨rfl, rfl, rfl, rfl, rfl⟩
    | (intro h; simp at h; done)
    | (intro _; refine ⟨?_, rfl, rfl, rfl, rfl⟩; simp [Sys.fail, commands, Entry.isCommand])
    | (intro h; simp_all [Sys.fail]; done)

theorem sofar_steps {fx : Fixed} {sf : Option Str} {o : List Str} (hn : (paths c.sources).Nodup)
    (evs : List Event) : ∀ {σ : Sys}, (∀ e ∈ evs, e.outside = false ∧ e.isStart = false) →
    XInv f L c sf o σ → Sofar f L c (commands σ.log) →
    Sofar f L c (commands (steps fx σ evs).log) := by
  induction evs with
  | nil => intro σ _ _ h; exact h
  | cons e l ih =>
    intro σ he h hs
    obtain ⟨h1, h2⟩ := he e List.mem_cons_self
    have hx := xinv_step (fx := fx) h1 h2 h
    refine ih (fun e' h' => he e' (List.mem_cons_of_mem _ h')) hx ?_
    cases hr : (step fx σ e).run with
    | some r => exact .of_run hn (hx.run r hr)
    | none => rw [(step_ended h1 h2 hr).1]; exact hs

/-- Outputs change only by commands. -/
theorem outputs_step {fx : Fixed} {σ : Sys} {e : Event} (h1 : e.outside = false)
    (h2 : e.isStart = false) (h : commands (step fx σ e).log = []) :
    commands σ.log = [] ∧ (step fx σ e).objs = σ.objs ∧
      (step fx σ e).pch = σ.pch ∧ (step fx σ e).bin = σ.bin := by
  revert h
  cases e <;> simp only [Event.outside, Event.isStart, Bool.true_eq_false] at h1 h2 <;>
    simp only [step, inPhase, Sys.put, lookAt, pchTask, pchExec, objTask, execObj, addObj, linkTask, linkExec,
      finishRun, crashRun] <;> repeat' split
  all_goals first
    | exact fun h => ⟨h, rfl, rfl, rfl⟩
    | (intro h; simp [Sys.fail, commands, Entry.isCommand] at h; done)
    | (intro h; refine ⟨?_, rfl, rfl, rfl⟩; simpa [Sys.fail, commands, Entry.isCommand] using h)

theorem outputs_steps {fx : Fixed} (evs : List Event) : ∀ {σ : Sys},
    (∀ e ∈ evs, e.outside = false ∧ e.isStart = false) → commands (steps fx σ evs).log = [] →
    commands σ.log = [] ∧ (steps fx σ evs).objs = σ.objs ∧ (steps fx σ evs).pch = σ.pch ∧
      (steps fx σ evs).bin = σ.bin := by
  induction evs with
  | nil => intro σ _ h; exact ⟨h, rfl, rfl, rfl⟩
  | cons e l ih =>
    intro σ he h
    obtain ⟨h1, h2⟩ := he e List.mem_cons_self
    obtain ⟨a1, a2, a3, a4⟩ := ih (fun e' h' => he e' (List.mem_cons_of_mem _ h')) h
    obtain ⟨b1, b2, b3, b4⟩ := outputs_step (fx := fx) h1 h2 a1
    exact ⟨b1, a2.trans b2, a3.trans b3, a4.trans b4⟩

/-! ## Missing files -/

theorem not_present {f : Str → Option Nat} {l : List PathInfo} (h : present f l = false) :
    ∃ p ∈ paths l, f p = none := by
  apply Classical.byContradiction
  intro hc
  have : present f l = true := by
    rw [present_iff]
    intro p hp
    cases hf : f p with
    | none => exact absurd ⟨p, hp, hf⟩ hc
    | some t => exact ⟨t, rfl⟩
  rw [h] at this; simp at this

theorem missing_step {fx : Fixed} {sf : Option Str} {o : List Str} {σ : Sys} {e : Event} {ph : Phase}
    (h1 : e.outside = false) (h2 : e.isStart = false) (h : XInv f L c sf o σ)
    (hm : Entry.missing ph ∈ (step fx σ e).log) :
    Entry.missing ph ∈ σ.log ∨ ∃ p ∈ tracked c, f p = none := by
  by_cases hold : Entry.missing ph ∈ σ.log
  · exact .inl hold
  refine .inr ?_
  have key : ∀ l : List PathInfo, (∀ p ∈ paths l, p ∈ tracked c) → (hashAll f l).2 = false →
      ∃ p ∈ tracked c, f p = none := by
    intro l hl hh
    obtain ⟨p, hp, hn⟩ := not_present (f := f) (l := l) hh
    exact ⟨p, hl p hp, hn⟩
  revert hm
  cases e <;> simp only [Event.outside, Event.isStart, Bool.true_eq_false] at h1 h2
  case pchTask =>
    simp only [step, inPhase]
    split
    · rename_i r hr
      split
      · rename_i hp
        have hx := h.run r hr
        have hph := hx.phase
        simp only [XPhase, hp] at hph
        simp only [pchTask]
        repeat' split
        · exact fun hm => absurd hm hold
        · rename_i hh
          simp only [settle_files, hx.files, hph.user, Bool.not_eq_true'] at hh
          exact fun _ => key _ (by simp +contextual [tracked]) hh
        · rename_i hh
          simp only [settle_files, hx.files, hph.user, Bool.not_eq_true'] at hh
          exact fun _ => key _ (by simp +contextual [tracked]) hh
        · exact fun hm => absurd hm hold
        · exact fun hm => absurd hm hold
      · exact fun hm => absurd hm hold
    · exact fun hm => absurd hm hold
  case objTask =>
    simp only [step, inPhase]
    split
    · rename_i r hr
      split
      · rename_i hp
        have hx := h.run r hr
        have hph := hx.phase
        simp only [XPhase, hp] at hph
        simp only [objTask]
        split
        · exact fun hm => absurd hm hold
        · rename_i hok
          have hu := hph.user (by simpa using hok)
          have e1 : (u1 f c).sources = c.sources := by unfold u1; split <;> rfl
          have e2 : paths (u1 f c).headers = paths c.headers := by
            unfold u1; split
            · exact hs_paths f _
            · rfl
          have e3 : (u1 f c).compileDeps = c.compileDeps := by unfold u1; split <;> rfl
          repeat' split
          · rename_i hh
            simp only [settle_files, hx.files, hu, Bool.not_eq_true', e1] at hh
            exact fun _ => key _ (by simp +contextual [tracked]) hh
          · rename_i hh
            simp only [settle_files, hx.files, hu, Bool.not_eq_true'] at hh
            exact fun _ => key _ (by rw [e2]; simp +contextual [tracked]) hh
          · rename_i hh
            simp only [settle_files, hx.files, hu, Bool.not_eq_true', e3] at hh
            exact fun _ => key _ (by simp +contextual [tracked]) hh
          · exact fun hm => absurd hm hold
          · exact fun hm => absurd hm hold
      · exact fun hm => absurd hm hold
    · exact fun hm => absurd hm hold
  case linkTask =>
    simp only [step]
    split
    · rename_i r hr
      split
      · rename_i hp
        have hx := h.run r hr
        have hph := hx.phase
        simp only [linkTask]
        split
        · exact fun hm => absurd hm hold
        · rename_i hok
          have hu : r.user = uO f c := by
            rcases hp with hp | ⟨hp, -⟩
            · simp only [XPhase, hp] at hph
              simp [hph.2] at hok
            · simp only [XPhase, hp] at hph
              obtain ⟨B, hph⟩ := hph
              exact hph.user
          have hud : (uO f c).libs = c.libs ∧ (uO f c).linkDeps = c.linkDeps := by
            simp only [uO, u1]; split <;> exact ⟨rfl, rfl⟩
          repeat' split
          · rename_i hh
            simp only [settle_files, hx.files, hu, Bool.not_eq_true', hud.1] at hh
            exact fun _ => key _ (by simp +contextual [tracked]) hh
          · rename_i hh
            simp only [settle_files, hx.files, hu, Bool.not_eq_true', hud.2] at hh
            exact fun _ => key _ (by simp +contextual [tracked]) hh
          · exact fun hm => absurd hm hold
          · exact fun hm => absurd hm hold
      · exact fun hm => absurd hm hold
    · exact fun hm => absurd hm hold
  all_goals
    simp only [step, inPhase, lookAt, pchExec, execObj, addObj, linkExec, finishRun, crashRun]
    repeat' split
    all_goals first
      | exact fun hm => absurd hm hold
      | (intro hm; simp [Sys.fail, hold] at hm; done)

theorem missing_steps {fx : Fixed} {sf : Option Str} {o : List Str} {ph : Phase}
    (evs : List Event) : ∀ {σ : Sys}, (∀ e ∈ evs, e.outside = false ∧ e.isStart = false) →
    XInv f L c sf o σ → Entry.missing ph ∈ (steps fx σ evs).log →
    Entry.missing ph ∈ σ.log ∨ ∃ p ∈ tracked c, f p = none := by
  induction evs with
  | nil => intro σ _ _ h; exact .inl h
  | cons e l ih =>
    intro σ he h hm
    obtain ⟨h1, h2⟩ := he e List.mem_cons_self
    rcases ih (fun e' h' => he e' (List.mem_cons_of_mem _ h')) (xinv_step h1 h2 h) hm with h' | h'
    · exact missing_step h1 h2 h h'
    · exact .inr h'

/-! ## Runs -/

theorem start_log {fx : Fixed} {σ : Sys} {c : TargetSchema} {o : List Str} (hi : σ.run = none)
    (hs : (step fx σ (.start c o)).run.isSome = true) :
    (step fx σ (.start c o)).log = [] ∧ (step fx σ (.start c o)).objs = σ.objs ∧
    (step fx σ (.start c o)).pch = σ.pch ∧ (step fx σ (.start c o)).bin = σ.bin := by
  revert hs
  simp only [step, startRun, hi]
  split
  · exact fun _ => ⟨rfl, rfl, rfl, rfl⟩
  · simp [hi]

theorem QuietRun.sofar {fx : Fixed} {σ₀ σ : Sys} {c : TargetSchema} {o : List Str}
    {mid : List Event} (h : QuietRun fx σ₀ c o mid σ) (hn : (paths c.sources).Nodup) :
    Sofar σ₀.files (loadTargetFile σ₀.stateFile) c (commands σ.log) := by
  rw [← h.result]
  refine sofar_steps hn mid h.quiet (xinv_start h.idle h.started) ?_
  rw [(start_log h.idle h.started).1]
  exact .of_pre (.inl rfl)

theorem QuietRun.missing {fx : Fixed} {σ₀ σ : Sys} {c : TargetSchema} {o : List Str}
    {mid : List Event} {ph : Phase} (h : QuietRun fx σ₀ c o mid σ) (hm : Entry.missing ph ∈ σ.log) :
    ∃ p ∈ tracked c, σ₀.files p = none := by
  rw [← h.result] at hm
  rcases missing_steps mid h.quiet (xinv_start h.idle h.started) hm with h' | h'
  · rw [(start_log h.idle h.started).1] at h'; simp at h'
  · exact h'

theorem QuietRun.outputs {fx : Fixed} {σ₀ σ : Sys} {c : TargetSchema} {o : List Str}
    {mid : List Event} (h : QuietRun fx σ₀ c o mid σ) (hc : commands σ.log = []) :
    σ.objs = σ₀.objs ∧ σ.pch = σ₀.pch ∧ σ.bin = σ₀.bin := by
  rw [← h.result] at hc ⊢
  obtain ⟨-, h2, h3, h4⟩ := outputs_steps mid h.quiet hc
  obtain ⟨-, g2, g3, g4⟩ := start_log h.idle h.started
  exact ⟨h2.trans g2, h3.trans g3, h4.trans g4⟩

/-! ## The state file of a run with nothing to do -/

/-- The run has nothing to store. -/
theorem dirty_none {sf : Option Str} {o : List Str} {σ : Sys} {r : Run}
    (h : XRun f L c sf o σ r) (hd : dL f L c = false) (hp : dP f L c = false) :
    r.dirty = false := by
  have hdo : dO f L c = false := by
    cases hdo : dO f L c
    · rfl
    · rw [dL, hdo] at hd; simp [linkDirty] at hd
  have hph := h.phase
  have early : ∀ {σ r}, XEarly f L c σ r → r.dirty = false := by
    intro σ r h
    cases hh : r.dirty
    · rfl
    · rw [h.dirty hh] at hp; simp at hp
  unfold XPhase at hph
  split at hph
  · exact hph.dirty
  · rw [hph.decided] at hp; simp at hp
  · exact early hph.early
  · obtain ⟨B, hph⟩ := hph; rw [hph.dirty, hdo]
  · exact early hph.1
  · obtain ⟨B, hph⟩ := hph; rw [hph.decided] at hd; simp at hd
  · rcases hph with ⟨hph, -⟩ | ⟨B, hph⟩ | ⟨B, b, hph⟩
    · exact early hph
    · rw [hph.dirty, hdo]
    · rw [hph.dirty, hd]

theorem state_step {fx : Fixed} {sf : Option Str} {o : List Str} {σ : Sys} {e : Event}
    (hd : dL f L c = false) (hp : dP f L c = false)
    (h1 : e.outside = false) (h2 : e.isStart = false) (h : XInv f L c sf o σ)
    (hs : σ.stateFile = sf ∧ Entry.storeFailed ∉ σ.log) :
    (step fx σ e).stateFile = sf ∧ Entry.storeFailed ∉ (step fx σ e).log := by
  cases e <;> simp only [Event.outside, Event.isStart, Bool.true_eq_false] at h1 h2
  case finish =>
    simp only [step, inPhase]
    split
    · rename_i r hr
      split
      · simp only [finishRun, dirty_none (h.run r hr) hd hp]; exact hs
      · exact hs
    · exact hs
  case crash =>
    simp only [step]
    split
    · rename_i r hr
      have hdi := dirty_none (h.run r hr) hd hp
      simp only [crashRun, hdi]
      split
      · exact hs
      · split
        · simp_all
        · exact hs
    · exact hs
  all_goals
    simp only [step, inPhase, Sys.put, lookAt, pchTask, objTask, linkTask, pchExec, execObj, addObj, linkExec]
    repeat' split
    all_goals first
      | exact hs
      | exact ⟨hs.1, by simpa [Sys.fail] using hs.2⟩

theorem state_steps {fx : Fixed} {sf : Option Str} {o : List Str}
    (hd : dL f L c = false) (hp : dP f L c = false) (evs : List Event) : ∀ {σ : Sys},
    (∀ e ∈ evs, e.outside = false ∧ e.isStart = false) → XInv f L c sf o σ →
    (σ.stateFile = sf ∧ Entry.storeFailed ∉ σ.log) →
    (steps fx σ evs).stateFile = sf ∧ Entry.storeFailed ∉ (steps fx σ evs).log := by
  induction evs with
  | nil => intro σ _ _ h; exact h
  | cons e l ih =>
    intro σ he h hs
    obtain ⟨h1, h2⟩ := he e List.mem_cons_self
    exact ih (fun e' h' => he e' (List.mem_cons_of_mem _ h')) (xinv_step h1 h2 h)
      (state_step hd hp h1 h2 h hs)

theorem QuietRun.unchanged {fx : Fixed} {σ₀ σ : Sys} {c : TargetSchema} {o : List Str}
    {mid : List Event} (h : QuietRun fx σ₀ c o mid σ) (hn : (paths c.sources).Nodup)
    {s : TargetSchema} (hl : loadTargetFile σ₀.stateFile = some s) (hc : AllCurrent σ₀.files s c) :
    σ.stateFile = σ₀.stateFile ∧ Entry.storeFailed ∉ σ.log := by
  rw [← h.result]
  obtain ⟨hi, h1, h2⟩ := hc.inputs
  refine state_steps (L := some s) (f := σ₀.files) (c := c) (o := o) ?_ ?_ mid h.quiet ?_ ?_
  · exact (dL_current hi hn h1 h2).2 hc
  · by_cases hp : c.pchs = []
    · simp [dP, hp]
    · exact (dP_current hp hi.headers (hi.pchs hp)).2 (hc.shared.pch hp)
  · rw [← hl]; exact xinv_start h.idle h.started
  · have hs := h.started
    revert hs
    simp only [step, startRun, h.idle]
    split
    · exact fun _ => ⟨rfl, by simp⟩
    · simp [h.idle]

end Verif.Target
