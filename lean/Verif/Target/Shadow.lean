import Verif.Target.Commute

/-!
# Builds among changes of other files

A build during which only files change that it does not read ends as if all these changes
had been made before it was started.
-/

namespace Verif.Target
open Verif Verif.Command Verif.Schema Verif.Json

def CfgIs (c : TargetSchema) (σ : Sys) : Prop := ∀ r, σ.run = some r → r.cfg = c

theorem cfgIs_step {fx : Fixed} {c : TargetSchema} {σ : Sys} {e : Event} (h : CfgIs c σ)
    (h1 : e.isStart = false) : CfgIs c (step fx σ e) := by
  by_cases hi : e.inner = true
  · intro r hr
    have := (step_frame fx σ e hi).2.2.2.2
    rw [hr] at this
    obtain ⟨r0, hr0, e0⟩ := Option.map_eq_some_iff.1 this.symm
    exact e0.symm.trans (h r0 hr0)
  · have gone : ∀ {σ' : Sys}, σ'.run = none → CfgIs c σ' := by
      intro σ' h1 r hr; rw [h1] at hr; simp at hr
    cases e <;> simp only [Event.inner, not_true_eq_false, Event.isStart, Bool.true_eq_false] at hi h1
    · simp only [step]
      split <;> exact fun r hr => h r hr
    · simp only [step, inPhase]
      split
      · split
        · simp only [finishRun]
          repeat' split
          all_goals exact gone rfl
        · exact h
      · exact h
    · simp only [step]
      split
      · simp only [crashRun]
        repeat' split
        all_goals exact gone rfl
      · exact h

theorem otherFails_withFiles {fx : Fixed} {f : Str → Option Nat} {u : Str → List Nat} {b : Bool}
    {s : Str → List (Option Nat)} {v : Str → Option Nat} : ∀ (mid : List Event) (σ : Sys),
    (∀ e ∈ mid, e = .otherFail) →
    steps fx (σ.withFiles f u b s v) mid = (steps fx σ mid).withFiles f u b s v ∧
      (steps fx σ mid).seen = σ.seen ∧ (steps fx σ mid).view = σ.view := by
  intro mid
  induction mid with
  | nil => intros; exact ⟨rfl, rfl, rfl⟩
  | cons e l ih =>
    intro σ h
    have he := h e (by simp)
    subst he
    obtain ⟨h1, h2, h3⟩ := ih (step fx σ .otherFail) fun x hx => h x (by simp [hx])
    simp only [steps, List.foldl_cons, otherFail_withFiles]
    refine ⟨h1, h2.trans ?_, h3.trans ?_⟩ <;> (simp only [step]; split <;> rfl)

theorem steps_withFiles {fx : Fixed} {c : TargetSchema} {f : Str → Option Nat} {u : Str → List Nat}
    {b : Bool} : ∀ (mid : List Event) (σ : Sys) (s : Str → List (Option Nat)) (v : Str → Option Nat),
    RunPaths σ → CfgIs c σ → (∀ e ∈ mid, e.outside = false ∧ e.isStart = false) →
    (∀ p ∈ inputPaths c, f p = σ.files p ∧ s p = σ.seen p ∧ v p = σ.view p) →
    ∃ s' v', steps fx (σ.withFiles f u b s v) mid = (steps fx σ mid).withFiles f u b s' v' ∧
      ∀ p ∈ inputPaths c, s' p = (steps fx σ mid).seen p ∧ v' p = (steps fx σ mid).view p := by
  intro mid
  induction mid with
  | nil => intro σ s v _ _ _ h; exact ⟨s, v, rfl, fun p hp => (h p hp).2⟩
  | cons e l ih =>
    intro σ s v hp hc hq hf
    obtain ⟨h1, h2⟩ := hq e (by simp)
    have hfr : (step fx σ e).files = σ.files := by
      revert h1 h2
      cases e <;> simp only [Event.outside, Event.isStart, Bool.true_eq_false, false_imp_iff,
        imp_false, forall_const]
      all_goals simp only [step, inPhase, Sys.put, lookAt, pchTask, pchExec, objTask, execObj, addObj, linkTask,
        linkExec, finishRun, crashRun, not_true_eq_false, false_imp_iff]
      all_goals repeat' split
      all_goals rfl
    obtain ⟨s', v', h3, h4⟩ := step_withFiles (u := u) (b := b) (fx := fx) h1 h2 hp
      (fun r hr => by rw [hc r hr]) hf
    simp only [steps, List.foldl_cons, h3]
    refine ih (step fx σ e) s' v' (runPaths_step hp e) (cfgIs_step hc h2) (fun x hx => hq x (by simp [hx]))
      fun p hp => ⟨by rw [hfr]; exact (hf p hp).1, h4 p hp⟩

theorem steps_files {fx : Fixed} : ∀ (mid : List Event) (σ : Sys),
    (∀ e ∈ mid, e.outside = false ∧ e.isStart = false) →
    (steps fx σ mid).files = σ.files ∧ (steps fx σ mid).used = σ.used := by
  intro mid
  induction mid with
  | nil => intros; exact ⟨rfl, rfl⟩
  | cons e l ih =>
    intro σ hq
    obtain ⟨h1, h2⟩ := hq e (by simp)
    have hfr : (step fx σ e).files = σ.files ∧ (step fx σ e).used = σ.used := by
      revert h1 h2
      cases e <;> simp only [Event.outside, Event.isStart, Bool.true_eq_false, false_imp_iff,
        imp_false, forall_const]
      all_goals simp only [step, inPhase, Sys.put, lookAt, pchTask, pchExec, objTask, execObj, addObj, linkTask,
        linkExec, finishRun, crashRun, not_true_eq_false, false_imp_iff]
      all_goals repeat' split
      all_goals exact ⟨rfl, rfl⟩
    obtain ⟨h3, h4⟩ := ih (step fx σ e) fun x hx => hq x (by simp [hx])
    exact ⟨h3.trans hfr.1, h4.trans hfr.2⟩

/-- The state, apart from `fresh`, is reached by a build of `c` during which nothing
changed from outside.  As long as its tasks have not begun nothing but failures elsewhere
happened. -/
def Shadow (fx : Fixed) (c : TargetSchema) (o : List Str) (begun : Bool) (σ : Sys) : Prop :=
  ∃ σ₁ mid s v, σ₁.run = none ∧ SysInv fx σ₁ ∧ StartOk fx σ₁ c ∧
    (step fx σ₁ (.start c o)).run.isSome = true ∧
    (∀ e ∈ mid, e.outside = false ∧ e.isStart = false) ∧
    (begun = false → (∀ e ∈ mid, e = .otherFail) ∧ s = σ.seen ∧ v = σ.view) ∧
    (∀ p ∈ inputPaths c, s p = σ.seen p ∧ v p = σ.view p) ∧
    steps fx (step fx σ₁ (.start c o)) mid = σ.withFiles σ.files σ.used true s v

theorem start_cfgIs {fx : Fixed} {σ : Sys} {c : TargetSchema} {o : List Str} (hi : σ.run = none) :
    CfgIs c (step fx σ (.start c o)) ∧ RunPaths (step fx σ (.start c o)) := by
  refine ⟨?_, runPaths_step (by intro r hr; rw [hi] at hr; simp at hr) _⟩
  simp only [step, startRun, hi]
  split
  · intro r hr
    simp only [Option.some.injEq] at hr
    rw [← hr]
  · intro r hr; simp only [hi] at hr; simp at hr

theorem runPaths_steps {fx : Fixed} : ∀ (mid : List Event) (σ : Sys), RunPaths σ →
    RunPaths (steps fx σ mid) := by
  intro mid
  induction mid with
  | nil => intro σ h; exact h
  | cons e l ih => intro σ h; exact ih _ (runPaths_step h e)

theorem cfgIs_steps {fx : Fixed} {c : TargetSchema} : ∀ (mid : List Event) (σ : Sys), CfgIs c σ →
    (∀ e ∈ mid, e.isStart = false) → CfgIs c (steps fx σ mid) := by
  intro mid
  induction mid with
  | nil => intro σ h _; exact h
  | cons e l ih =>
    intro σ h he
    exact ih _ (cfgIs_step h (he e (by simp))) fun x hx => he x (by simp [hx])

theorem Shadow.start {fx : Fixed} {σ : Sys} {c : TargetSchema} {o : List Str} (hr : σ.run = none)
    (hi : SysInv fx σ) (hs : StartOk fx σ c) (hst : (step fx σ (.start c o)).run.isSome = true) :
    Shadow fx c o false (step fx σ (.start c o)) := by
  refine ⟨σ, [], _, _, hr, hi, hs, hst, by simp, fun _ => ⟨by simp, rfl, rfl⟩, fun _ _ => ⟨rfl, rfl⟩, ?_⟩
  have := start_fresh hr hst
  generalize step fx σ (.start c o) = τ at this
  simp only [steps, List.foldl_nil, Sys.withFiles]
  rw [← this]

theorem Shadow.begin {fx : Fixed} {σ : Sys} {c : TargetSchema} {o : List Str} {b : Bool}
    (h : Shadow fx c o b σ) : Shadow fx c o true σ := by
  obtain ⟨σ₁, mid, s, v, h1, h2, h3, h4, h5, h6, h7⟩ := h
  exact ⟨σ₁, mid, s, v, h1, h2, h3, h4, h5, by simp, h7⟩

theorem Shadow.task {fx : Fixed} {σ : Sys} {c : TargetSchema} {o : List Str} {b : Bool} {e : Event}
    (h : Shadow fx c o b σ) (h1 : e.outside = false) (h2 : e.isStart = false)
    (h3 : b = true ∨ e = .otherFail) : Shadow fx c o b (step fx σ e) := by
  obtain ⟨σ₁, mid, s, v, g1, g2, g3, g4, g5, g6, g8, g7⟩ := h
  obtain ⟨hc, hp⟩ := start_cfgIs (fx := fx) (c := c) (o := o) g1
  have hp2 : RunPaths σ := by
    have := runPaths_steps (fx := fx) mid _ hp
    rw [g7] at this
    exact this
  have hc2 : CfgIs c σ := by
    have := cfgIs_steps (fx := fx) mid _ hc fun e he => (g5 e he).2
    rw [g7] at this
    exact this
  have hfr := steps_files (fx := fx) [e] σ (by simpa using ⟨h1, h2⟩)
  simp only [steps, List.foldl_cons, List.foldl_nil] at hfr
  have hmid : ∀ x ∈ mid ++ [e], x.outside = false ∧ x.isStart = false := by
    intro x hx
    rcases List.mem_append.1 hx with hx | hx
    · exact g5 x hx
    · simp only [List.mem_singleton] at hx; rw [hx]; exact ⟨h1, h2⟩
  cases b with
  | true =>
    obtain ⟨s', v', k1, k2⟩ := step_withFiles (fx := fx) (u := σ.used) (b := true) (f := σ.files) h1 h2 hp2
      (fun r hr => by rw [hc2 r hr]) fun p hp => ⟨rfl, g8 p hp⟩
    refine ⟨σ₁, mid ++ [e], s', v', g1, g2, g3, g4, hmid, by simp, k2, ?_⟩
    rw [steps_append, g7]
    simp only [steps, List.foldl_cons, List.foldl_nil]
    rw [k1, hfr.1, hfr.2]
  | false =>
    have he := h3.resolve_left (by simp)
    subst he
    obtain ⟨k1, k2, k3⟩ := g6 rfl
    have hsv : (step fx σ .otherFail).seen = σ.seen ∧ (step fx σ .otherFail).view = σ.view := by
      simp only [step]; split <;> exact ⟨rfl, rfl⟩
    refine ⟨σ₁, mid ++ [.otherFail], s, v, g1, g2, g3, g4, hmid, ?_, ?_, ?_⟩
    · intro _
      refine ⟨fun x hx => ?_, by rw [hsv.1]; exact k2, by rw [hsv.2]; exact k3⟩
      rcases List.mem_append.1 hx with hx | hx
      · exact k1 x hx
      · simpa using hx
    · rw [hsv.1, hsv.2]; exact g8
    · rw [steps_append, g7]
      simp only [steps, List.foldl_cons, List.foldl_nil]
      rw [otherFail_withFiles, hfr.1, hfr.2]

/-- Changes of other files, and changes before the tasks begin, can be moved before the
start. -/
theorem Shadow.write {fx : Fixed} {σ : Sys} {c : TargetSchema} {o : List Str} {b : Bool} {e : Event}
    {p : Str} (hlc : CompileLocal fx) (hlp : PchLocal fx)
    (h : Shadow fx c o b σ) (he : (∃ t, e = .edit p t ∧ t ∉ σ.used p) ∨ e = .delete p)
    (hp : b = false ∨ p ∉ inputPaths c) : Shadow fx c o b (step fx σ e) := by
  obtain ⟨σ₁, mid, s, v, g1, g2, g3, g4, g5, g6, g8, g7⟩ := h
  obtain ⟨hc, hrp⟩ := start_cfgIs (fx := fx) (c := c) (o := o) g1
  have hst : (step fx σ₁ (.start c o)).files = σ₁.files ∧ (step fx σ₁ (.start c o)).used = σ₁.used ∧
      (step fx σ₁ (.start c o)).seen = σ₁.seen ∧ (step fx σ₁ (.start c o)).view = σ₁.view := by
    simp only [step, startRun, g1]
    split <;> exact ⟨rfl, rfl, rfl, rfl⟩
  have hfiles : σ₁.files = σ.files ∧ σ₁.used = σ.used := by
    have h1 := steps_files (fx := fx) mid (step fx σ₁ (.start c o)) g5
    rw [g7] at h1
    exact ⟨hst.1.symm.trans h1.1.symm, hst.2.1.symm.trans h1.2.symm⟩
  have hall : Allowed fx σ₁ e := by
    rcases he with ⟨t, rfl, ht⟩ | rfl
    · refine ⟨by rw [hfiles.2]; exact ht, fun r hr => ?_⟩
      rw [g1] at hr; simp at hr
    · trivial
  -- the change as a change of the files
  have key : ∃ (x : Option Nat) (u : Str → List Nat), ∀ τ : Sys, τ.files = σ.files → τ.used = σ.used →
      ∃ b', step fx τ e = τ.withFiles (upd σ.files p x) u b' (upd τ.seen p (x :: τ.seen p))
        (upd τ.view p x) := by
    rcases he with ⟨t, rfl, ht⟩ | rfl
    · refine ⟨some t, upd σ.used p (t :: σ.used p), fun τ h1 h2 => ⟨false, ?_⟩⟩
      simp only [step, Sys.put, h2, h1, Sys.withFiles]
    · refine ⟨none, σ.used, fun τ h1 h2 => ⟨false, ?_⟩⟩
      simp only [step, Sys.put, h1, Sys.withFiles, h2]
  obtain ⟨x, u, key⟩ := key
  obtain ⟨b1, k1⟩ := key σ₁ hfiles.1 hfiles.2
  obtain ⟨b2, k2⟩ := key σ rfl rfl
  have hi := inv_step hlc hlp g2 e hall
  rw [k1] at hi
  have hso : StartOk fx (σ₁.withFiles (upd σ.files p x) u b1 (upd σ₁.seen p (x :: σ₁.seen p))
      (upd σ₁.view p x)) c :=
    ⟨g3.nodup, g3.inj, g3.injStored, g3.keepPch, g3.keepObj, g3.keepLink, g3.pchKept, g3.pchLang⟩
  have hrun : (step fx (σ₁.withFiles (upd σ.files p x) u b1 (upd σ₁.seen p (x :: σ₁.seen p))
      (upd σ₁.view p x)) (.start c o)).run.isSome = true := by
    rw [start_withFiles g4 g1]; exact g4
  cases b with
  | false =>
    obtain ⟨k3, k4, k5⟩ := g6 rfl
    obtain ⟨m1, m2, m3⟩ := otherFails_withFiles (fx := fx) (f := upd σ.files p x) (u := u) (b := true)
      (s := upd σ₁.seen p (x :: σ₁.seen p)) (v := upd σ₁.view p x) mid (step fx σ₁ (.start c o)) k3
    have e1 : σ₁.seen = σ.seen := by
      rw [g7, hst.2.2.1] at m2
      exact m2.symm.trans k4
    have e2 : σ₁.view = σ.view := by
      rw [g7, hst.2.2.2] at m3
      exact m3.symm.trans k5
    refine ⟨σ₁.withFiles (upd σ.files p x) u b1 (upd σ₁.seen p (x :: σ₁.seen p)) (upd σ₁.view p x),
      mid, upd σ₁.seen p (x :: σ₁.seen p), upd σ₁.view p x, g1, hi, hso, hrun, g5,
      fun _ => ⟨k3, ?_, ?_⟩, fun q _ => ⟨?_, ?_⟩, ?_⟩
    · rw [k2, e1]; rfl
    · rw [k2, e2]; rfl
    · rw [k2, e1]; rfl
    · rw [k2, e2]; rfl
    · rw [start_withFiles g4 g1, m1, g7, k2]; rfl
  | true =>
    have hp := hp.resolve_left (by simp)
    have hne : ∀ q ∈ inputPaths c, q ≠ p := fun q hq e' => by subst e'; exact hp hq
    obtain ⟨s', v', m1, m2⟩ := steps_withFiles (fx := fx) (c := c) (f := upd σ.files p x) (u := u) (b := true)
      mid (step fx σ₁ (.start c o)) (upd σ₁.seen p (x :: σ₁.seen p)) (upd σ₁.view p x) hrp hc g5 (by
        intro q hq
        simp only [upd, if_neg (hne q hq), hst.1, hst.2.2.1, hst.2.2.2, hfiles.1, and_self])
    refine ⟨σ₁.withFiles (upd σ.files p x) u b1 (upd σ₁.seen p (x :: σ₁.seen p)) (upd σ₁.view p x),
      mid, s', v', g1, hi, hso, hrun, g5, by simp, fun q hq => ?_, ?_⟩
    · have m3 := m2 q hq
      rw [g7] at m3
      have m4 := g8 q hq
      rw [k2]
      simp only [Sys.withFiles, upd, if_neg (hne q hq)] at m3 ⊢
      exact ⟨m3.1.trans m4.1, m3.2.trans m4.2⟩
    · rw [start_withFiles g4 g1, m1, g7, k2]; rfl

theorem Shadow.clean {fx : Fixed} {σ : Sys} {c : TargetSchema} {o : List Str} {b : Bool}
    (hlc : CompileLocal fx) (hlp : PchLocal fx) (h : Shadow fx c o b σ) {d : Done}
    (hd : σ.done = some d) (hok : d.ok = true) : Clean fx σ d.cfg := by
  obtain ⟨σ₁, mid, s, v, g1, g2, g3, g4, g5, g6, g8, g7⟩ := h
  obtain ⟨hq1, hq2⟩ := quiet_steps fx mid (step fx σ₁ (.start c o)) g5
  have h1 : SysInv fx (step fx σ₁ (.start c o)) := inv_start g2 c o fun _ => g3
  have h2 := inv_steps hlc hlp mid h1 hq2
  rw [g7] at h2
  have := (h2.done d hd hok rfl).1
  exact ⟨this.pch, this.obj, this.bin⟩

/-- `Clean` looks at the declared inputs only. -/
theorem Clean.congr {fx : Fixed} {σ σ' : Sys} {c : TargetSchema} (h : Clean fx σ c)
    (h1 : σ'.objs = σ.objs) (h2 : σ'.pch = σ.pch) (h3 : σ'.bin = σ.bin)
    (hf : ∀ p ∈ inputPaths c, σ'.files p = σ.files p) : Clean fx σ' c := by
  have v : ∀ l : List PathInfo, (∀ p ∈ paths l, p ∈ inputPaths c) →
      versions σ'.files l = versions σ.files l := by
    intro l hl
    simp only [versions]
    refine List.map_congr_left fun i hi => ?_
    rw [version, version, hf i.path (hl _ (mem_paths.2 ⟨i, hi, rfl⟩))]
  have vh := v c.headers (by intro p hp; simp [inputPaths, hp])
  have vp := v c.pchs (by intro p hp; simp [inputPaths, hp])
  have vl := v c.libs (by intro p hp; simp [inputPaths, hp])
  have vd := v c.compileDeps (by intro p hp; simp [inputPaths, hp])
  have vk := v c.linkDeps (by intro p hp; simp [inputPaths, hp])
  have hp : cleanPch fx σ'.files c = cleanPch fx σ.files c := by
    simp only [cleanPch, vp, vh]
  have hq : cleanPch? fx σ'.files c = cleanPch? fx σ.files c := by
    simp only [cleanPch?, hp]
  have ho : ∀ p ∈ paths c.sources, cleanObj fx σ'.files c p = cleanObj fx σ.files c p := by
    intro p hp
    simp only [cleanObj, vh, vd, hq]
    rw [version, version, hf p (by simp [inputPaths, hp])]
  refine ⟨fun hn => ?_, fun p hp => ?_, ?_⟩
  · rw [h2, hp]; exact h.pch hn
  · rw [h1, ho p hp]; exact h.obj p hp
  · obtain ⟨order, g1, g2⟩ := h.bin
    refine ⟨order, g1, ?_⟩
    rw [h3, g2]
    have : order.map (fun s => some (cleanObj fx σ'.files c s))
        = order.map fun s => some (cleanObj fx σ.files c s) :=
      List.map_congr_left fun s hs => by rw [ho s (g1.mem_iff.1 hs)]
    simp only [cleanBin, vl, vk, hq, this]

end Verif.Target
