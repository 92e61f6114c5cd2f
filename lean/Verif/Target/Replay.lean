import Verif.Target.Shadow
import Verif.Target.ExactProps
import Verif.Target.Progress

/-!
# Builds among changes of other files, with what they start from

As `Shadow`, for targets with any templates and any history.
-/

namespace Verif.Target
open Verif Verif.Command Verif.Schema Verif.Json

/-- What is stored: the state file and the artifacts. -/
structure SameStore (σ κ : Sys) : Prop where
  state : σ.stateFile = κ.stateFile
  objs : σ.objs = κ.objs
  pch : σ.pch = κ.pch
  bin : σ.bin = κ.bin

/-- The event is one of a build that is not killed, or a failure elsewhere. -/
def Event.own : Event → Bool
  | .look _ _ | .otherFail => true
  | e => e.progress

theorem Event.own_quiet {e : Event} (h : e.own = true) : e.outside = false ∧ e.isStart = false := by
  cases e <;> simp only [Event.own, Event.progress, Bool.false_eq_true] at h <;> exact ⟨rfl, rfl⟩

/-- The state, apart from `fresh`, is reached by a build of `c` that starts with what is stored
in `κ`, and during which nothing changed from outside.  As long as its tasks have not begun
nothing but failures elsewhere happened. -/
def Replay (fx : Fixed) (κ : Sys) (c : TargetSchema) (o : List Str) (begun : Bool) (σ : Sys) : Prop :=
  ∃ σ₁ mid s v, σ₁.run = none ∧ SameStore σ₁ κ ∧
    (step fx σ₁ (.start c o)).run.isSome = true ∧
    (∀ e ∈ mid, e.own = true) ∧
    (begun = false → (∀ e ∈ mid, e = .otherFail) ∧ s = σ.seen ∧ v = σ.view) ∧
    (∀ p ∈ inputPaths c, s p = σ.seen p ∧ v p = σ.view p) ∧
    steps fx (step fx σ₁ (.start c o)) mid = σ.withFiles σ.files σ.used true s v

theorem Replay.start {fx : Fixed} {σ : Sys} {c : TargetSchema} {o : List Str} (hr : σ.run = none)
    (hst : (step fx σ (.start c o)).run.isSome = true) :
    Replay fx σ c o false (step fx σ (.start c o)) := by
  refine ⟨σ, [], _, _, hr, ⟨rfl, rfl, rfl, rfl⟩, hst, by simp, fun _ => ⟨by simp, rfl, rfl⟩,
    fun _ _ => ⟨rfl, rfl⟩, ?_⟩
  have := start_fresh hr hst
  generalize step fx σ (.start c o) = τ at this
  simp only [steps, List.foldl_nil, Sys.withFiles]
  rw [← this]

theorem Replay.begin {fx : Fixed} {κ σ : Sys} {c : TargetSchema} {o : List Str} {b : Bool}
    (h : Replay fx κ c o b σ) : Replay fx κ c o true σ := by
  obtain ⟨σ₁, mid, s, v, h1, h2, h3, h4, -, h6, h7⟩ := h
  exact ⟨σ₁, mid, s, v, h1, h2, h3, h4, by simp, h6, h7⟩

theorem Replay.cfgIs {fx : Fixed} {κ σ : Sys} {c : TargetSchema} {o : List Str} {b : Bool}
    (h : Replay fx κ c o b σ) : CfgIs c σ ∧ RunPaths σ := by
  obtain ⟨σ₁, mid, s, v, h1, -, -, h4, -, -, h7⟩ := h
  obtain ⟨hc, hp⟩ := start_cfgIs (fx := fx) (c := c) (o := o) h1
  have k1 := cfgIs_steps (fx := fx) mid _ hc fun e he => (Event.own_quiet (h4 e he)).2
  have k2 := runPaths_steps (fx := fx) mid _ hp
  rw [h7] at k1 k2
  exact ⟨k1, k2⟩

theorem Replay.task {fx : Fixed} {κ σ : Sys} {c : TargetSchema} {o : List Str} {b : Bool} {e : Event}
    (h : Replay fx κ c o b σ) (h0 : e.own = true)
    (h3 : b = true ∨ e = .otherFail) : Replay fx κ c o b (step fx σ e) := by
  obtain ⟨hc2, hp2⟩ := h.cfgIs
  obtain ⟨h1, h2⟩ := Event.own_quiet h0
  obtain ⟨σ₁, mid, s, v, g1, g2, g4, g5, g6, g8, g7⟩ := h
  have hfr := steps_files (fx := fx) [e] σ (by simpa using ⟨h1, h2⟩)
  simp only [steps, List.foldl_cons, List.foldl_nil] at hfr
  have hmid : ∀ x ∈ mid ++ [e], x.own = true := by
    intro x hx
    rcases List.mem_append.1 hx with hx | hx
    · exact g5 x hx
    · simp only [List.mem_singleton] at hx; rw [hx]; exact h0
  cases b with
  | true =>
    obtain ⟨s', v', k1, k2⟩ := step_withFiles (fx := fx) (u := σ.used) (b := true) (f := σ.files) h1 h2 hp2
      (fun r hr => by rw [hc2 r hr]) fun p hp => ⟨rfl, g8 p hp⟩
    refine ⟨σ₁, mid ++ [e], s', v', g1, g2, g4, hmid, by simp, k2, ?_⟩
    rw [steps_append, g7]
    simp only [steps, List.foldl_cons, List.foldl_nil]
    rw [k1, hfr.1, hfr.2]
  | false =>
    have he := h3.resolve_left (by simp)
    subst he
    obtain ⟨k1, k2, k3⟩ := g6 rfl
    have hsv : (step fx σ .otherFail).seen = σ.seen ∧ (step fx σ .otherFail).view = σ.view := by
      simp only [step]; split <;> exact ⟨rfl, rfl⟩
    refine ⟨σ₁, mid ++ [.otherFail], s, v, g1, g2, g4, hmid, ?_, ?_, ?_⟩
    · intro _
      refine ⟨fun x hx => ?_, by rw [hsv.1]; exact k2, by rw [hsv.2]; exact k3⟩
      rcases List.mem_append.1 hx with hx | hx
      · exact k1 x hx
      · simpa using hx
    · rw [hsv.1, hsv.2]; exact g8
    · rw [steps_append, g7]
      simp only [steps, List.foldl_cons, List.foldl_nil]
      rw [otherFail_withFiles, hfr.1, hfr.2]

/-- Changes of other files, and changes before the tasks begin, can be moved before the
start. -/
theorem Replay.write {fx : Fixed} {κ σ : Sys} {c : TargetSchema} {o : List Str} {b : Bool} {e : Event}
    {p : Str} (h : Replay fx κ c o b σ) (he : (∃ t, e = .edit p t) ∨ e = .delete p)
    (hp : b = false ∨ p ∉ inputPaths c) : Replay fx κ c o b (step fx σ e) := by
  obtain ⟨σ₁, mid, s, v, g1, g2, g4, g5, g6, g8, g7⟩ := h
  obtain ⟨hc, hrp⟩ := start_cfgIs (fx := fx) (c := c) (o := o) g1
  have g5' := fun e he => Event.own_quiet (g5 e he)
  have hst : (step fx σ₁ (.start c o)).files = σ₁.files ∧ (step fx σ₁ (.start c o)).used = σ₁.used ∧
      (step fx σ₁ (.start c o)).seen = σ₁.seen ∧ (step fx σ₁ (.start c o)).view = σ₁.view := by
    simp only [step, startRun, g1]
    split <;> exact ⟨rfl, rfl, rfl, rfl⟩
  have hfiles : σ₁.files = σ.files ∧ σ₁.used = σ.used := by
    have h1 := steps_files (fx := fx) mid (step fx σ₁ (.start c o)) g5'
    rw [g7] at h1
    exact ⟨hst.1.symm.trans h1.1.symm, hst.2.1.symm.trans h1.2.symm⟩
  have key : ∃ (x : Option Nat) (u : Str → List Nat) (b' : Bool),
      step fx σ e = σ.withFiles (upd σ.files p x) u b' (upd σ.seen p (x :: σ.seen p)) (upd σ.view p x) := by
    rcases he with ⟨t, rfl⟩ | rfl
    · exact ⟨some t, upd σ.used p (t :: σ.used p), false, rfl⟩
    · exact ⟨none, σ.used, false, rfl⟩
  obtain ⟨x, u, b1, k2⟩ := key
  have hrun : (step fx (σ₁.withFiles (upd σ.files p x) u b1 (upd σ₁.seen p (x :: σ₁.seen p))
      (upd σ₁.view p x)) (.start c o)).run.isSome = true := by
    rw [start_withFiles g4 g1]; exact g4
  cases b with
  | false =>
    obtain ⟨k3, k4, k5⟩ := g6 rfl
    obtain ⟨m1, m2, m3⟩ := otherFails_withFiles (fx := fx) (f := upd σ.files p x) (u := u) (b := true)
      (s := upd σ₁.seen p (x :: σ₁.seen p)) (v := upd σ₁.view p x) mid (step fx σ₁ (.start c o)) k3
    have e1 : σ₁.seen = σ.seen := by
      rw [g7, hst.2.2.1] at m2
      exact m2.symm.trans k4
    have e2 : σ₁.view = σ.view := by
      rw [g7, hst.2.2.2] at m3
      exact m3.symm.trans k5
    refine ⟨σ₁.withFiles (upd σ.files p x) u b1 (upd σ₁.seen p (x :: σ₁.seen p)) (upd σ₁.view p x),
      mid, upd σ₁.seen p (x :: σ₁.seen p), upd σ₁.view p x, g1,
      ⟨g2.state, g2.objs, g2.pch, g2.bin⟩, hrun, g5,
      fun _ => ⟨k3, ?_, ?_⟩, fun q _ => ⟨?_, ?_⟩, ?_⟩
    · rw [k2, e1]; rfl
    · rw [k2, e2]; rfl
    · rw [k2, e1]; rfl
    · rw [k2, e2]; rfl
    · rw [start_withFiles g4 g1, m1, g7, k2]; rfl
  | true =>
    have hp := hp.resolve_left (by simp)
    have hne : ∀ q ∈ inputPaths c, q ≠ p := fun q hq e' => by subst e'; exact hp hq
    obtain ⟨s', v', m1, m2⟩ := steps_withFiles (fx := fx) (c := c) (f := upd σ.files p x) (u := u) (b := true)
      mid (step fx σ₁ (.start c o)) (upd σ₁.seen p (x :: σ₁.seen p)) (upd σ₁.view p x) hrp hc g5' (by
        intro q hq
        simp only [upd, if_neg (hne q hq), hst.1, hst.2.2.1, hst.2.2.2, hfiles.1, and_self])
    refine ⟨σ₁.withFiles (upd σ.files p x) u b1 (upd σ₁.seen p (x :: σ₁.seen p)) (upd σ₁.view p x),
      mid, s', v', g1, ⟨g2.state, g2.objs, g2.pch, g2.bin⟩, hrun, g5, by simp, fun q hq => ?_, ?_⟩
    · have m3 := m2 q hq
      rw [g7] at m3
      have m4 := g8 q hq
      rw [k2]
      simp only [Sys.withFiles, upd, if_neg (hne q hq)] at m3 ⊢
      exact ⟨m3.1.trans m4.1, m3.2.trans m4.2⟩
    · rw [start_withFiles g4 g1, m1, g7, k2]; rfl

/-- The quiet run behind a replay. -/
theorem Replay.quietRun {fx : Fixed} {κ σ : Sys} {c : TargetSchema} {o : List Str} {b : Bool}
    (h : Replay fx κ c o b σ) : ∃ σ₁ mid s v, SameStore σ₁ κ ∧ σ₁.files = σ.files ∧
      QuietRun fx σ₁ c o mid (σ.withFiles σ.files σ.used true s v) := by
  obtain ⟨σ₁, mid, s, v, g1, g2, g4, g5, g6, g8, g7⟩ := h
  have g5' := fun e he => Event.own_quiet (g5 e he)
  refine ⟨σ₁, mid, s, v, g2, ?_, g1, g4, g5', g7⟩
  have h1 := steps_files (fx := fx) mid (step fx σ₁ (.start c o)) g5'
  rw [g7] at h1
  have hst : (step fx σ₁ (.start c o)).files = σ₁.files := by
    simp only [step, startRun, g1]
    split <;> rfl
  exact hst.symm.trans h1.1.symm

theorem own_done {fx : Fixed} : ∀ (mid : List Event) (σ : Sys), (∀ e ∈ mid, e.own = true) →
    (σ.run = none → σ.done.isSome = true) →
    (steps fx σ mid).run = none → (steps fx σ mid).done.isSome = true := by
  intro mid
  induction mid with
  | nil => intro σ _ h; exact h
  | cons e l ih =>
    intro σ he h
    refine ih (step fx σ e) (fun x hx => he x (by simp [hx])) fun hr => ?_
    have ho := he e (by simp)
    by_cases hp : e.progress = true
    · cases hrun : σ.run with
      | none =>
        have : step fx σ e = σ := by
          cases e <;> simp only [Event.progress, Bool.false_eq_true] at hp <;>
            simp [step, inPhase, hrun]
        rw [this]; exact h hrun
      | some r => exact ends_done fx σ e hp (by rw [hrun]; rfl) hr
    · revert hr
      cases e <;> simp only [Event.own, Event.progress, not_true_eq_false, Bool.false_eq_true] at ho hp
      · simp only [step]
        split <;> exact h
      · simp only [step, lookAt]
        split <;> exact h

/-- After a build that ended without a failure everything is recorded in its present version. -/
theorem Replay.current {fx : Fixed} {κ σ : Sys} {c : TargetSchema} {o : List Str} {b : Bool}
    (h : Replay fx κ c o b σ) (hn : (paths c.sources).Nodup) (hr : σ.run = none) (hok : σ.ok = true) :
    ∃ s, loadTargetFile σ.stateFile = some s ∧ AllCurrent σ.files s c := by
  obtain ⟨σ₁, mid, s, v, g1, g2, g4, g5, g6, g8, g7⟩ := h
  have g5' := fun e he => Event.own_quiet (g5 e he)
  have hq : QuietRun fx σ₁ c o mid (σ.withFiles σ.files σ.used true s v) := ⟨g1, g4, g5', g7⟩
  have hd := own_done (fx := fx) mid _ g5 (fun h => by rw [h] at g4; simp at g4)
    (by rw [g7]; exact hr)
  rw [g7] at hd
  obtain ⟨d, hd⟩ := Option.isSome_iff_exists.1 hd
  have hdok : d.ok = true := (hq.inv.log.done d hd).trans hok
  have hr := hq.report hn hd
  obtain ⟨B, -, -, -, -, -, -, -, x, h1, h2, -⟩ := hr.ok hdok
  refine ⟨x, h1, ?_⟩
  have := hr.files
  rw [← this] at h2
  exact h2

/-- What a build can do when everything was recorded in some version of the files. -/
theorem Replay.needed {fx : Fixed} {κ σ : Sys} {c : TargetSchema} {o : List Str} {b : Bool}
    (h : Replay fx κ c o b σ) (hn : (paths c.sources).Nodup) {f : Str → Option Nat} {s : TargetSchema}
    (hl : loadTargetFile κ.stateFile = some s) (hc : AllCurrent f s c) :
    (∀ b, Entry.pch b ∈ σ.log → ∃ p ∈ paths c.headers ++ paths c.pchs, σ.files p ≠ f p) ∧
    (∀ p b, Entry.obj p b ∈ σ.log → ∃ q ∈ p :: (paths c.headers ++ paths c.pchs ++ paths c.compileDeps),
      σ.files q ≠ f q) ∧
    (∀ b, Entry.link b ∈ σ.log → ∃ p ∈ tracked c, σ.files p ≠ f p) := by
  obtain ⟨σ₁, mid, s', v', h1, h2, h3⟩ := h.quietRun
  have hs := h3.sofar hn
  rw [h1.state, hl, h2] at hs
  have hsame : ∀ l : List Str, (¬ ∃ p ∈ l, σ.files p ≠ f p) → ∀ p ∈ l, σ.files p = f p := by
    intro l hl p hp
    exact Classical.byContradiction fun hne => hl ⟨p, hp, hne⟩
  have hlog : ∀ {e : Entry}, e ∈ σ.log → e.isCommand = true →
      e ∈ commands (σ.withFiles σ.files σ.used true s' v').log := by
    intro e he hc
    simp only [commands, List.mem_filter]
    exact ⟨he, hc⟩
  refine ⟨fun b hb => ?_, fun p b hb => ?_, fun b hb => ?_⟩
  · refine Classical.byContradiction fun hne => ?_
    have hf := hsame _ hne
    obtain ⟨hp, hnc⟩ := hs.pch b (hlog hb rfl)
    exact hnc s rfl ((hc.shared.pch hp).congr (fun p hp => hf p (List.mem_append_left _ hp))
      (fun p hp => hf p (List.mem_append_right _ hp)))
  · refine Classical.byContradiction fun hne => ?_
    have hf := hsame _ hne
    have hm : p ∈ compiledSources (commands (σ.withFiles σ.files σ.used true s' v').log) :=
      List.mem_filterMap.2 ⟨_, hlog hb rfl, rfl⟩
    obtain ⟨hp, hnc⟩ := hs.obj p hm
    exact hnc s rfl ⟨hc.shared.congr (fun q hq => hf q (by simp [hq])) (fun q hq => hf q (by simp [hq]))
      (fun q hq => hf q (by simp [hq])), (hc.sources p hp).congr (hf p (by simp))⟩
  · refine Classical.byContradiction fun hne => ?_
    have hf := hsame _ hne
    exact (hs.link b (hlog hb rfl)).1 s rfl (hc.congr hf)

/-- A build of a configuration that is up to date. -/
theorem Replay.null {fx : Fixed} {κ σ : Sys} {c : TargetSchema} {o : List Str} {b : Bool}
    (h : Replay fx κ c o b σ) (hn : (paths c.sources).Nodup) {s : TargetSchema}
    (hl : loadTargetFile κ.stateFile = some s) (hc : AllCurrent σ.files s c) :
    commands σ.log = [] ∧ SameStore σ κ ∧ ∀ e ∈ σ.log, e = .other := by
  obtain ⟨σ₁, mid, s', v', h1, h2, h3⟩ := h.quietRun
  have hl1 : loadTargetFile σ₁.stateFile = some s := by rw [h1.state]; exact hl
  have hc1 : AllCurrent σ₁.files s c := by rw [h2]; exact hc
  obtain ⟨k1, ⟨k2, k3, k4⟩, k5, -⟩ := h3.null hn hl1 hc1
  refine ⟨k1, ⟨k5.trans h1.state, k2.trans h1.objs, k3.trans h1.pch, k4.trans h1.bin⟩, fun e he => ?_⟩
  have hcmd : ∀ e ∈ σ.log, e.isCommand = false := by
    intro e he
    cases h : e.isCommand with
    | false => rfl
    | true =>
      have : e ∈ commands σ.log := by simp [commands, he, h]
      rw [show commands σ.log = [] from k1] at this; simp at this
  cases e with
  | missing ph =>
    obtain ⟨p, hp, hf⟩ := h3.missing he
    exfalso
    obtain ⟨hi, h3, h4⟩ := hc1.inputs
    have : ∃ t, σ₁.files p = some t := by
      rcases mem_tracked.1 hp with hp | hp | hp | hp | hp | hp
      · exact present_iff.1 hi.sources p hp
      · exact present_iff.1 hi.headers p hp
      · refine present_iff.1 (hi.pchs ?_) p hp
        intro he; rw [he] at hp; simp [paths] at hp
      · exact present_iff.1 hi.deps p hp
      · exact present_iff.1 h3 p hp
      · exact present_iff.1 h4 p hp
    obtain ⟨t, ht⟩ := this
    rw [hf] at ht; simp at ht
  | storeFailed => exact absurd he (h3.unchanged hn hl1 hc1).2
  | other => rfl
  | pch b => have := hcmd _ he; simp [Entry.isCommand] at this
  | obj p b => have := hcmd _ he; simp [Entry.isCommand] at this
  | link b => have := hcmd _ he; simp [Entry.isCommand] at this

/-- Also when it is killed. -/
theorem Replay.killed {fx : Fixed} {κ σ : Sys} {c : TargetSchema} {o : List Str} {b : Bool}
    (h : Replay fx κ c o b σ) (hn : (paths c.sources).Nodup) {s : TargetSchema}
    (hl : loadTargetFile κ.stateFile = some s) (hc : AllCurrent σ.files s c) (w : Option Nat) :
    SameStore (step fx σ (.crash w)) κ := by
  obtain ⟨σ₁, mid, s', v', h1, h2, h3⟩ := h.quietRun
  have hk : step fx (σ.withFiles σ.files σ.used true s' v') (.crash w) =
      (step fx σ (.crash w)).withFiles σ.files σ.used true s' v' := by
    simp only [step, show (σ.withFiles σ.files σ.used true s' v').run = σ.run from rfl]
    cases σ.run with
    | none => rfl
    | some r =>
      simp only [crashRun]
      cases w with
      | none => rfl
      | some n => repeat' split
                  all_goals rfl
  have hq : QuietRun fx σ₁ c o (mid ++ [.crash w])
      ((step fx σ (.crash w)).withFiles σ.files σ.used true s' v') := by
    refine ⟨h3.idle, h3.started, fun e he => ?_, ?_⟩
    · rcases List.mem_append.1 he with he | he
      · exact h3.quiet e he
      · simp only [List.mem_singleton] at he; subst he; exact ⟨rfl, rfl⟩
    · rw [← hk, ← h3.result]; simp [steps]
  have hl1 : loadTargetFile σ₁.stateFile = some s := by rw [h1.state]; exact hl
  have hc1 : AllCurrent σ₁.files s c := by rw [h2]; exact hc
  obtain ⟨-, ⟨k2, k3, k4⟩, k5, -⟩ := hq.null hn hl1 hc1
  exact ⟨k5.trans h1.state, k2.trans h1.objs, k3.trans h1.pch, k4.trans h1.bin⟩

end Verif.Target
