import Verif.Generator.ExactProps

/-!
# Runs of a generator among changes of other files

A run during which only files change that it does not read goes on as if all these changes
had been made before it was started.
-/

namespace Verif.Generator
open Verif Verif.Schema Verif.Json
open Verif.Target (Reads fileHash upd)

/-- The same system with other files. -/
def Sys.withFiles (σ : Sys) (f : Str → Option Nat) (u : Str → List Nat)
    (s : Str → Str → List (Option Nat)) (v : Str → Str → Option Nat) : Sys :=
  { σ with files := f, used := u, seen := s, view := v }

def CfgIs (c : Cfg) (σ : Sys) : Prop := ∀ r, σ.run = some r → r.cfg = c

theorem cfgIs_step {c : Cfg} {σ : Sys} {e : Event} (h : CfgIs c σ) (he : e.outside = false) :
    CfgIs c (step σ e) := by
  cases hr : σ.run with
  | none =>
    cases e <;> simp only [Event.outside, Bool.true_eq_false] at he <;>
      simp only [step, inRun, hr, Option.isSome_none, Bool.false_eq_true, if_false] <;> exact h
  | some r =>
    have hc := h r hr
    cases e <;> simp only [Event.outside, Bool.true_eq_false] at he <;>
      simp only [step, inRun, hr, beginRun, taskRun, callRun, finishRun, lookAt, Sys.fail] <;>
      repeat' split
    all_goals intro x hx
    all_goals first
      | exact h x hx
      | (simp at hx; done)
      | (simp only [Option.some.injEq] at hx; rw [← hx]; exact hc)
      | (rw [hr] at hx; simp only [Option.some.injEq] at hx; rw [← hx]; exact hc)

theorem quiet_files {σ : Sys} {e : Event} (he : e.outside = false) :
    (step σ e).files = σ.files ∧ (step σ e).used = σ.used := by
  cases e <;> simp only [Event.outside, Bool.true_eq_false] at he
  all_goals simp only [step, inRun, beginRun, taskRun, callRun, finishRun, lookAt, Sys.fail]
  all_goals repeat' split
  all_goals exact ⟨rfl, rfl⟩

theorem makeCall_congr {f g : Str → Option Nat} {i : IdCfg} (b : Bool)
    (h : ∀ p ∈ i.inputs, f p = g p) : makeCall f i b = makeCall g i b := by
  have : i.inputs.map (fun p => (p, fileHash f p)) = i.inputs.map fun p => (p, fileHash g p) :=
    List.map_congr_left fun p hp => by rw [fileHash, fileHash, h p hp]
  simp only [makeCall, this]

theorem convertAll_congr {f g : Str → Option Nat} {r : Run}
    (h : ∀ p ∈ inputsOf r.cfg, f p = g p) (l : List Str) :
    convertAll f r l = convertAll g r l := by
  induction l with
  | nil => rfl
  | cons id l ih =>
    simp only [convertAll, ih]
    have : (find id r.cfg).bind (convert f) = (find id r.cfg).bind (convert g) := by
      cases hi : find id r.cfg with
      | none => rfl
      | some i => exact convert_congr fun p hp => h p (inputs_mem hi hp)
    rw [this]

/-- A step of the run itself looks at the declared inputs only: here for any set `P` of files with the
inputs in it. -/
theorem step_withFiles_on {σ : Sys} {P : Str → Prop} {e : Event} {f : Str → Option Nat} {u : Str → List Nat}
    {s : Str → Str → List (Option Nat)} {v : Str → Str → Option Nat}
    (he : e.outside = false) (hc : ∀ r, σ.run = some r → ∀ p ∈ inputsOf r.cfg, P p)
    (h : ∀ p, P p → f p = σ.files p ∧ ∀ id, s id p = σ.seen id p ∧ v id p = σ.view id p) :
    ∃ s' v', step (σ.withFiles f u s v) e = (step σ e).withFiles f u s' v' ∧
      ∀ p, P p → ∀ id, s' id p = (step σ e).seen id p ∧ v' id p = (step σ e).view id p := by
  have hsv : ∀ p, P p → ∀ id, s id p = σ.seen id p ∧ v id p = σ.view id p :=
    fun p hp => (h p hp).2
  cases hr : σ.run with
  | none =>
    refine ⟨s, v, ?_, ?_⟩
    · cases e <;> simp only [Event.outside, Bool.true_eq_false] at he <;>
        simp [step, inRun, hr, Sys.withFiles]
    · have : step σ e = σ := by
        cases e <;> simp only [Event.outside, Bool.true_eq_false] at he <;>
          simp [step, inRun, hr]
      rw [this]; exact hsv
  | some r =>
    have hcf := hc r hr
    have hr' : (σ.withFiles f u s v).run = some r := hr
    cases e <;> simp only [Event.outside, Bool.true_eq_false] at he
    case otherFail =>
      refine ⟨s, v, ?_, ?_⟩
      · simp [step, hr, hr', Sys.withFiles, Sys.fail]
      · simpa [step, hr, Sys.fail] using hsv
    case «begin» =>
      refine ⟨s, v, ?_, ?_⟩
      · simp only [step, inRun, hr, hr', beginRun]
        repeat' split
        all_goals first | rfl | simp_all [Sys.withFiles]
      · simp only [step, inRun, hr, beginRun]
        repeat' split
        all_goals exact hsv
    case task id =>
      simp only [step, inRun, hr, hr', taskRun]
      cases hi : find id r.cfg with
      | none => exact ⟨s, v, rfl, hsv⟩
      | some i =>
        have hin : ∀ p ∈ i.inputs, f p = σ.files p := fun p hp =>
          (h p (hcf p (inputs_mem hi hp))).1
        have hdec : decision f r.load id i = decision σ.files r.load id i := decision_congr hin
        cases hb : r.began with
        | false => exact ⟨s, v, rfl, hsv⟩
        | true =>
          cases hst : r.status id with
          | calling => exact ⟨s, v, rfl, hsv⟩
          | ended a b => exact ⟨s, v, rfl, hsv⟩
          | waiting =>
            simp only [Sys.withFiles, hdec]
            cases hok : σ.ok with
            | false => exact ⟨s, v, by simp [Sys.withFiles], by simpa using hsv⟩
            | true =>
              simp only [Bool.not_true, Bool.false_eq_true, if_false]
              cases decision σ.files r.load id i with
              | none => exact ⟨s, v, rfl, hsv⟩
              | some d =>
                cases d with
                | false => exact ⟨s, v, rfl, hsv⟩
                | true =>
                  refine ⟨upd s id fun p => [f p], upd v id f, ?_, ?_⟩
                  · rw [makeCall_congr false hin]
                  · intro p hp id'
                    simp only [upd]
                    split
                    · exact ⟨congrArg (fun x => [x]) (h p hp).1, (h p hp).1⟩
                    · exact hsv p hp id'
    case look id p x =>
      have e1 : step (σ.withFiles f u s v) (.look id p x) = lookAt (σ.withFiles f u s v) r id p x := by
        simp only [step, inRun, hr']
      have e2 : step σ (.look id p x) = lookAt σ r id p x := by simp only [step, inRun, hr]
      rw [e1, e2]
      unfold lookAt
      by_cases hp : P p
      · have e1 : (σ.withFiles f u s v).seen id p = σ.seen id p := (hsv p hp id).1
        rw [e1]
        split
        · refine ⟨s, upd v id (upd (v id) p x), rfl, ?_⟩
          intro q hq id'
          refine ⟨(hsv q hq id').1, ?_⟩
          by_cases e1 : id' = id
          · subst e1
            by_cases e2 : q = p
            · simp [upd, e2]
            · simpa [upd, e2] using (hsv q hq _).2
          · simpa [upd, e1] using (hsv q hq id').2
        · exact ⟨s, v, rfl, hsv⟩
      · have hview : ∀ q, P q → ∀ id' (w : Str → Str → Option Nat),
            upd w id (upd (w id) p x) id' q = w id' q := by
          intro q hq id' w
          have hne : q ≠ p := fun e => hp (e ▸ hq)
          by_cases e1 : id' = id
          · simp [upd, e1, hne]
          · simp [upd, e1]
        refine ⟨s, if r.status id = .calling ∧ x ∈ s id p then upd v id (upd (v id) p x) else v, ?_, ?_⟩
        · have hl : ∀ (Q : Prop) [Decidable Q] (y z : Sys), y.withFiles f u s (if Q then upd v id (upd (v id) p x) else v)
              = z.withFiles f u s (if Q then upd v id (upd (v id) p x) else v) →
              (if Q then { y.withFiles f u s v with view := upd v id (upd (v id) p x) }
                else y.withFiles f u s v)
              = z.withFiles f u s (if Q then upd v id (upd (v id) p x) else v) := by
            intro Q _ y z
            by_cases hP : Q
            · simp only [if_pos hP]; exact fun e => e
            · simp only [if_neg hP]; exact fun e => e
          refine hl (r.status id = .calling ∧ x ∈ s id p) σ _ ?_
          by_cases B : r.status id = .calling ∧ x ∈ σ.seen id p
          · rw [if_pos B]; rfl
          · rw [if_neg B]
        · intro q hq id'
          constructor
          · split <;> exact (hsv q hq id').1
          · have e1 : ∀ (Q : Prop) [Decidable Q],
                (if Q then upd v id (upd (v id) p x) else v) id' q = v id' q := by
              intro Q _; split
              · exact hview q hq id' v
              · rfl
            rw [e1]
            split
            · simp only; rw [hview q hq id' σ.view]; exact (hsv q hq id').2
            · exact (hsv q hq id').2
    case call id b =>
      simp only [step, inRun, hr, hr', callRun]
      cases hi : find id r.cfg with
      | none => exact ⟨s, v, rfl, hsv⟩
      | some i =>
        have hin : ∀ p ∈ i.inputs, v id p = σ.view id p := fun p hp =>
          (hsv p (hcf p (inputs_mem hi hp)) id).2
        cases hst : r.status id with
        | waiting => exact ⟨s, v, rfl, hsv⟩
        | ended a b => exact ⟨s, v, rfl, hsv⟩
        | calling =>
          simp only [Sys.withFiles, makeCall_congr b hin]
          cases b <;> exact ⟨s, v, rfl, hsv⟩
    case finish order canOpen =>
      simp only [step, inRun, hr, hr']
      split
      · have ht : toStore f r order = toStore σ.files r order := by
          simp only [toStore]
          rw [convertAll_congr fun p hp => (h p (hcf p hp)).1]
        simp only [finishRun, Sys.withFiles, ht]
        split
        · cases toStore σ.files r order with
          | none => exact ⟨s, v, rfl, hsv⟩
          | some g =>
            simp only
            generalize storeText (genText g) canOpen σ.stateFile = q
            obtain ⟨q1, q2⟩ := q
            cases q1 <;> exact ⟨s, v, rfl, hsv⟩
        · exact ⟨s, v, rfl, hsv⟩
      · exact ⟨s, v, rfl, hsv⟩

/-- A step of the run itself looks at the declared inputs only. -/
theorem step_withFiles {σ : Sys} {c : Cfg} {e : Event} {f : Str → Option Nat} {u : Str → List Nat}
    {s : Str → Str → List (Option Nat)} {v : Str → Str → Option Nat}
    (he : e.outside = false) (hc : CfgIs c σ)
    (h : ∀ p ∈ inputsOf c, f p = σ.files p ∧ ∀ id, s id p = σ.seen id p ∧ v id p = σ.view id p) :
    ∃ s' v', step (σ.withFiles f u s v) e = (step σ e).withFiles f u s' v' ∧
      ∀ p ∈ inputsOf c, ∀ id, s' id p = (step σ e).seen id p ∧ v' id p = (step σ e).view id p :=
  step_withFiles_on (P := (· ∈ inputsOf c)) he (fun r hr p hp => hc r hr ▸ hp) h

theorem steps_append (σ : Sys) (a b : List Event) : steps σ (a ++ b) = steps (steps σ a) b := by
  simp [steps]

theorem cfgIs_steps {c : Cfg} : ∀ (mid : List Event) (σ : Sys), CfgIs c σ →
    (∀ e ∈ mid, e.outside = false) → CfgIs c (steps σ mid) := by
  intro mid
  induction mid with
  | nil => intro σ h _; exact h
  | cons e l ih =>
    intro σ h he
    exact ih _ (cfgIs_step h (he e (by simp))) fun x hx => he x (by simp [hx])

theorem quiet_files_steps : ∀ (mid : List Event) (σ : Sys), (∀ e ∈ mid, e.outside = false) →
    (steps σ mid).files = σ.files ∧ (steps σ mid).used = σ.used := by
  intro mid
  induction mid with
  | nil => intros; exact ⟨rfl, rfl⟩
  | cons e l ih =>
    intro σ hq
    obtain ⟨h1, h2⟩ := quiet_files (σ := σ) (hq e (by simp))
    obtain ⟨h3, h4⟩ := ih (step σ e) fun x hx => hq x (by simp [hx])
    exact ⟨h3.trans h1, h4.trans h2⟩

theorem steps_withFiles {c : Cfg} {f : Str → Option Nat} {u : Str → List Nat} :
    ∀ (mid : List Event) (σ : Sys) (s : Str → Str → List (Option Nat)) (v : Str → Str → Option Nat),
    CfgIs c σ → (∀ e ∈ mid, e.outside = false) →
    (∀ p ∈ inputsOf c, f p = σ.files p ∧ ∀ id, s id p = σ.seen id p ∧ v id p = σ.view id p) →
    ∃ s' v', steps (σ.withFiles f u s v) mid = (steps σ mid).withFiles f u s' v' ∧
      ∀ p ∈ inputsOf c, ∀ id, s' id p = (steps σ mid).seen id p ∧
        v' id p = (steps σ mid).view id p := by
  intro mid
  induction mid with
  | nil => intro σ s v _ _ h; exact ⟨s, v, rfl, fun p hp => (h p hp).2⟩
  | cons e l ih =>
    intro σ s v hc hq hf
    have he := hq e (by simp)
    obtain ⟨s', v', h3, h4⟩ := step_withFiles (u := u) he hc hf
    simp only [steps, List.foldl_cons, h3]
    exact ih (step σ e) s' v' (cfgIs_step hc he) (fun x hx => hq x (by simp [hx]))
      fun p hp => ⟨by rw [(quiet_files he).1]; exact (hf p hp).1, h4 p hp⟩

theorem otherFail_withFiles {σ : Sys} {f : Str → Option Nat} {u : Str → List Nat}
    {s : Str → Str → List (Option Nat)} {v : Str → Str → Option Nat} :
    step (σ.withFiles f u s v) .otherFail = (step σ .otherFail).withFiles f u s v := by
  have hr : (σ.withFiles f u s v).run = σ.run := rfl
  simp only [step, hr]
  split <;> rfl

theorem otherFails_withFiles {f : Str → Option Nat} {u : Str → List Nat}
    {s : Str → Str → List (Option Nat)} {v : Str → Str → Option Nat} :
    ∀ (mid : List Event) (σ : Sys), (∀ e ∈ mid, e = .otherFail) →
    steps (σ.withFiles f u s v) mid = (steps σ mid).withFiles f u s v ∧
      (steps σ mid).seen = σ.seen ∧ (steps σ mid).view = σ.view := by
  intro mid
  induction mid with
  | nil => intros; exact ⟨rfl, rfl, rfl⟩
  | cons e l ih =>
    intro σ h
    have he := h e (by simp)
    subst he
    obtain ⟨h1, h2, h3⟩ := ih (step σ .otherFail) fun x hx => h x (by simp [hx])
    simp only [steps, List.foldl_cons, otherFail_withFiles]
    refine ⟨h1, h2.trans ?_, h3.trans ?_⟩ <;> (simp only [step]; split <;> rfl)

theorem start_withFiles {σ : Sys} {c : Cfg} {f : Str → Option Nat} {u : Str → List Nat}
    {s : Str → Str → List (Option Nat)} {v : Str → Str → Option Nat} :
    step (σ.withFiles f u s v) (.start c) = (step σ (.start c)).withFiles f u s v := by
  simp only [step, startRun, Sys.withFiles]
  cases h : σ.run with
  | some r => simp [h]
  | none => simp only; split <;> simp [h]

theorem start_files {σ : Sys} {c : Cfg} :
    (step σ (.start c)).files = σ.files ∧ (step σ (.start c)).used = σ.used ∧
    (step σ (.start c)).seen = σ.seen ∧ (step σ (.start c)).view = σ.view := by
  simp only [step, startRun]
  repeat' split
  all_goals exact ⟨rfl, rfl, rfl, rfl⟩

theorem start_cfgIs {σ : Sys} {c : Cfg} (hi : σ.run = none) : CfgIs c (step σ (.start c)) := by
  simp only [step, startRun, hi]
  split
  · intro r hr
    simp only [Option.some.injEq] at hr
    rw [← hr]
  · intro r hr; simp only [hi] at hr; simp at hr

/-- What is stored: the state file and what the callbacks made. -/
structure SameStore (σ κ : Sys) : Prop where
  state : σ.stateFile = κ.stateFile
  last : σ.last = κ.last

/-- The state is reached by a run of `c` that starts with what is stored in `κ`, and during which
nothing changed from outside.  As long as its tasks have not begun nothing but failures
elsewhere happened. -/
def Replay (κ : Sys) (c : Cfg) (begun : Bool) (σ : Sys) : Prop :=
  ∃ σ₁ mid s v, σ₁.run = none ∧ SameStore σ₁ κ ∧ (keys c).Nodup ∧
    (∀ e ∈ mid, e.outside = false) ∧
    (begun = false → (∀ e ∈ mid, e = .otherFail) ∧ s = σ.seen ∧ v = σ.view) ∧
    (∀ p ∈ inputsOf c, ∀ id, s id p = σ.seen id p ∧ v id p = σ.view id p) ∧
    steps (step σ₁ (.start c)) mid = σ.withFiles σ.files σ.used s v

theorem Replay.start {σ : Sys} {c : Cfg} (hr : σ.run = none) (hn : (keys c).Nodup) :
    Replay σ c false (step σ (.start c)) :=
  ⟨σ, [], _, _, hr, ⟨rfl, rfl⟩, hn, by simp, fun _ => ⟨by simp, rfl, rfl⟩, fun _ _ _ => ⟨rfl, rfl⟩, rfl⟩

theorem Replay.begin {κ σ : Sys} {c : Cfg} {b : Bool} (h : Replay κ c b σ) : Replay κ c true σ := by
  obtain ⟨σ₁, mid, s, v, h1, h2, h3, h4, -, h6, h7⟩ := h
  exact ⟨σ₁, mid, s, v, h1, h2, h3, h4, by simp, h6, h7⟩

theorem Replay.cfgIs {κ σ : Sys} {c : Cfg} {b : Bool} (h : Replay κ c b σ) : CfgIs c σ := by
  obtain ⟨σ₁, mid, s, v, h1, -, -, h4, -, -, h7⟩ := h
  have := cfgIs_steps mid _ (start_cfgIs (c := c) h1) h4
  rw [h7] at this
  exact this

theorem Replay.task {κ σ : Sys} {c : Cfg} {b : Bool} {e : Event} (h : Replay κ c b σ)
    (h1 : e.outside = false) (h3 : b = true ∨ e = .otherFail) : Replay κ c b (step σ e) := by
  have hc := h.cfgIs
  obtain ⟨σ₁, mid, s, v, g1, g2, g3, g5, g6, g8, g7⟩ := h
  have hfr := quiet_files (σ := σ) h1
  have hmid : ∀ x ∈ mid ++ [e], x.outside = false := by
    intro x hx
    rcases List.mem_append.1 hx with hx | hx
    · exact g5 x hx
    · simp only [List.mem_singleton] at hx; rw [hx]; exact h1
  cases b with
  | true =>
    obtain ⟨s', v', k1, k2⟩ := step_withFiles (u := σ.used) (f := σ.files) (s := s) (v := v) h1 hc
      fun p hp => ⟨rfl, g8 p hp⟩
    refine ⟨σ₁, mid ++ [e], s', v', g1, g2, g3, hmid, by simp, k2, ?_⟩
    rw [steps_append, g7]
    simp only [steps, List.foldl_cons, List.foldl_nil]
    rw [k1, hfr.1, hfr.2]
  | false =>
    have he := h3.resolve_left (by simp)
    subst he
    obtain ⟨k1, k2, k3⟩ := g6 rfl
    have hsv : (step σ .otherFail).seen = σ.seen ∧ (step σ .otherFail).view = σ.view := by
      simp only [step]; split <;> exact ⟨rfl, rfl⟩
    refine ⟨σ₁, mid ++ [.otherFail], s, v, g1, g2, g3, hmid, ?_, ?_, ?_⟩
    · intro _
      refine ⟨fun x hx => ?_, by rw [hsv.1]; exact k2, by rw [hsv.2]; exact k3⟩
      rcases List.mem_append.1 hx with hx | hx
      · exact k1 x hx
      · simpa using hx
    · rw [hsv.1, hsv.2]; exact g8
    · rw [steps_append, g7]
      simp only [steps, List.foldl_cons, List.foldl_nil]
      rw [otherFail_withFiles, hfr.1, hfr.2]

/-- Changes of other files, and changes before the tasks begin, can be moved before the
start. -/
theorem Replay.write {κ σ : Sys} {c : Cfg} {b : Bool} {e : Event} {p : Str} (h : Replay κ c b σ)
    (he : (∃ t, e = .edit p t) ∨ e = .delete p) (hp : b = false ∨ p ∉ inputsOf c) :
    Replay κ c b (step σ e) := by
  obtain ⟨σ₁, mid, s, v, g1, g2, g3, g5, g6, g8, g7⟩ := h
  have hst := start_files (σ := σ₁) (c := c)
  have hfiles : σ₁.files = σ.files ∧ σ₁.used = σ.used := by
    have h1 := quiet_files_steps mid (step σ₁ (.start c)) g5
    rw [g7] at h1
    exact ⟨hst.1.symm.trans h1.1.symm, hst.2.1.symm.trans h1.2.symm⟩
  -- the change as a change of the files
  have key : ∃ (x : Option Nat) (u : Str → List Nat), step σ e = σ.withFiles (upd σ.files p x) u
      (fun id => upd (σ.seen id) p (x :: σ.seen id p)) (fun id => upd (σ.view id) p x) := by
    rcases he with ⟨t, rfl⟩ | rfl
    · exact ⟨some t, upd σ.used p (t :: σ.used p), rfl⟩
    · exact ⟨none, σ.used, rfl⟩
  obtain ⟨x, u, k2⟩ := key
  let s₁ : Str → Str → List (Option Nat) := fun id => upd (σ₁.seen id) p (x :: σ₁.seen id p)
  let v₁ : Str → Str → Option Nat := fun id => upd (σ₁.view id) p x
  cases b with
  | false =>
    obtain ⟨k3, k4, k5⟩ := g6 rfl
    obtain ⟨m1, m2, m3⟩ := otherFails_withFiles (f := upd σ.files p x) (u := u) (s := s₁) (v := v₁)
      mid (step σ₁ (.start c)) k3
    have e1 : σ₁.seen = σ.seen := by
      rw [g7, hst.2.2.1] at m2
      exact m2.symm.trans k4
    have e2 : σ₁.view = σ.view := by
      rw [g7, hst.2.2.2] at m3
      exact m3.symm.trans k5
    refine ⟨σ₁.withFiles (upd σ.files p x) u s₁ v₁, mid, s₁, v₁, g1, ⟨g2.state, g2.last⟩, g3, g5,
      fun _ => ⟨k3, ?_, ?_⟩, fun q _ id => ⟨?_, ?_⟩, ?_⟩
    · simp only [s₁]; rw [k2, e1]; rfl
    · simp only [v₁]; rw [k2, e2]; rfl
    · simp only [s₁]; rw [k2, e1]; rfl
    · simp only [v₁]; rw [k2, e2]; rfl
    · rw [start_withFiles, m1, g7, k2]; rfl
  | true =>
    have hp := hp.resolve_left (by simp)
    have hne : ∀ q ∈ inputsOf c, q ≠ p := fun q hq e' => by subst e'; exact hp hq
    obtain ⟨s', v', m1, m2⟩ := steps_withFiles (c := c) (f := upd σ.files p x) (u := u)
      mid (step σ₁ (.start c)) s₁ v₁ (start_cfgIs g1) g5 (by
        intro q hq
        simp only [s₁, v₁, upd, if_neg (hne q hq), hst.1, hst.2.2.1, hst.2.2.2, hfiles.1, and_self,
          implies_true])
    refine ⟨σ₁.withFiles (upd σ.files p x) u s₁ v₁, mid, s', v', g1, ⟨g2.state, g2.last⟩, g3, g5,
      by simp, fun q hq id => ?_, ?_⟩
    · have m3 := m2 q hq id
      rw [g7] at m3
      have m4 := g8 q hq id
      rw [k2]
      simp only [Sys.withFiles, upd, if_neg (hne q hq)] at m3 ⊢
      exact ⟨m3.1.trans m4.1, m3.2.trans m4.2⟩
    · rw [start_withFiles, m1, g7, k2]; rfl

/-- The quiet run behind a replay. -/
theorem Replay.quietRun {κ σ : Sys} {c : Cfg} {b : Bool} (h : Replay κ c b σ) :
    ∃ σ₁ mid s v, SameStore σ₁ κ ∧ σ₁.files = σ.files ∧
      QuietRun σ₁ c mid (σ.withFiles σ.files σ.used s v) := by
  obtain ⟨σ₁, mid, s, v, g1, g2, g3, g5, g6, g8, g7⟩ := h
  refine ⟨σ₁, mid, s, v, g2, ?_, g1, g3, g5, g7⟩
  have h1 := quiet_files_steps mid (step σ₁ (.start c)) g5
  rw [g7] at h1
  exact (start_files (c := c)).1.symm.trans h1.1.symm

end Verif.Generator
