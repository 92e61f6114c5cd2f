import Verif.Generator.Sound
import Verif.Generator.ExactProps

/-!
# Outputs are as new as their inputs (C29)
-/

namespace Verif.Generator
open Verif Verif.Schema Verif.Json
open Verif.Target (Reads fileHash upd)

variable {R : Str → Blob → Blob → Prop} {K : Cfg → Prop}

/-- At the end of a run in SUCCESS all its ids are current. -/
theorem SInv.ended {σ : Sys} {e : Event} {r : Run} {d : Done} (h : SInv R K σ)
    (hr : σ.run = some r) (hd : (step σ e).done = some d) (hok : d.ok = true) :
    d.cfg = r.cfg ∧ ∀ id i, find id r.cfg = some i → Current R (step σ e) id i := by
  have hR := h.run r hr
  have hno : ∀ {σ' : Sys}, σ'.done = σ.done → σ'.done = some d → False := by
    intro σ' h1 h2
    rw [h1, hR.done] at h2; simp at h2
  cases e with
  | finish order b =>
    simp only [step, inRun, hr] at hd ⊢
    split at hd
    · rename_i hj
      rw [if_pos hj]
      simp only [Bool.and_eq_true, List.isPerm_iff, Run.joined, List.all_eq_true] at hj
      have hcur : σ.ok = true → ∀ id i, find id r.cfg = some i → Current R σ id i := by
        intro hk id i hi
        have hid := find_isSome.1 (show (find id r.cfg).isSome by rw [hi]; rfl)
        exact hR.good id i hi (hR.ok hk id hid (hj.1.2 id hid))
      rcases finish_cases σ r order b with ⟨-, he⟩ | ⟨-, -, he⟩ | ⟨s, t, -, -, -, he⟩ | ⟨-, he⟩
      all_goals
        rw [he] at hd ⊢
        simp only [Option.some.injEq] at hd
        subst hd
      · exact ⟨rfl, fun id i hi => (hcur hok id i hi).congr rfl fun _ _ => rfl⟩
      · simp at hok
      · exact ⟨rfl, fun id i hi => (hcur hok id i hi).congr rfl fun _ _ => rfl⟩
      · simp at hok
    · exact (hno rfl hd).elim
  | begin =>
    simp only [step, inRun, hr, beginRun] at hd
    split at hd
    · exact (hno rfl hd).elim
    · split at hd
      · simp only [Option.some.injEq] at hd; subst hd; simp at hok
      · exact (hno rfl hd).elim
  | edit p t => exact (hno rfl hd).elim
  | delete p => exact (hno rfl hd).elim
  | dropState => simp only [step] at hd; split at hd <;> exact (hno rfl hd).elim
  | otherFail => simp only [step] at hd; split at hd <;> exact (hno rfl hd).elim
  | start c => simp only [step, startRun, hr] at hd; exact (hno rfl hd).elim
  | task id =>
    simp only [step, inRun, hr, taskRun] at hd
    split at hd
    · split at hd
      · exact (hno rfl hd).elim
      · split at hd <;> exact (hno rfl hd).elim
    · exact (hno rfl hd).elim
  | look id p v =>
    simp only [step, inRun, hr, lookAt] at hd
    split at hd <;> exact (hno rfl hd).elim
  | call id ok =>
    simp only [step, inRun, hr, callRun] at hd
    split at hd
    · split at hd <;> exact (hno rfl hd).elim
    · exact (hno rfl hd).elim
  | crash order w =>
    simp only [step, inRun, hr, crashRun] at hd
    cases w with
    | none => exact (hno rfl hd).elim
    | some n =>
      simp only at hd
      split at hd
      · split at hd
        · exact (hno rfl hd).elim
        · split at hd <;> exact (hno rfl hd).elim
      · exact (hno rfl hd).elim

/-- C29 for every allowed history of a family of configurations: when a run ends in
SUCCESS, the last callback of each of its ids succeeded, for the present configuration
and the present versions of the inputs.

Missing: changes of inputs of an id between the start of its callback and the end of the run
(`C29_edit_during_run_false`),
configurations that are taken back after a run that executed callbacks without storing
its state (`C29_crash_and_revert_false`), and inputs that get an old time stamp back
(`C29_old_stamp_false`). -/
theorem C29_general_partial (hf : Family R K) {evs : List Event} {σ : Sys} {e : Event} {r : Run}
    {d : Done} (hσ : σ = steps Sys.init evs) (ha : AllAllowed K Sys.init evs)
    (hr : σ.run = some r) (hd : (step σ e).done = some d) (hok : d.ok = true) :
    d.cfg = r.cfg ∧ ∀ id i, find id r.cfg = some i → Current R (step σ e) id i := by
  exact SInv.ended (hσ ▸ sinv_steps hf sinv_init ha) hr hd hok

/-- All runs of the history are runs of `c`, inputs of an id are not changed from the start of its
callback to the end of the run, and no file gets a stamp twice. -/
def OneConfiguration (c : Cfg) (evs : List Event) : Prop :=
  ∀ pre e post, evs = pre ++ e :: post →
    (∀ c', e = .start c' → c' = c) ∧
    (∀ p t, e = .edit p t ∨ e = .delete p → ¬ Relied (steps Sys.init pre) p) ∧
    (∀ p t, e = .edit p t → Event.edit p t ∉ pre)

theorem used_step (σ : Sys) (e : Event) (p : Str) (t : Nat) :
    t ∈ (step σ e).used p ↔ t ∈ σ.used p ∨ e = .edit p t := by
  cases e
  case edit q u =>
    simp only [step, Sys.put, upd]
    by_cases h : p = q
    · subst h
      simp only [if_pos, List.mem_cons, Event.edit.injEq, true_and]
      constructor
      · rintro (h | h)
        · exact .inr h.symm
        · exact .inl h
      · rintro (h | h)
        · exact .inr h
        · exact .inl h.symm
    · simp [if_neg h, Ne.symm h]
  all_goals simp only [step, inRun, startRun, beginRun, taskRun, callRun, finishRun,
    crashRun, lookAt, Sys.put]
  all_goals repeat' split
  all_goals simp [Sys.fail]

theorem used_steps (evs : List Event) {p : Str} {t : Nat} :
    t ∈ (steps Sys.init evs).used p ↔ Event.edit p t ∈ evs := by
  suffices h : ∀ σ, t ∈ (steps σ evs).used p ↔ t ∈ σ.used p ∨ Event.edit p t ∈ evs by
    rw [h]; simp [Sys.init]
  induction evs with
  | nil => intro σ; simp [steps]
  | cons e l ih =>
    intro σ
    show t ∈ (steps (step σ e) l).used p ↔ _
    rw [ih, used_step]
    simp only [List.mem_cons, or_assoc, eq_comm]

theorem lost_step {c : Cfg} {σ : Sys} {e : Event}
    (h : (∀ l ∈ σ.lost, l = c) ∧ ∀ r, σ.run = some r → r.cfg = c)
    (he : ∀ c', e = .start c' → c' = c) :
    (∀ l ∈ (step σ e).lost, l = c) ∧ ∀ r, (step σ e).run = some r → r.cfg = c := by
  obtain ⟨h1, h2⟩ := h
  have hlose : ∀ r, σ.run = some r → ∀ l ∈ r.lose σ.lost, l = c := by
    intro r hr l hl
    simp only [Run.lose] at hl
    split at hl
    · rcases List.mem_cons.1 hl with hl | hl
      · rw [hl]; exact h2 r hr
      · exact h1 l hl
    · exact h1 l hl
  have hset : ∀ r, σ.run = some r → ∀ id st, (r.set id st).cfg = c := fun r hr _ _ => h2 r hr
  cases e with
  | edit p t => exact ⟨h1, h2⟩
  | delete p => exact ⟨h1, h2⟩
  | dropState => simp only [step]; split <;> exact ⟨h1, h2⟩
  | otherFail => simp only [step]; split <;> exact ⟨h1, h2⟩
  | start c' =>
    simp only [step, startRun]
    split
    · exact ⟨h1, h2⟩
    · split
      · refine ⟨h1, fun r hr => ?_⟩
        simp only [Option.some.injEq] at hr; subst hr
        exact he c' rfl
      · exact ⟨h1, h2⟩
  | begin =>
    simp only [step, inRun]
    cases hr : σ.run with
    | none => exact ⟨h1, h2⟩
    | some r =>
      simp only [beginRun]
      split
      · exact ⟨h1, h2⟩
      · split
        · exact ⟨h1, by simp⟩
        · refine ⟨h1, fun r' hr' => ?_⟩
          simp only [Option.some.injEq] at hr'; subst hr'
          exact h2 r hr
  | task id =>
    simp only [step, inRun]
    cases hr : σ.run with
    | none => exact ⟨h1, h2⟩
    | some r =>
      have hs := hset r hr id
      simp only [taskRun]
      split
      · split
        · refine ⟨h1, fun r' hr' => ?_⟩
          simp only [Option.some.injEq] at hr'; subst hr'; exact hs _
        · split <;>
          · refine ⟨h1, fun r' hr' => ?_⟩
            simp only [Option.some.injEq] at hr'; subst hr'; exact hs _
      · exact ⟨h1, h2⟩
  | look id p v =>
    simp only [step, inRun]
    cases hr : σ.run with
    | none => exact ⟨h1, h2⟩
    | some r =>
      simp only [lookAt]
      split
      · exact ⟨h1, h2⟩
      · exact ⟨h1, h2⟩
  | call id ok =>
    simp only [step, inRun]
    cases hr : σ.run with
    | none => exact ⟨h1, h2⟩
    | some r =>
      have hs := hset r hr id
      simp only [callRun]
      split
      · split <;>
        · refine ⟨h1, fun r' hr' => ?_⟩
          simp only [Option.some.injEq] at hr'; subst hr'; exact hs _
      · exact ⟨h1, h2⟩
  | finish order b =>
    simp only [step, inRun]
    cases hr : σ.run with
    | none => exact ⟨h1, h2⟩
    | some r =>
      simp only
      split
      · rcases finish_cases σ r order b with ⟨-, he⟩ | ⟨-, -, he⟩ | ⟨s, t, -, -, -, he⟩ | ⟨-, he⟩
        · rw [he]; exact ⟨h1, by simp⟩
        · rw [he]; exact ⟨hlose r hr, by simp⟩
        · rw [he]; exact ⟨by simp, by simp⟩
        · rw [he]; exact ⟨hlose r hr, by simp⟩
      · exact ⟨h1, h2⟩
  | crash order w =>
    simp only [step, inRun]
    cases hr : σ.run with
    | none => exact ⟨h1, h2⟩
    | some r =>
      simp only [crashRun]
      cases w with
      | none => exact ⟨hlose r hr, by simp⟩
      | some n =>
        simp only
        split
        · split
          · exact ⟨hlose r hr, by simp⟩
          · split
            · exact ⟨hlose r hr, by simp⟩
            · exact ⟨by simp, by simp⟩
        · exact ⟨hlose r hr, by simp⟩

theorem OneConfiguration.allowed {c : Cfg} {evs : List Event} (h : OneConfiguration c evs) :
    AllAllowed (· = c) Sys.init evs := by
  have gen : ∀ (post pre : List Event), evs = pre ++ post →
      ((∀ l ∈ (steps Sys.init pre).lost, l = c) ∧
        ∀ r, (steps Sys.init pre).run = some r → r.cfg = c) →
      AllAllowed (· = c) (steps Sys.init pre) post := by
    intro post
    induction post with
    | nil => intros; trivial
    | cons e post ih =>
      intro pre he hc
      obtain ⟨h1, h2, h3⟩ := h pre e post he
      refine ⟨?_, ?_⟩
      · cases e with
        | edit p t =>
          refine ⟨fun hu => h3 p t rfl ((used_steps pre).1 hu), h2 p t (.inl rfl)⟩
        | delete p => exact h2 p 0 (.inr rfl)
        | start c' =>
          have := h1 c' rfl
          subst this
          refine ⟨rfl, ?_⟩
          intro id i s hi hs l hl i' hi' hch
          rw [hc.1 l hl, hi] at hi'
          simp only [Option.some.injEq] at hi'; subst hi'; exact hch
        | _ => trivial
      · have := ih (pre ++ [e]) (by simp [he]) (by
          simp only [steps, List.foldl_append, List.foldl_cons, List.foldl_nil]
          exact lost_step hc h1)
        simpa only [steps, List.foldl_append, List.foldl_cons, List.foldl_nil] using this
  exact gen evs [] rfl ⟨by simp [steps, Sys.init], by simp [steps, Sys.init]⟩

theorem family_single {c : Cfg} : Family (fun _ a b => a = b) (· = c) where
  refl := fun _ _ => rfl
  trans := fun _ _ _ _ h1 h2 => h1.trans h2
  equal := by
    rintro c1 c2 rfl rfl id i i' h a b hi hi' hh ha hb -
    rw [hi] at hi'; simp only [Option.some.injEq] at hi'; subst hi'
    rw [hb] at ha; exact (Option.some.inj ha).symm
  keep := by
    rintro c1 c2 rfl rfl id i i' hi hi' hh
    rw [hi] at hi'; simp only [Option.some.injEq] at hi'; subst hi'; exact hh

/-- C29 for one configuration: whatever fails and wherever runs are killed, also while the
state file is written, when a run ends in SUCCESS the last callback of each id succeeded
and was given exactly the configured data and the present versions of the inputs.

Missing: as in `C29_general_partial`. -/
theorem C29_one_configuration_partial {c : Cfg} {evs : List Event} {σ : Sys} {e : Event} {d : Done}
    (hσ : σ = steps Sys.init evs) (h : OneConfiguration c evs) (hr : σ.run ≠ none)
    (hd : (step σ e).done = some d) (hok : d.ok = true) :
    d.cfg = c ∧ ∀ id i, find id c = some i →
      ∃ k, (step σ e).last id = some k ∧ k.ok = true ∧
        k.inputs = versions (step σ e).files i.inputs ∧ k.outputs = i.outputs ∧
        some k.blob = blobOf i.handler := by
  cases hrr : σ.run with
  | none => exact absurd hrr hr
  | some r =>
    have ha := h.allowed
    have hI : SInv (fun _ a b => a = b) (· = c) σ := hσ ▸ sinv_steps family_single sinv_init ha
    have hcfg : r.cfg = c := (hI.run r hrr).k
    obtain ⟨h1, h2⟩ := C29_general_partial family_single hσ ha hrr hd hok
    rw [hcfg] at h1 h2
    refine ⟨h1, fun id i hi => ?_⟩
    obtain ⟨k, b, c1, c2, c3, c4, c5, c6⟩ := h2 id i hi
    exact ⟨k, c1, c2, c3, c4, by rw [c6]; exact c5.symm⟩

/-! ### A concrete history -/

/-- Inputs change only while nothing runs and get new stamps. -/
def calmG (isC : Cfg → Bool) : Sys → List Event → Bool
  | _, [] => true
  | σ, e :: l =>
    (match e with
      | .edit p t => σ.run.isNone && decide (t ∉ σ.used p)
      | .delete _ => σ.run.isNone
      | .start c => isC c
      | _ => true) && calmG isC (step σ e) l

/-- A boolean form of `OneConfiguration` without its first part. -/
def mildG : Sys → List Event → Bool
  | _, [] => true
  | σ, e :: l =>
    (match e with
      | .edit p t => !reliedG σ p && decide (t ∉ σ.used p)
      | .delete p => !reliedG σ p
      | _ => true) && mildG (step σ e) l
where
  reliedG (σ : Sys) (p : Str) : Bool :=
    match σ.run with
    | none => false
    | some r => r.cfg.any fun x =>
      decide (p ∈ x.2.inputs) && (decide (r.status x.1 = .calling) || (r.status x.1).good)

theorem relied_of {σ : Sys} {p : Str} (h : Relied σ p) : mildG.reliedG σ p = true := by
  obtain ⟨r, id, i, hr, hi, hp, hs⟩ := h
  simp only [mildG.reliedG, hr, List.any_eq_true, Bool.and_eq_true, Bool.or_eq_true,
    decide_eq_true_eq]
  exact ⟨(id, i), find_mem hi, hp, hs⟩

theorem oneConfiguration_of {c : Cfg} {evs : List Event}
    (hs : ∀ c', Event.start c' ∈ evs → c' = c) (h : mildG Sys.init evs = true) :
    OneConfiguration c evs := by
  intro pre e post he
  have gen : ∀ (p : Str) (t : Nat) (_ : e = .edit p t ∨ e = .delete p) (pre evs : List Event)
      (σ : Sys), mildG σ evs = true → evs = pre ++ e :: post →
      mildG.reliedG (steps σ pre) p = false ∧ (e = .edit p t → t ∉ (steps σ pre).used p) := by
    intro p t hp pre
    induction pre with
    | nil =>
      intro evs σ h he
      rw [he] at h
      simp only [List.nil_append, mildG, Bool.and_eq_true] at h
      rcases hp with rfl | rfl
      · simpa [steps] using h.1
      · exact ⟨by simpa [steps] using h.1, by simp⟩
    | cons e' pre ih =>
      intro evs σ h he
      rw [he] at h
      simp only [List.cons_append, mildG, Bool.and_eq_true] at h
      exact ih _ (step σ e') h.2 rfl
  refine ⟨fun c' hc' => hs c' (by rw [he, hc']; simp), fun p t hp hr => ?_, fun p t hp hm => ?_⟩
  · exact absurd ((gen p t hp pre evs Sys.init h he).1.symm.trans (relied_of hr)) (by simp)
  · exact (gen p t (.inl hp) pre evs Sys.init h he).2 hp ((used_steps pre).2 hm)

/-- A run that is killed after one callback, one that is killed while it writes the state
file, an edit, a run with a failing callback, and a last run up to its end; in the last two runs inputs
are edited before their id is looked at. -/
def exHist : List Event :=
  exIn ++
    [ .start (exGen [1]), .begin, .task b!"a", .call b!"a" true, .crash [] none,
      .start (exGen [1]), .begin, .task b!"b", .task b!"a", .call b!"a" true, .call b!"b" true,
      .crash [b!"b", b!"a"] (some 11),
      .edit b!"/p/a.in" 8,
      .start (exGen [1]), .begin, .task b!"a", .call b!"a" true, .edit b!"/p/b.in" 9, .task b!"b",
      .call b!"b" false, .finish [b!"b", b!"a"] true,
      .start (exGen [1]), .begin, .task b!"a", .edit b!"/p/b.in" 10, .task b!"b", .call b!"b" true ]

example : ∃ k, (step (steps Sys.init exHist) (.finish [b!"a", b!"b"] true)).last b!"b" = some k ∧
    k.ok = true ∧
      k.inputs = [(b!"/p/b.in", some (digits 10)), (b!"/p/a.in", some (digits 8))] :=
  let ⟨_, h1, h2⟩ := outcome_ok (σ := step (steps Sys.init exHist) (.finish [b!"a", b!"b"] true))
    (b := true) (by decide +kernel)
  let ⟨k, g1, g2, g3, _⟩ := (C29_one_configuration_partial (c := exGen [1]) rfl
    (oneConfiguration_of (by simp [exHist, exIn]) (by decide +kernel))
    (fun h => by
      have : (steps Sys.init exHist).run.isSome = true := by decide +kernel
      rw [h] at this; simp at this) h1 h2).2 b!"b" _ rfl
  ⟨k, g1, g2, g3.trans (by decide +kernel)⟩

/-- A family with two configurations that differ in the data of `a`, and a history that
changes the data between runs. -/
theorem exFamily : Family (fun _ a b => a = b) (fun c => c = exGen [1] ∨ c = exGen [2]) where
  refl := fun _ _ => rfl
  trans := fun _ _ _ _ h1 h2 => h1.trans h2
  equal := by
    intro c c' hc hc' id i i' h a b hi hi' hh ha hb he
    have key : ∀ (c : Cfg), c = exGen [1] ∨ c = exGen [2] → ∀ id i h, find id c = some i →
        i.handler = some h → ∃ data, h = exH data := by
      intro c hc id i h hi hh
      have := find_mem hi
      rcases hc with rfl | rfl <;>
      · simp only [exGen, List.mem_cons, Prod.mk.injEq, List.not_mem_nil, or_false] at this
        rcases this with ⟨-, rfl⟩ | ⟨-, rfl⟩
        · simp only [Option.some.injEq] at hh; exact ⟨_, hh.symm⟩
        · simp at hh
    obtain ⟨data, rfl⟩ := key c hc id i h hi hh
    simpa [exH] using he
  keep := by
    intro c c' hc hc' id i i' hi hi' hh
    have key : ∀ (c : Cfg), c = exGen [1] ∨ c = exGen [2] → ∀ i, find id c = some i →
        (i.handler = none ↔ id = b!"b") := by
      intro c hc i hi
      have := find_mem hi
      rcases hc with rfl | rfl <;>
      · simp only [exGen, List.mem_cons, Prod.mk.injEq, List.not_mem_nil, or_false] at this
        rcases this with ⟨rfl, rfl⟩ | ⟨rfl, rfl⟩ <;> decide
    exact (key c' hc' i' hi').2 ((key c hc i hi).1 hh)

def exTwo : List Event :=
  exIn ++ .start (exGen [1]) :: exFullG ++
    [.start (exGen [2]), .begin, .task b!"a", .task b!"b", .call b!"a" true]

theorem exTwo_allowed : AllAllowed (fun c => c = exGen [1] ∨ c = exGen [2]) Sys.init exTwo := by
  have key : ∀ σ : Sys, σ.lost.isEmpty = true → ∀ c, (c = exGen [1] ∨ c = exGen [2]) →
      Allowed (fun c => c = exGen [1] ∨ c = exGen [2]) σ (.start c) := by
    intro σ h c hc
    refine ⟨hc, fun id i s _ _ l hl => ?_⟩
    rw [List.isEmpty_iff.1 h] at hl
    simp at hl
  have ed : ∀ (σ : Sys) (p : Str) (t : Nat), (σ.run.isNone && decide (t ∉ σ.used p)) = true →
      Allowed (fun c => c = exGen [1] ∨ c = exGen [2]) σ (.edit p t) := by
    intro σ p t h
    simp only [Bool.and_eq_true, decide_eq_true_eq] at h
    refine ⟨h.2, fun ⟨r, _, _, hr, _⟩ => ?_⟩
    rw [hr] at h; simp at h
  exact ⟨ed _ _ _ (by decide +kernel), ed _ _ _ (by decide +kernel),
    key _ (by decide +kernel) _ (.inl rfl), trivial, trivial, trivial, trivial, trivial, trivial,
    key _ (by decide +kernel) _ (.inr rfl), trivial, trivial, trivial, trivial, trivial⟩

example : ∃ r, (steps Sys.init exTwo).run = some r ∧ ∀ id i, find id r.cfg = some i →
    Current (fun _ a b => a = b) (step (steps Sys.init exTwo) (.finish [b!"a", b!"b"] true)) id i :=
  let ⟨_, h1, h2⟩ := outcome_ok (σ := step (steps Sys.init exTwo) (.finish [b!"a", b!"b"] true))
    (b := true) (by decide +kernel)
  let ⟨r, hr⟩ := Option.isSome_iff_exists.1
    (show (steps Sys.init exTwo).run.isSome = true by decide +kernel)
  ⟨r, hr, (C29_general_partial exFamily rfl exTwo_allowed hr h1 h2).2⟩

/-! ### What is missing is really false -/

/-- The state after `pre`, then a run of `c`. -/
abbrev afterG (pre : List Event) (c : Cfg) (mid : List Event) : Sys :=
  runG (steps Sys.init pre) c mid

/-- An input of `a` changes between the callback and the end of the run.  The new version
is recorded, so the next run succeeds without calling anything although the output of `a`
was made from the old version. -/
def preRace : List Event :=
  exIn ++ [ .start (exGen [1]), .begin, .task b!"b", .task b!"a", .call b!"a" true,
    .call b!"b" true, .edit b!"/p/a.in" 9, .finish [b!"b", b!"a"] true ]

theorem C29_edit_during_run_false :
    (∃ d, (afterG preRace (exGen [1]) exNullG).done = some d ∧ d.ok = true) ∧
    calledIds (afterG preRace (exGen [1]) exNullG).log = [] ∧
    ∃ i k, find b!"a" (exGen [1]) = some i ∧
      (afterG preRace (exGen [1]) exNullG).last b!"a" = some k ∧
      k.inputs ≠ versions (afterG preRace (exGen [1]) exNullG).files i.inputs := by
  refine ⟨outcome_ok (by decide +kernel), by decide +kernel,
    ⟨[b!"/p/a.in"], [b!"/p/a.out"], some (exH [1])⟩,
    ⟨[(b!"/p/a.in", some (digits 1))], [b!"/p/a.out"], [1], true⟩, rfl, by decide +kernel,
    by decide +kernel⟩

/-- One configuration.  An input of `a` is edited, the run is killed after the callback of
`a`, and the old input is restored with its time stamp: the next run succeeds without
calling anything although the output of `a` was made from the edited input. -/
def preRestore : List Event :=
  exIn ++ .start (exGen [1]) :: exFullG ++
    [.edit b!"/p/a.in" 9, .start (exGen [1]), .begin, .task b!"a", .call b!"a" true, .crash [] none]

theorem C29_old_stamp_false :
    OneConfiguration (exGen [1]) preRestore ∧
    let pre := preRestore ++ [.edit b!"/p/a.in" 1]
    (steps Sys.init pre).run = none ∧
    (∃ d, (afterG pre (exGen [1]) exNullG).done = some d ∧ d.ok = true) ∧
    calledIds (afterG pre (exGen [1]) exNullG).log = [] ∧
    ∃ i k, find b!"a" (exGen [1]) = some i ∧
      (afterG pre (exGen [1]) exNullG).last b!"a" = some k ∧
      k.inputs ≠ versions (afterG pre (exGen [1]) exNullG).files i.inputs := by
  refine ⟨oneConfiguration_of (by simp [preRestore, exIn, exFullG]) (by decide +kernel),
    Option.isNone_iff_eq_none.1 (by decide +kernel), outcome_ok (by decide +kernel),
    by decide +kernel, ⟨[b!"/p/a.in"], [b!"/p/a.out"], some (exH [1])⟩,
    ⟨[(b!"/p/a.in", some (digits 9))], [b!"/p/a.out"], [1], true⟩, rfl, by decide +kernel,
    by decide +kernel⟩

/-- A run with other data is killed after the callback of `a`, then the old data are
restored: the next run succeeds without calling anything although the output of `a` was
made from the other data. -/
def preRevert : List Event :=
  exIn ++ .start (exGen [1]) :: exFullG ++
    [.start (exGen [2]), .begin, .task b!"a", .call b!"a" true, .crash [] none]

theorem C29_crash_and_revert_false :
    calmG (fun _ => true) Sys.init preRevert = true ∧
    (∃ d, (afterG preRevert (exGen [1]) exNullG).done = some d ∧ d.ok = true) ∧
    calledIds (afterG preRevert (exGen [1]) exNullG).log = [] ∧
    ∃ i k, find b!"a" (exGen [1]) = some i ∧
      (afterG preRevert (exGen [1]) exNullG).last b!"a" = some k ∧
      some k.blob ≠ blobOf i.handler := by
  refine ⟨by decide +kernel, outcome_ok (by decide +kernel), by decide +kernel,
    ⟨[b!"/p/a.in"], [b!"/p/a.out"], some (exH [1])⟩,
    ⟨[(b!"/p/a.in", some (digits 1))], [b!"/p/a.out"], [2], true⟩, rfl, by decide +kernel,
    by decide +kernel⟩

end Verif.Generator
