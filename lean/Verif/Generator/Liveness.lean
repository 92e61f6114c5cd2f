import Verif.Generator.Examples

/-!
# Failures stop a generator, and every run ends (C63, C64)
-/

namespace Verif.Generator
open Verif Verif.Schema Verif.Json
open Verif.Target (Reads fileHash upd)

/-! ## C63 -/

/-- The callback of the id is being executed. -/
def Running (σ : Sys) (id : Str) : Prop := ∃ r, σ.run = some r ∧ r.status id = .calling

/-- After a failure no callback starts. -/
theorem stopped_step {σ : Sys} {e : Event} (hok : σ.ok = false) (he : e.outside = false) :
    (step σ e).ok = false ∧
    (∀ id, Running (step σ e) id → Running σ id) ∧
    ∀ id, id ∈ calledIds (step σ e).log → id ∈ calledIds σ.log ∨ Running σ id := by
  cases hr : σ.run with
  | none =>
    have : step σ e = σ := by
      cases e <;> simp only [Event.outside, Bool.true_eq_false] at he <;> simp [step, inRun, hr]
    rw [this]
    exact ⟨hok, fun _ h => h, fun _ h => .inl h⟩
  | some r =>
    have hadd : ∀ {log : List Entry} {x : Entry}, (∀ id b, x ≠ .called id b) →
        ∀ id, id ∈ calledIds (log ++ [x]) → id ∈ calledIds log := by
      intro log x hx id hid
      obtain ⟨b, hb⟩ := mem_calledIds.1 hid
      rw [List.mem_append, List.mem_singleton] at hb
      rcases hb with hb | hb
      · exact mem_calledIds.2 ⟨b, hb⟩
      · exact absurd hb.symm (hx id b)
    have hset : ∀ {σ' : Sys} {id : Str} {st : Status}, st ≠ .calling →
        σ'.run = some (r.set id st) → ∀ id', Running σ' id' → Running σ id' := by
      intro σ' id st hst hrun id' ⟨r', h1, h2⟩
      rw [hrun] at h1; simp only [Option.some.injEq] at h1; subst h1
      refine ⟨r, hr, ?_⟩
      simp only [Run.set, upd] at h2
      split at h2
      · exact absurd h2 hst
      · exact h2
    have hnone : ∀ {σ' : Sys}, σ'.run = none → ∀ id', Running σ' id' → Running σ id' := by
      intro σ' h id' ⟨r', h1, _⟩
      rw [h] at h1; simp at h1
    cases e with
    | edit p t => simp [Event.outside] at he
    | delete p => simp [Event.outside] at he
    | dropState => simp [Event.outside] at he
    | start c => simp [Event.outside] at he
    | crash o w => simp [Event.outside] at he
    | otherFail =>
      simp only [step, hr, Option.isSome_some, if_true]
      exact ⟨rfl, fun _ h => h, fun id h => .inl (hadd (by simp) id h)⟩
    | begin =>
      simp only [step, inRun, hr, beginRun]
      split
      · exact ⟨hok, fun _ h => h, fun _ h => .inl h⟩
      · rw [if_pos (by rw [hok]; rfl)]
        exact ⟨hok, hnone rfl, fun _ h => .inl h⟩
    | task id =>
      simp only [step, inRun, hr, taskRun]
      split
      · rw [if_pos (by rw [hok]; rfl)]
        exact ⟨hok, hset (st := .ended false false) (by simp) rfl, fun id h => .inl (hadd (by simp) id h)⟩
      · exact ⟨hok, fun _ h => h, fun _ h => .inl h⟩
    | look id p v =>
      simp only [step, inRun, hr, lookAt]
      split
      · refine ⟨hok, fun id' h => ?_, fun _ h => .inl h⟩
        obtain ⟨r', h1, h2⟩ := h
        simp only [Option.some.injEq] at h1
        exact ⟨r', by rw [hr, h1], h2⟩
      · exact ⟨hok, fun _ h => h, fun _ h => .inl h⟩
    | call id ok =>
      simp only [step, inRun, hr, callRun]
      split
      · rename_i i hi hc
        have hmem : ∀ b id', id' ∈ calledIds (σ.log ++ [.called id b]) →
            id' ∈ calledIds σ.log ∨ Running σ id' := by
          intro b id' hid
          rw [calledIds_append] at hid
          rcases List.mem_append.1 hid with hid | hid
          · exact .inl hid
          · simp only [calledIds, List.filterMap_cons, List.filterMap_nil, List.mem_singleton] at hid
            exact .inr ⟨r, hr, by rw [hid]; exact hc⟩
        split
        · exact ⟨hok, hset (st := .ended true ok) (by simp) rfl, hmem true⟩
        · exact ⟨rfl, hset (st := .ended true ok) (by simp) rfl, hmem false⟩
      · exact ⟨hok, fun _ h => h, fun _ h => .inl h⟩
    | finish order b =>
      simp only [step, inRun, hr]
      split
      · simp only [finishRun]
        split
        · split
          · exact ⟨rfl, hnone rfl, fun id h => .inl (hadd (by simp) id h)⟩
          · split
            · exact ⟨hok, hnone rfl, fun _ h => .inl h⟩
            · exact ⟨rfl, hnone rfl, fun id h => .inl (hadd (by simp) id h)⟩
        · exact ⟨hok, hnone rfl, fun _ h => .inl h⟩
      · exact ⟨hok, fun _ h => h, fun _ h => .inl h⟩

/-- C63: once something has failed in a run, in this generator or elsewhere, the only
callbacks that still end are those that were being executed at that moment, and the run
stays failed. -/
theorem C63_fail_stop : ∀ (mid : List Event) (σ : Sys), σ.ok = false →
    (∀ e ∈ mid, e.outside = false) →
    (∀ id ∈ calledIds (steps σ mid).log, id ∈ calledIds σ.log ∨ Running σ id) ∧
      (steps σ mid).ok = false := by
  intro mid
  suffices h : ∀ σ : Sys, σ.ok = false → (∀ e ∈ mid, e.outside = false) →
      (∀ id, Running (steps σ mid) id → Running σ id) ∧
      (∀ id ∈ calledIds (steps σ mid).log, id ∈ calledIds σ.log ∨ Running σ id) ∧
      (steps σ mid).ok = false from fun σ h1 h2 => (h σ h1 h2).2
  induction mid with
  | nil => intro σ hok _; exact ⟨fun _ h => h, fun _ h => .inl h, hok⟩
  | cons e mid ih =>
    intro σ hok he
    obtain ⟨h1, h2, h3⟩ := stopped_step (e := e) hok (he e (by simp))
    obtain ⟨g1, g2, g3⟩ := ih (step σ e) h1 fun x hx => he x (by simp [hx])
    refine ⟨fun id h => h2 id (g1 id h), ?_, g3⟩
    intro id hid
    rcases g2 id hid with h | h
    · exact h3 id h
    · exact .inr (h2 id h)

/-- `a` fails while `b` has not been looked at: `b` is never called. -/
example : (steps (step exS (.start (exGen [1])))
      [.begin, .task b!"a", .call b!"a" false]).ok = false ∧
    calledIds (steps (step exS (.start (exGen [1])))
      [.begin, .task b!"a", .call b!"a" false, .task b!"b", .call b!"b" true,
        .finish [b!"a", b!"b"] true]).log = [b!"a"] :=
  ⟨by decide +kernel, by decide +kernel⟩

/-! ## C64 -/

def Status.left : Status → Nat
  | .waiting => 2
  | .calling => 1
  | .ended _ _ => 0

/-- Steps that a run can still make at most. -/
def remaining (σ : Sys) : Nat :=
  match σ.run with
  | none => 0
  | some r => ((keys r.cfg).map fun id => (r.status id).left).sum + if r.began then 1 else 2

/-- Events by which the generator itself goes on. -/
def Event.progress : Event → Bool
  | .begin | .task _ | .call _ _ | .finish _ _ => true
  | _ => false

theorem sum_lt {l : List Str} {f g : Str → Nat} {a : Str} (h : ∀ x, g x ≤ f x) (ha : a ∈ l)
    (hlt : g a < f a) : (l.map g).sum < (l.map f).sum := by
  have hle : ∀ l : List Str, (l.map g).sum ≤ (l.map f).sum := by
    intro l
    induction l with
    | nil => simp
    | cons x l ih => have := h x; simp only [List.map_cons, List.sum_cons]; omega
  induction l with
  | nil => simp at ha
  | cons x l ih =>
    simp only [List.map_cons, List.sum_cons]
    rcases List.mem_cons.1 ha with rfl | ha
    · have := hle l; omega
    · have := ih ha; have := h x; omega

theorem remaining_set {σ σ' : Sys} {r : Run} {id : Str} {st : Status} (hr : σ.run = some r)
    (hid : id ∈ keys r.cfg) (hlt : st.left < (r.status id).left)
    (hrun : σ'.run = some (r.set id st)) : remaining σ' < remaining σ := by
  simp only [remaining, hr, hrun]
  have : ((keys (r.set id st).cfg).map fun x => ((r.set id st).status x).left).sum
      < ((keys r.cfg).map fun x => (r.status x).left).sum := by
    refine sum_lt (l := keys r.cfg) (a := id) ?_ hid ?_
    · intro x
      simp only [Run.set, upd]
      split
      · rename_i e; subst e; omega
      · exact Nat.le_refl _
    · simpa [Run.set, upd] using hlt
  have e : (r.set id st).began = r.began := rfl
  rw [e]
  omega

/-- Every effective step uses up one of the remaining steps. -/
theorem progress_step (σ : Sys) (e : Event) (he : e.progress = true) :
    step σ e = σ ∨ remaining (step σ e) < remaining σ := by
  cases hr : σ.run with
  | none =>
    left
    cases e <;> simp only [Event.progress, Bool.false_eq_true] at he <;> simp [step, inRun, hr]
  | some r =>
    have hpos : 0 < remaining σ := by
      simp only [remaining, hr]; split <;> omega
    have hnone : ∀ {σ' : Sys}, σ'.run = none → remaining σ' < remaining σ := by
      intro σ' h; simpa [remaining, h] using hpos
    cases e <;> simp only [Event.progress, Bool.false_eq_true] at he <;>
      simp only [step, inRun, hr]
    case begin =>
      simp only [beginRun]
      split
      · exact .inl rfl
      · rename_i hb
        split
        · exact .inr (hnone rfl)
        · right
          simp only [remaining, hr, hb]
          simp
    case task id =>
      simp only [taskRun]
      split
      · rename_i i hi hb hw
        have hid : id ∈ keys r.cfg := find_isSome.1 (by rw [hi]; rfl)
        right
        split
        · exact remaining_set (st := .ended false false) hr hid (by rw [hw]; decide) rfl
        · split
          · exact remaining_set (st := .ended false false) hr hid (by rw [hw]; decide) rfl
          · exact remaining_set (st := .calling) hr hid (by rw [hw]; decide) rfl
          · exact remaining_set (st := .ended false true) hr hid (by rw [hw]; decide) rfl
      · exact .inl rfl
    case call id ok =>
      simp only [callRun]
      split
      · rename_i i hi hw
        have hid : id ∈ keys r.cfg := find_isSome.1 (by rw [hi]; rfl)
        right
        split
        · exact remaining_set (st := .ended true ok) hr hid (by rw [hw]; simp [Status.left]) rfl
        · exact remaining_set (st := .ended true ok) hr hid (by rw [hw]; simp [Status.left]) rfl
      · exact .inl rfl
    case finish order b =>
      split
      · right
        refine hnone ?_
        simp only [finishRun]
        repeat' split
        all_goals rfl
      · exact .inl rfl

/-- Nothing that others do prolongs a run. -/
theorem other_step (σ : Sys) (e : Event) (he : e.progress = false)
    (hs : ∀ c, e ≠ .start c) : remaining (step σ e) ≤ remaining σ := by
  have hle : ∀ σ' : Sys, σ'.run = σ.run → remaining σ' ≤ remaining σ := by
    intro σ' h; simp [remaining, h]
  have hnone : ∀ σ' : Sys, σ'.run = none → remaining σ' ≤ remaining σ := by
    intro σ' h; simp [remaining, h]
  cases e <;> simp only [Event.progress, Bool.true_eq_false] at he
  case start => exact absurd rfl (hs _ )
  all_goals
    simp only [step, inRun, lookAt, crashRun]
    repeat' split
    all_goals first
      | exact Nat.le_refl _
      | exact hle _ rfl
      | exact hnone _ rfl

open Classical in
/-- Number of steps of the generator in a schedule that have an effect. -/
noncomputable def effective (σ : Sys) : List Event → Nat
  | [] => 0
  | e :: l =>
    (if e.progress = true ∧ step σ e ≠ σ then 1 else 0) + effective (step σ e) l

/-- C64: every schedule of a run makes at most `remaining` effective steps, whatever
happens to the files and to other tasks in between. -/
theorem C64_bounded : ∀ (evs : List Event) (σ : Sys),
    (∀ c, .start c ∉ evs) →
    effective σ evs + remaining (steps σ evs) ≤ remaining σ := by
  intro evs
  induction evs with
  | nil => intro σ _; simp [effective, steps]
  | cons e l ih =>
    intro σ h
    have h2 := ih (step σ e) (fun c he => h c (List.mem_cons_of_mem _ he))
    simp only [effective, steps, List.foldl_cons] at h2 ⊢
    split
    · rename_i he
      have := (progress_step σ e he.1).resolve_left he.2
      omega
    · rename_i he
      have : remaining (step σ e) ≤ remaining σ := by
        cases hp : e.progress with
        | false => exact other_step σ e hp fun c h' => h c (h' ▸ List.mem_cons_self)
        | true =>
          rw [Classical.not_not.1 fun h' => he ⟨hp, h'⟩]
          exact Nat.le_refl _
      omega

/-- C64: in the beginning these are two steps for each id and two more. -/
theorem C64_initial {σ : Sys} {c : Cfg} (h1 : σ.run = none) (h2 : (keys c).Nodup) :
    remaining (step σ (.start c)) = 2 * c.length + 2 := by
  have : ∀ l : List (Str × IdCfg), (l.map fun _ => (Status.waiting).left).sum = 2 * l.length := by
    intro l
    induction l with
    | nil => rfl
    | cons x l ih =>
      simp only [List.map_cons, List.sum_cons, ih, List.length_cons]
      have : Status.waiting.left = 2 := rfl
      omega
  have h3 := this c
  simp only [step, startRun, h1, h2, if_true, remaining]
  simp only [keys, List.map_map, Function.comp_def, h3]
  simp

/-- C64: a run that has not ended can make an effective step. -/
theorem C64_progress {σ : Sys} {r : Run} (hr : σ.run = some r) :
    ∃ e, e.progress = true ∧ remaining (step σ e) < remaining σ := by
  have hpos : 0 < remaining σ := by
    simp only [remaining, hr]; split <;> omega
  have hnone : ∀ {σ' : Sys}, σ'.run = none → remaining σ' < remaining σ := by
    intro σ' h; simpa [remaining, h] using hpos
  cases hb : r.began with
  | false =>
    refine ⟨.begin, rfl, ?_⟩
    simp only [step, inRun, hr, beginRun, hb]
    split
    · rename_i h; simp at h
    · split
      · exact hnone rfl
      · simp [remaining, hr, hb]
  | true =>
    cases hj : (keys r.cfg).all fun id => (r.status id).isEnded with
    | true =>
      refine ⟨.finish (keys r.cfg) true, rfl, ?_⟩
      have hp : (keys r.cfg).isPerm (keys r.cfg) = true := List.isPerm_iff.2 (.refl _)
      simp only [step, inRun, hr, Run.joined, hb, hj, hp, Bool.and_self, if_true]
      refine hnone ?_
      simp only [finishRun]
      repeat' split
      all_goals rfl
    | false =>
      rw [List.all_eq_false] at hj
      obtain ⟨id, hid, hne⟩ := hj
      obtain ⟨i, hi⟩ := Option.isSome_iff_exists.1 (find_isSome.2 hid)
      cases hst : r.status id with
      | ended a b => rw [hst] at hne; simp [Status.isEnded] at hne
      | waiting =>
        refine ⟨.task id, rfl, ?_⟩
        simp only [step, inRun, hr, taskRun, hi, hb, hst]
        split
        · exact remaining_set (st := .ended false false) hr hid (by rw [hst]; decide) rfl
        · split
          · exact remaining_set (st := .ended false false) hr hid (by rw [hst]; decide) rfl
          · exact remaining_set (st := .calling) hr hid (by rw [hst]; decide) rfl
          · exact remaining_set (st := .ended false true) hr hid (by rw [hst]; decide) rfl
      | calling =>
        refine ⟨.call id true, rfl, ?_⟩
        simp only [step, inRun, hr, callRun, hi, hst]
        exact remaining_set (st := .ended true true) hr hid (by rw [hst]; decide) rfl

theorem ends_done {σ : Sys} {e : Event} (he : e.progress = true) (h1 : σ.run.isSome = true)
    (h2 : (step σ e).run = none) : (step σ e).done.isSome = true := by
  obtain ⟨r, hr⟩ := Option.isSome_iff_exists.1 h1
  revert h2
  cases e <;> simp only [Event.progress, Bool.false_eq_true] at he <;>
    simp only [step, inRun, hr, beginRun, taskRun, callRun, finishRun] <;> repeat' split
  all_goals first
    | (intro h; rw [hr] at h; simp at h; done)
    | (intro h; simp at h; done)
    | (intro _; rfl)

/-- C64: from every state in which a run is active it can be completed. -/
theorem C64_completes (σ : Sys) (hr : σ.run.isSome = true) :
    ∃ evs, (∀ e ∈ evs, e.progress = true) ∧ evs.length ≤ remaining σ ∧
      (steps σ evs).run = none ∧ (steps σ evs).done.isSome = true := by
  suffices h : ∀ n (σ : Sys), remaining σ ≤ n → σ.run.isSome = true →
      ∃ evs, (∀ e ∈ evs, e.progress = true) ∧ evs.length ≤ remaining σ ∧
      (steps σ evs).run = none ∧ (steps σ evs).done.isSome = true from
    h _ σ (Nat.le_refl _) hr
  intro n
  induction n with
  | zero =>
    intro σ hn hr
    obtain ⟨r, hr⟩ := Option.isSome_iff_exists.1 hr
    simp only [remaining, hr] at hn
    split at hn <;> omega
  | succ n ih =>
    intro σ hn hs
    obtain ⟨r, hr⟩ := Option.isSome_iff_exists.1 hs
    obtain ⟨e, he, hlt⟩ := C64_progress hr
    cases hrun : (step σ e).run with
    | none =>
      exact ⟨[e], by simpa using he, by simp only [List.length_singleton]; omega, hrun,
        ends_done he hs hrun⟩
    | some r' =>
      obtain ⟨evs, h1, h2, h3, h4⟩ := ih (step σ e) (by omega) (by rw [hrun]; rfl)
      exact ⟨e :: evs, by simpa using ⟨he, h1⟩, by simp only [List.length_cons]; omega, h3, h4⟩

example : remaining (step exS (.start (exGen [1]))) = 6 :=
  C64_initial (by have : exS.run.isNone = true := by decide +kernel
                  simpa using this) (by decide)

end Verif.Generator
