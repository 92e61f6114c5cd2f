import Verif.Generator.ExactProps

/-!
# The result of a generator run does not depend on the schedule (C61)
-/

namespace Verif.Generator
open Verif Verif.Schema Verif.Json
open Verif.Target (Reads fileHash upd)

variable {σ₀ : Sys} {c : Cfg}

/-- What a callback that runs now is given. -/
def given (f : Str → Option Nat) (i : IdCfg) (ok : Bool) : Call :=
  ⟨versions f i.inputs, i.outputs, (blobOf i.handler).getD [], ok⟩

/-- The callback of the id has read the files `f`, and can only read those. -/
def ReadsOnly (f : Str → Option Nat) (σ : Sys) (id : Str) : Prop :=
  σ.view id = f ∧ ∀ p, ∀ v ∈ σ.seen id p, v = f p

/-- The last callbacks during a run. -/
def LastInv (σ₀ : Sys) (c : Cfg) (σ : Sys) (r : Run) : Prop :=
  ∀ id, match r.status id with
    | .waiting | .ended false _ => σ.last id = σ₀.last id
    | .calling => ReadsOnly σ₀.files σ id
    | .ended true b => ∃ i, find id c = some i ∧ σ.last id = some (given σ₀.files i b)

/-- The last callbacks and the log, in or after a run. -/
structure LastLog (σ₀ : Sys) (c : Cfg) (σ : Sys) : Prop where
  called : ∀ id b, Entry.called id b ∈ σ.log →
    ∃ i, find id c = some i ∧ σ.last id = some (given σ₀.files i b)
  other : ∀ id, id ∉ calledIds σ.log → σ.last id = σ₀.last id

def JInv (σ₀ : Sys) (c : Cfg) (σ : Sys) : Prop :=
  (∀ r, σ.run = some r → LastInv σ₀ c σ r ∧ ∀ id, id ∉ keys c → r.status id = .waiting) ∧
  (σ.run = none → LastLog σ₀ c σ)

theorem LastInv.set {σ σ' : Sys} {r : Run} {id : Str} {st : Status} (h : LastInv σ₀ c σ r)
    (ho : ∀ id', id' ≠ id → σ'.last id' = σ.last id')
    (hv : ∀ id', id' ≠ id → σ'.view id' = σ.view id' ∧ σ'.seen id' = σ.seen id')
    (hs : match st with
      | .waiting | .ended false _ => σ'.last id = σ₀.last id
      | .calling => ReadsOnly σ₀.files σ' id
      | .ended true b => ∃ i, find id c = some i ∧ σ'.last id = some (given σ₀.files i b)) :
    LastInv σ₀ c σ' (r.set id st) := by
  intro id'
  simp only [Run.set, upd]
  by_cases e : id' = id
  · subst e; rw [if_pos rfl]; exact hs
  · rw [if_neg e, ho id' e]
    have := h id'
    simp only [ReadsOnly, hv id' e]
    exact this

/-- At the end of a run. -/
theorem LastInv.log {σ : Sys} {r : Run} (h : LastInv σ₀ c σ r)
    (ht : Track σ₀.files (loadGenFile σ₀.stateFile) c σ₀.stateFile σ r)
    (hn : ∀ id, id ∈ keys c → r.status id ≠ .calling)
    (hout : ∀ id, id ∉ keys c → r.status id = .waiting) : LastLog σ₀ c σ := by
  have key : ∀ id, id ∈ keys c → ∀ b, Entry.called id b ∈ σ.log → r.status id = .ended true b := by
    intro id hk b hb
    obtain ⟨i, hi⟩ := Option.isSome_iff_exists.1 (find_isSome.2 hk)
    have hs := ht.ids id i hi
    rw [mem_mine (id := id) (by rfl)] at hb
    cases hst : r.status id with
    | waiting => rw [hst] at hs; simp only [StatusOk] at hs; rw [hs] at hb; simp at hb
    | calling => exact absurd hst (hn id hk)
    | ended a b' =>
      rw [hst] at hs
      cases a <;> cases b' <;> simp only [StatusOk] at hs
      · rcases hs with hs | hs
        · rw [hs.2] at hb; simp at hb
        · rw [hs] at hb; simp at hb
      · rw [hs.2] at hb; simp at hb
      · rw [hs.2] at hb; simp at hb; rw [hb]
      · rw [hs.2] at hb; simp at hb; rw [hb]
  refine ⟨?_, ?_⟩
  · intro id b hb
    have := h id
    rw [key id (ht.only _ hb id rfl) b hb] at this
    exact this
  · intro id hid
    have hl := h id
    by_cases hk : id ∈ keys c
    · obtain ⟨i, hi⟩ := Option.isSome_iff_exists.1 (find_isSome.2 hk)
      have hs := ht.ids id i hi
      cases hst : r.status id with
      | waiting => rw [hst] at hl; exact hl
      | calling => exact absurd hst (hn id hk)
      | ended a b' =>
        rw [hst] at hl hs
        cases a with
        | false => exact hl
        | true =>
          simp only [StatusOk] at hs
          exact absurd (called_mine.2 ⟨b', by rw [hs.2]; simp⟩) hid
    · rw [hout id hk] at hl; exact hl

theorem jinv_step {σ : Sys} {e : Event} (hT : TInv σ₀.files (loadGenFile σ₀.stateFile) c σ₀.stateFile σ)
    (h : JInv σ₀ c σ) (he : e.outside = false) : JInv σ₀ c (step σ e) := by
  rcases hT with ⟨r, hr, hd, ht⟩ | ⟨hr, hE⟩
  rotate_left
  · have : step σ e = σ := by
      cases e <;> simp only [Event.outside, Bool.true_eq_false] at he <;>
        simp [step, inRun, hr]
    rw [this]; exact h
  obtain ⟨hl, ho⟩ := h.1 r hr
  have keep : ∀ {σ' : Sys}, σ'.run = some r → σ'.last = σ.last → σ'.view = σ.view →
      σ'.seen = σ.seen → JInv σ₀ c σ' := by
    intro σ' h1 h2 h3 h4
    refine ⟨fun r' hr' => ?_, fun hn => by rw [h1] at hn; simp at hn⟩
    rw [h1] at hr'; simp only [Option.some.injEq] at hr'; subst hr'
    refine ⟨fun id => ?_, ho⟩
    have := hl id
    simp only [ReadsOnly, h2, h3, h4]
    exact this
  have ended : ∀ {σ' : Sys}, r.joined = true ∨ r.began = false → σ'.run = none →
      σ'.last = σ.last → (∃ l, σ'.log = σ.log ++ l ∧ calledIds l = []) → JInv σ₀ c σ' := by
    intro σ' hj h1 h2 ⟨l, h3, h4⟩
    refine ⟨fun r' hr' => by rw [h1] at hr'; simp at hr', fun _ => ?_⟩
    have hL : LastLog σ₀ c σ := by
      refine hl.log ht ?_ ho
      intro id hk hc
      rcases hj with hj | hj
      · simp only [Run.joined, Bool.and_eq_true, List.all_eq_true, ht.cfg] at hj
        have := hj.2 id hk
        rw [hc] at this; simp [Status.isEnded] at this
      · rw [ht.idle hj id] at hc; simp at hc
    have hc : ∀ id b, Entry.called id b ∈ σ'.log ↔ Entry.called id b ∈ σ.log := by
      intro id b
      rw [h3, List.mem_append]
      refine or_iff_left fun hm => ?_
      have := mem_calledIds.2 ⟨b, hm⟩
      rw [h4] at this; simp at this
    refine ⟨fun id b hb => ?_, fun id hid => ?_⟩
    · rw [h2]; exact hL.called id b ((hc id b).1 hb)
    · rw [h2]
      refine hL.other id fun hm => hid ?_
      rw [h3, calledIds_append, List.mem_append]; exact .inl hm
  have set : ∀ {σ' : Sys} {id : Str} {st : Status}, id ∈ keys c → σ'.run = some (r.set id st) →
      (∀ id', id' ≠ id → σ'.last id' = σ.last id') →
      (∀ id', id' ≠ id → σ'.view id' = σ.view id' ∧ σ'.seen id' = σ.seen id') →
      (match st with
      | .waiting | .ended false _ => σ'.last id = σ₀.last id
      | .calling => ReadsOnly σ₀.files σ' id
      | .ended true b => ∃ i, find id c = some i ∧ σ'.last id = some (given σ₀.files i b)) →
      JInv σ₀ c σ' := by
    intro σ' id st hk h1 h2 h4 h3
    refine ⟨fun r' hr' => ?_, fun hn => by rw [h1] at hn; simp at hn⟩
    rw [h1] at hr'; simp only [Option.some.injEq] at hr'; subst hr'
    refine ⟨hl.set h2 h4 h3, fun id' hid' => ?_⟩
    simp only [Run.set, upd]
    split
    · rename_i e; subst e; exact absurd hk hid'
    · exact ho id' hid'
  cases e with
  | edit p t => simp [Event.outside] at he
  | delete p => simp [Event.outside] at he
  | dropState => simp [Event.outside] at he
  | start c => simp [Event.outside] at he
  | crash o w => simp [Event.outside] at he
  | otherFail =>
    simp only [step, hr, Option.isSome_some, if_true]
    exact keep hr rfl rfl rfl
  | begin =>
    simp only [step, inRun, hr, beginRun]
    split
    · exact h
    · rename_i hb
      simp only [Bool.not_eq_true] at hb
      split
      · exact ended (.inr hb) rfl rfl ⟨[], by simp, rfl⟩
      · refine ⟨fun r' hr' => ?_, fun hn => by simp at hn⟩
        simp only [Option.some.injEq] at hr'; subst hr'
        exact ⟨hl, ho⟩
  | task id =>
    simp only [step, inRun, hr, taskRun]
    split
    · rename_i i hi hb hw
      rw [ht.cfg] at hi
      have hk : id ∈ keys c := find_isSome.1 (by rw [hi]; rfl)
      have hlid := hl id
      rw [hw] at hlid
      split
      · exact set (st := .ended false false) hk rfl (fun _ _ => rfl) (fun _ _ => ⟨rfl, rfl⟩) hlid
      · split
        · exact set (st := .ended false false) hk rfl (fun _ _ => rfl) (fun _ _ => ⟨rfl, rfl⟩) hlid
        · exact set (st := .calling) hk rfl (fun id' hne => by simp [upd, hne])
            (fun id' hne => by simp [upd, hne]) (by simp [ReadsOnly, upd, ht.files])
        · exact set (st := .ended false true) hk rfl (fun _ _ => rfl) (fun _ _ => ⟨rfl, rfl⟩) hlid
    · exact h
  | look id p v =>
    simp only [step, inRun, hr, lookAt]
    split
    · rename_i hv
      have hlid := hl id
      rw [hv.1] at hlid
      refine ⟨fun r' hr' => ?_, fun hn => by simp at hn⟩
      simp only [Option.some.injEq] at hr'; subst hr'
      refine ⟨fun id' => ?_, ho⟩
      by_cases e : id' = id
      · subst e
        rw [hv.1]
        refine ⟨?_, hlid.2⟩
        funext q
        by_cases e : q = p
        · subst e; simpa [upd] using hlid.2 q v hv.2
        · simp [upd, e, hlid.1]
      · have := hl id'
        simp only [ReadsOnly, upd, e, if_false]
        exact this
    · exact h
  | call id ok =>
    simp only [step, inRun, hr, callRun]
    split
    · rename_i i hi hw
      rw [ht.cfg] at hi
      have hk : id ∈ keys c := find_isSome.1 (by rw [hi]; rfl)
      have hlid := hl id
      rw [hw] at hlid
      have hg : makeCall (σ.view id) i ok = given σ₀.files i ok := by
        simp only [makeCall, given, versions, hlid.1]
      split
      · exact set (st := .ended true ok) hk rfl (fun id' hne => by simp [upd, hne])
          (fun _ _ => ⟨rfl, rfl⟩) ⟨i, hi, by simp [upd, hg]⟩
      · exact set (st := .ended true ok) hk rfl (fun id' hne => by simp [upd, hne])
          (fun _ _ => ⟨rfl, rfl⟩) ⟨i, hi, by simp [upd, hg]⟩
    · exact h
  | finish order b =>
    simp only [step, inRun, hr]
    split
    · rename_i hj
      simp only [Bool.and_eq_true] at hj
      rcases finish_cases σ r order b with ⟨-, he⟩ | ⟨-, -, he⟩ | ⟨s, t, -, -, -, he⟩ | ⟨-, he⟩ <;> rw [he]
      · exact ended (.inl hj.1) rfl rfl ⟨[], by simp, rfl⟩
      · exact ended (.inl hj.1) rfl rfl ⟨[.missing], rfl, rfl⟩
      · exact ended (.inl hj.1) rfl rfl ⟨[], by simp, rfl⟩
      · exact ended (.inl hj.1) rfl rfl ⟨[.storeFailed], rfl, rfl⟩
    · exact h

/-- After a quiet run: called ids were given the present files and their configuration,
for the others nothing changed. -/
theorem QuietRun.last {σ : Sys} {mid : List Event} (h : QuietRun σ₀ c mid σ)
    (hd : σ.run = none) : LastLog σ₀ c σ := by
  have key : ∀ (mid : List Event) (σ : Sys),
      TInv σ₀.files (loadGenFile σ₀.stateFile) c σ₀.stateFile σ → JInv σ₀ c σ →
      (∀ e ∈ mid, e.outside = false) → JInv σ₀ c (steps σ mid) := by
    intro mid
    induction mid with
    | nil => intro σ _ h _; exact h
    | cons e mid ih =>
      intro σ hT hJ he
      exact ih _ (tinv_step h.ids hT (he e (by simp))) (jinv_step hT hJ (he e (by simp)))
        fun x hx => he x (by simp [hx])
  have h0 : QuietRun σ₀ c [] (step σ₀ (.start c)) := ⟨h.idle, h.ids, by simp, rfl⟩
  have hJ : JInv σ₀ c (step σ₀ (.start c)) := by
    simp only [step, startRun, h.idle, h.ids, if_true]
    refine ⟨fun r hr => ?_, fun hn => by simp at hn⟩
    simp only [Option.some.injEq] at hr; subst hr
    exact ⟨fun id => rfl, fun _ _ => rfl⟩
  have := key mid _ h0.tinv hJ h.quiet
  rw [h.result] at this
  exact this.2 hd

/-- A finished run is no longer active. -/
theorem QuietRun.over {σ : Sys} {mid : List Event} {d : Done} (h : QuietRun σ₀ c mid σ)
    (hd : σ.done = some d) : σ.run = none := by
  rcases h.tinv with ⟨r, _, h2, _⟩ | ⟨h1, _⟩
  · rw [h2] at hd; simp at hd
  · exact h1

/-- C61: two successful runs of the same generator from the same state, in whatever order
the tasks of their ids were executed, called the same callbacks with the same files and
data, and recorded the same.

Missing: runs with failures, where it is false (`C61_failure_false`). -/
theorem C61_schedule_independent_partial {σ₁ σ₂ : Sys} {mid₁ mid₂ : List Event} {d₁ d₂ : Done}
    (h₁ : QuietRun σ₀ c mid₁ σ₁) (h₂ : QuietRun σ₀ c mid₂ σ₂)
    (hd₁ : σ₁.done = some d₁) (hd₂ : σ₂.done = some d₂) (hok₁ : d₁.ok = true) (hok₂ : d₂.ok = true) :
    (∀ id, id ∈ calledIds σ₁.log ↔ id ∈ calledIds σ₂.log) ∧ σ₁.last = σ₂.last ∧
      (∀ id, storedId (loadGenFile σ₁.stateFile) id = storedId (loadGenFile σ₂.stateFile) id) := by
  have hc : ∀ id, id ∈ calledIds σ₁.log ↔ id ∈ calledIds σ₂.log := fun id =>
    ((C28_exactly_needed h₁ hd₁ hok₁).2 id).trans ((C28_exactly_needed h₂ hd₂ hok₂).2 id).symm
  have R₁ := h₁.report hd₁
  have R₂ := h₂.report hd₂
  have L₁ := h₁.last (h₁.over hd₁)
  have L₂ := h₂.last (h₂.over hd₂)
  have htrue : ∀ {σ : Sys} {d : Done}, Report σ₀.files (loadGenFile σ₀.stateFile) c σ₀.stateFile σ d →
      d.ok = true → ∀ id b, Entry.called id b ∈ σ.log → b = true := by
    intro σ d R hok id b hb
    rw [R.ok, R.okIff] at hok
    have := hok _ hb
    simpa [Entry.failed] using this
  refine ⟨hc, ?_, ?_⟩
  · funext id
    by_cases hm : id ∈ calledIds σ₁.log
    · obtain ⟨b₁, hb₁⟩ := mem_calledIds.1 hm
      obtain ⟨b₂, hb₂⟩ := mem_calledIds.1 ((hc id).1 hm)
      obtain ⟨i₁, hi₁, e₁⟩ := L₁.called id b₁ hb₁
      obtain ⟨i₂, hi₂, e₂⟩ := L₂.called id b₂ hb₂
      rw [hi₁] at hi₂; simp only [Option.some.injEq] at hi₂; subst hi₂
      rw [e₁, e₂, htrue R₁ hok₁ id b₁ hb₁, htrue R₂ hok₂ id b₂ hb₂]
    · rw [L₁.other id hm, L₂.other id (fun h => hm ((hc id).2 h))]
  · have hempty : calledIds σ₁.log = [] ↔ calledIds σ₂.log = [] := by
      simp only [List.eq_nil_iff_forall_not_mem, hc]
    have hst : ∀ {σ : Sys} {d : Done},
        Report σ₀.files (loadGenFile σ₀.stateFile) c σ₀.stateFile σ d → d.ok = true →
        (d.stored = true ↔ computeBuild (loadGenFile σ₀.stateFile) c = true ∨ calledIds σ.log ≠ []) := by
      intro σ d R hok
      refine ⟨fun h => R.storedDirty (.inl h), fun h => ?_⟩
      cases hs : d.stored with
      | true => rfl
      | false =>
        obtain ⟨-, h1 | ⟨h1, h2 | h2⟩⟩ := R.unstored hs
        · exact absurd h1 (R.noStoreFailed hok)
        · rcases h with h | h
          · rw [h2] at h; simp at h
          · exact absurd h1 h
        · exact absurd h2 (R.noOther hok)
    have hval : ∀ {σ : Sys} {d : Done},
        Report σ₀.files (loadGenFile σ₀.stateFile) c σ₀.stateFile σ d → d.ok = true →
        d.stored = true → ∀ id, storedId (loadGenFile σ.stateFile) id
          = (find id c).bind (convert σ₀.files) := by
      intro σ d R hok hs id
      obtain ⟨s, g1, g2, g3⟩ := R.stored hs
      rw [g1]
      simp only [storedId, Option.bind_some]
      cases hi : find id c with
      | none =>
        rw [g3 id fun hc' => by
          have := R.completed_key hc'
          rw [← find_isSome, hi] at this; simp at this]
        rfl
      | some i =>
        obtain ⟨x, e1, e2⟩ := g2 id i hi (R.completed_ok hok (find_isSome.1 (by rw [hi]; rfl)))
        rw [e1, Option.bind_some, e2]
    have hiff : d₁.stored = true ↔ d₂.stored = true := by
      rw [hst R₁ hok₁, hst R₂ hok₂, ne_eq, ne_eq, hempty]
    intro id
    cases hs : d₁.stored with
    | true => rw [hval R₁ hok₁ hs id, hval R₂ hok₂ (hiff.1 hs) id]
    | false =>
      have hs2 : d₂.stored = false := by
        cases h : d₂.stored with
        | false => rfl
        | true => rw [hiff.2 h] at hs; simp at hs
      rw [(R₁.unstored hs).1, (R₂.unstored hs2).1]

/-- Both callbacks at once, or one after the other. -/
def exSerial : List Event :=
  [ .begin, .task b!"a", .call b!"a" true, .task b!"b", .call b!"b" true,
    .finish [b!"a", b!"b"] true ]

example : (runG exS (exGen [1]) exFullG).last = (runG exS (exGen [1]) exSerial).last :=
  let ⟨_, h1, h2⟩ := outcome_ok (σ := runG exS (exGen [1]) exFullG) (b := true) (by decide +kernel)
  let ⟨_, g1, g2⟩ := outcome_ok (σ := runG exS (exGen [1]) exSerial) (b := true) (by decide +kernel)
  (C61_schedule_independent_partial
    (quietRun (by decide +kernel) (by decide) (by decide))
    (quietRun (by decide +kernel) (by decide) (by decide)) h1 g1 h2 g2).2.1

/-- C61, whatever fails: whether a run succeeds does not depend on the schedule, when it depends on the id
alone whether its callback fails, and the state can be stored and nothing else in the process fails. -/
theorem C61_result {σ₁ σ₂ : Sys} {mid₁ mid₂ : List Event} {d₁ d₂ : Done} (fine : Str → Bool)
    (h₁ : QuietRun σ₀ c mid₁ σ₁) (h₂ : QuietRun σ₀ c mid₂ σ₂)
    (hd₁ : σ₁.done = some d₁) (hd₂ : σ₂.done = some d₂)
    (hf₁ : ∀ id b, Entry.called id b ∈ σ₁.log → b = fine id)
    (hf₂ : ∀ id b, Entry.called id b ∈ σ₂.log → b = fine id)
    (hs₁ : Entry.storeFailed ∉ σ₁.log ∧ Entry.other ∉ σ₁.log)
    (hs₂ : Entry.storeFailed ∉ σ₂.log ∧ Entry.other ∉ σ₂.log) : d₁.ok = d₂.ok := by
  have half : ∀ {σ σ' : Sys} {mid mid' : List Event} {d d' : Done}, QuietRun σ₀ c mid σ →
      QuietRun σ₀ c mid' σ' → σ.done = some d → σ'.done = some d' →
      (∀ id b, Entry.called id b ∈ σ.log → b = fine id) → (∀ id b, Entry.called id b ∈ σ'.log → b = fine id) →
      Entry.storeFailed ∉ σ'.log ∧ Entry.other ∉ σ'.log → d.ok = true → d'.ok = true := by
    intro σ σ' mid mid' d d' h h' hd hd' hf hf' hs hok
    have R := h.report hd
    have R' := h'.report hd'
    rw [R'.ok, R'.okIff]
    intro e he
    cases e with
    | called id b =>
      have hn := (C28_only_needed h').2 id (mem_calledIds.2 ⟨b, he⟩)
      obtain ⟨b', hb'⟩ := mem_calledIds.1 (((C28_exactly_needed h hd hok).2 id).2 hn)
      have hall := R.okIff.1 (R.ok ▸ hok) _ hb'
      simp only [Entry.failed, Bool.not_eq_false'] at hall ⊢
      rw [hf' id b he, ← hf id b' hb', hall]
    | unchanged id => rfl
    | broken id =>
      obtain ⟨i, hi⟩ := Option.isSome_iff_exists.1 (find_isSome.2 (R'.only _ he id rfl))
      rw [mem_mine (id := id) (by rfl)] at he
      rcases R'.ended hs.2 hi with ⟨-, b, h2⟩ | ⟨-, h2⟩ | ⟨h1, h2⟩ | h2
      · rw [h2] at he; simp at he
      · rw [h2] at he; simp at he
      · rcases R.ended_ok hok hi with ⟨g, -⟩ | ⟨g, -⟩ <;> rw [g] at h1 <;> cases h1
      · rw [h2] at he; simp at he
    | skipped id => rfl
    | missing => exact absurd he R'.noMissing
    | storeFailed => exact absurd he hs.1
    | other => exact absurd he hs.2
  cases h1 : d₁.ok <;> cases h2 : d₂.ok
  · rfl
  · rw [half h₂ h₁ hd₂ hd₁ hf₂ hf₁ hs₁ h2] at h1; cases h1
  · rw [half h₁ h₂ hd₁ hd₂ hf₁ hf₂ hs₂ h1] at h2; cases h2
  · rfl

/-- C61, whatever fails: callbacks that are called in both runs are given the same files and data. -/
theorem C61_calls {σ₁ σ₂ : Sys} {mid₁ mid₂ : List Event} {d₁ d₂ : Done} (fine : Str → Bool)
    (h₁ : QuietRun σ₀ c mid₁ σ₁) (h₂ : QuietRun σ₀ c mid₂ σ₂)
    (hd₁ : σ₁.done = some d₁) (hd₂ : σ₂.done = some d₂)
    (hf₁ : ∀ id b, Entry.called id b ∈ σ₁.log → b = fine id)
    (hf₂ : ∀ id b, Entry.called id b ∈ σ₂.log → b = fine id) (id : Str)
    (hc₁ : id ∈ calledIds σ₁.log) (hc₂ : id ∈ calledIds σ₂.log) : σ₁.last id = σ₂.last id := by
  obtain ⟨b₁, hb₁⟩ := mem_calledIds.1 hc₁
  obtain ⟨b₂, hb₂⟩ := mem_calledIds.1 hc₂
  obtain ⟨i₁, hi₁, e₁⟩ := (h₁.last (h₁.over hd₁)).called id b₁ hb₁
  obtain ⟨i₂, hi₂, e₂⟩ := (h₂.last (h₂.over hd₂)).called id b₂ hb₂
  rw [e₁, e₂, hf₁ id b₁ hb₁, hf₂ id b₂ hb₂]
  rw [hi₁] at hi₂
  cases hi₂
  rfl

/-- `a` fails: `b` is called before, or skipped after it. -/
def exFail : List Event :=
  [.begin, .task b!"b", .call b!"b" true, .task b!"a", .call b!"a" false, .finish [b!"a", b!"b"] true]

def exSkip : List Event :=
  [.begin, .task b!"a", .call b!"a" false, .task b!"b", .finish [b!"a", b!"b"] true]

theorem exFail_logs : (runG exS (exGen [1]) exFail).log = [.called b!"b" true, .called b!"a" false] ∧
    (runG exS (exGen [1]) exSkip).log = [.called b!"a" false, .skipped b!"b"] := by decide +kernel

example : ∃ d₁ d₂, (runG exS (exGen [1]) exFail).done = some d₁ ∧ (runG exS (exGen [1]) exSkip).done = some d₂ ∧
    d₁.ok = d₂.ok ∧ (runG exS (exGen [1]) exFail).last b!"a" = (runG exS (exGen [1]) exSkip).last b!"a" := by
  obtain ⟨d₁, h1, -⟩ := outcome_ok (σ := runG exS (exGen [1]) exFail) (b := false) (by decide +kernel)
  obtain ⟨d₂, g1, -⟩ := outcome_ok (σ := runG exS (exGen [1]) exSkip) (b := false) (by decide +kernel)
  obtain ⟨l1, l2⟩ := exFail_logs
  have q1 : QuietRun exS (exGen [1]) exFail (runG exS (exGen [1]) exFail) :=
    quietRun (by decide +kernel) (by decide) (by decide)
  have q2 : QuietRun exS (exGen [1]) exSkip (runG exS (exGen [1]) exSkip) :=
    quietRun (by decide +kernel) (by decide) (by decide)
  have f1 : ∀ id b, Entry.called id b ∈ (runG exS (exGen [1]) exFail).log → b = decide (id = b!"b") := by
    rw [l1]; intro id b h
    simp only [List.mem_cons, Entry.called.injEq, List.not_mem_nil, or_false] at h
    rcases h with ⟨rfl, rfl⟩ | ⟨rfl, rfl⟩ <;> decide
  have f2 : ∀ id b, Entry.called id b ∈ (runG exS (exGen [1]) exSkip).log → b = decide (id = b!"b") := by
    rw [l2]; intro id b h
    simp only [List.mem_cons, Entry.called.injEq, List.not_mem_nil, or_false, reduceCtorEq] at h
    obtain ⟨rfl, rfl⟩ := h
    decide
  exact ⟨d₁, d₂, h1, g1, C61_result _ q1 q2 h1 g1 f1 f2 (by rw [l1]; decide) (by rw [l2]; decide),
    C61_calls _ q1 q2 h1 g1 f1 f2 _ (by rw [l1]; decide) (by rw [l2]; decide)⟩

/-- C61 is false when a callback fails: the callback of `a` fails whenever it runs, and it
depends on the schedule whether `b` is brought up to date. -/
theorem C61_failure_false :
    ∃ mid₁ mid₂ : List Event,
      QuietRun exS (exGen [1]) mid₁ (runG exS (exGen [1]) mid₁) ∧
      QuietRun exS (exGen [1]) mid₂ (runG exS (exGen [1]) mid₂) ∧
      outcome (runG exS (exGen [1]) mid₁) = some false ∧
      outcome (runG exS (exGen [1]) mid₂) = some false ∧
      (∀ e ∈ mid₁ ++ mid₂, ∀ id ok, e = .call id ok → (ok = true ↔ id ≠ b!"a")) ∧
      b!"b" ∈ calledIds (runG exS (exGen [1]) mid₁).log ∧
      b!"b" ∉ calledIds (runG exS (exGen [1]) mid₂).log := by
  refine ⟨[ .begin, .task b!"b", .call b!"b" true, .task b!"a", .call b!"a" false,
      .finish [b!"a", b!"b"] true ],
    [ .begin, .task b!"a", .call b!"a" false, .task b!"b", .finish [b!"a", b!"b"] true ],
    quietRun (by decide +kernel) (by decide) (by decide),
    quietRun (by decide +kernel) (by decide) (by decide),
    by decide +kernel, by decide +kernel, ?_, by decide +kernel, by decide +kernel⟩
  intro e he id ok hce
  subst hce
  simp only [List.cons_append, List.nil_append, List.mem_cons, reduceCtorEq, Event.call.injEq,
    List.not_mem_nil, or_false, false_or] at he
  rcases he with ⟨rfl, rfl⟩ | ⟨rfl, rfl⟩ | ⟨rfl, rfl⟩ <;> decide

end Verif.Generator
