import Verif.Generator.Examples

/-!
# Which callbacks a generator run executes (C28, C30, C31, C32, C33)
-/

namespace Verif.Generator
open Verif Verif.Schema Verif.Json
open Verif.Target (Reads fileHash upd)

variable {σ₀ σ₁ σ₂ σ₃ σ₄ σ₅ σ : Sys} {c : Cfg} {mid mid₁ mid₂ mid₃ : List Event}
  {d d₁ d₂ d₃ : Done}

/-! ## C28 -/

/-- C28, at every moment and whatever fails: a callback runs at most once, and only if its
id is new or something recorded for it changed. -/
theorem C28_only_needed (h : QuietRun σ₀ c mid σ) :
    (calledIds σ.log).Nodup ∧
      ∀ id ∈ calledIds σ.log, Need σ₀.files (loadGenFile σ₀.stateFile) c id :=
  ⟨h.sofar.nodup, fun _ hid => h.sofar.need hid⟩

/-- C28: in a successful run the callbacks that ran, each of them once, are those of the
ids that are new or for which something recorded changed. -/
theorem C28_exactly_needed (h : QuietRun σ₀ c mid σ) (hd : σ.done = some d) (hok : d.ok = true) :
    (calledIds σ.log).Nodup ∧
      ∀ id, id ∈ calledIds σ.log ↔ Need σ₀.files (loadGenFile σ₀.stateFile) c id := by
  refine ⟨h.sofar.nodup, fun id => ⟨fun hid => h.sofar.need hid, ?_⟩⟩
  rintro ⟨i, hi, hn⟩
  rw [called_mine]
  rcases (h.report hd).ended_ok hok hi with ⟨-, h2⟩ | ⟨h1, -⟩
  · exact ⟨true, by rw [h2]; simp⟩
  · obtain ⟨s, hs, hu⟩ := decision_false h1
    exact absurd hu (hn s hs)

/-- The hypotheses are met by a first run, which calls both ids. -/
example : (QuietRun exS (exGen [1]) exFullG (runG exS (exGen [1]) exFullG) ∧
    ∃ d, (runG exS (exGen [1]) exFullG).done = some d ∧ d.ok = true) ∧
    calledIds (runG exS (exGen [1]) exFullG).log = [b!"a", b!"b"] :=
  ⟨⟨quietRun (by decide +kernel) (by decide) (by decide), outcome_ok (by decide +kernel)⟩,
    by decide +kernel⟩

/-- And by a run after one of the inputs changed, which calls only `b`. -/
def exB : Sys := step (runG exS (exGen [1]) exFullG) (.edit b!"/p/b.in" 7)

example : (QuietRun exB (exGen [1]) exRetryG (runG exB (exGen [1]) exRetryG) ∧
    ∃ d, (runG exB (exGen [1]) exRetryG).done = some d ∧ d.ok = true) ∧
    calledIds (runG exB (exGen [1]) exRetryG).log = [b!"b"] :=
  ⟨⟨quietRun (by decide +kernel) (by decide) (by decide), outcome_ok (by decide +kernel)⟩,
    by decide +kernel⟩

/-! ## C30 -/

/-- C30: after a successful run, a run of the unchanged generator calls nothing, leaves
the state file alone, and succeeds unless something else fails. -/
theorem C30_null_run (hr : Reflexive c) (h₁ : QuietRun σ₀ c mid₁ σ₁) (hd₁ : σ₁.done = some d₁)
    (hok : d₁.ok = true) (hu : Untouched c σ₁ σ₂) (h₂ : QuietRun σ₂ c mid₂ σ₃) :
    calledIds σ₃.log = [] ∧ σ₃.stateFile = σ₂.stateFile ∧
      ∀ d, σ₃.done = some d → (d.ok = true ↔ Entry.other ∉ σ₃.log) := by
  have R₁ := h₁.report hd₁
  have hdec : ∀ id i, find id c = some i →
      decision σ₂.files (loadGenFile σ₂.stateFile) id i = some false := by
    intro id i hi
    have hk : id ∈ keys c := find_isSome.1 (by rw [hi]; rfl)
    rw [hu.stateFile, decision_congr (f := σ₀.files) (by
      intro p hp
      rw [hu.files p (inputs_mem hi hp), R₁.files])]
    exact R₁.settled rfl hr (R₁.noStoreFailed hok) hi (R₁.completed_ok hok hk)
  have hcall : calledIds σ₃.log = [] := by
    rw [List.eq_nil_iff_forall_not_mem]
    intro id hid
    obtain ⟨i, hi⟩ := Option.isSome_iff_exists.1 (find_isSome.2 (h₂.sofar.called_key hid))
    exact h₂.sofar.uncalled hi (by rw [hdec id i hi]; simp) hid
  have hbuild : computeBuild (loadGenFile σ₂.stateFile) c = false := by
    rw [hu.stateFile]; exact R₁.build_false rfl hok
  refine ⟨hcall, ?_, ?_⟩
  · cases hd : σ₃.done with
    | none => exact h₂.sofar.state hd
    | some d =>
      have R₂ := h₂.report hd
      cases hst : d.stored with
      | false => exact (R₂.unstored hst).1
      | true =>
        rcases R₂.storedDirty (.inl hst) with h | h
        · rw [hbuild] at h; simp at h
        · exact absurd hcall h
  · intro d hd
    have R₂ := h₂.report hd
    refine ⟨R₂.noOther, fun ho => ?_⟩
    rw [R₂.ok, R₂.okIff]
    -- only `unchanged` entries are left, or skipped ones after a failure, which there is not
    have hmine : ∀ e ∈ σ₃.log, ∀ id, e.about = some id → e = .unchanged id ∨ e = .skipped id := by
      intro e he id ha
      obtain ⟨i, hi⟩ := Option.isSome_iff_exists.1 (find_isSome.2 (R₂.only e he id ha))
      rw [mem_mine ha] at he
      rcases R₂.ended ho hi with ⟨h1, -⟩ | ⟨-, h2⟩ | ⟨h1, -⟩ | h2
      · rw [hdec id i hi] at h1; simp at h1
      · rw [h2] at he; exact .inl (List.mem_singleton.1 he)
      · rw [hdec id i hi] at h1; simp at h1
      · rw [h2] at he; exact .inr (List.mem_singleton.1 he)
    intro e he
    cases e with
    | called id b => have := hmine _ he id rfl; simp at this
    | unchanged id => rfl
    | broken id => have := hmine _ he id rfl; simp at this
    | skipped id => rfl
    | missing => exact absurd he R₂.noMissing
    | other => exact absurd he ho
    | storeFailed =>
      rcases R₂.storedDirty (.inr he) with h | h
      · rw [hbuild] at h; simp at h
      · exact absurd hcall h

/-- A full run followed by a null run. -/
def exOk : Sys := runG exS (exGen [1]) exFullG

theorem exOk_run : QuietRun exS (exGen [1]) exFullG exOk :=
  quietRun (by decide +kernel) (by decide) (by decide)

example : ∃ d, exOk.done = some d ∧ d.ok = true ∧
    calledIds (runG exOk (exGen [1]) exNullG).log = [] :=
  let ⟨d, h1, h2⟩ := outcome_ok (σ := exOk) (b := true) (by decide +kernel)
  ⟨d, h1, h2, (C30_null_run (exReflexive [1]) exOk_run h1 h2 Untouched.rfl'
    (quietRun (mid := exNullG) (by decide +kernel) (by decide) (by decide))).1⟩

/-! ## C31 -/

/-- C31: after a run that could store its state and in which nothing outside of the
generator failed, a run of the unchanged generator does not repeat the callback of any id
that was completed; and if it succeeds, it has called exactly the ids that were not
completed, that is, those that failed and those that were not looked at any more. -/
theorem C31_failed_retried (hr : Reflexive c) (h₁ : QuietRun σ₀ c mid₁ σ₁)
    (hd₁ : σ₁.done = some d₁) (hs : Entry.storeFailed ∉ σ₁.log) (ho : Entry.other ∉ σ₁.log)
    (hu : Untouched c σ₁ σ₂) (h₂ : QuietRun σ₂ c mid₂ σ₃) :
    (∀ id, Completed σ₁.log id → id ∉ calledIds σ₃.log) ∧
      ∀ d₂, σ₃.done = some d₂ → d₂.ok = true →
        ∀ id ∈ keys c, (id ∈ calledIds σ₃.log ↔ ¬ Completed σ₁.log id) := by
  have R₁ := h₁.report hd₁
  have hcongr : ∀ id i, find id c = some i →
      decision σ₂.files (loadGenFile σ₂.stateFile) id i
        = decision σ₀.files (loadGenFile σ₁.stateFile) id i := by
    intro id i hi
    rw [hu.stateFile, decision_congr (f := σ₀.files) (by
      intro p hp
      rw [hu.files p (inputs_mem hi hp), R₁.files])]
  have hnot : ∀ id, Completed σ₁.log id → id ∉ calledIds σ₃.log := by
    intro id hc
    obtain ⟨i, hi⟩ := Option.isSome_iff_exists.1 (find_isSome.2 (R₁.completed_key hc))
    refine h₂.sofar.uncalled hi ?_
    rw [hcongr id i hi, R₁.settled rfl hr hs hi hc]
    simp
  refine ⟨hnot, ?_⟩
  intro d₂ hd₂ hok id hk
  refine ⟨fun h hc => hnot id hc h, fun hc => ?_⟩
  obtain ⟨i, hi⟩ := Option.isSome_iff_exists.1 (find_isSome.2 hk)
  have R₂ := h₂.report hd₂
  rw [called_mine]
  rcases R₂.ended_ok hok hi with ⟨-, h2⟩ | ⟨h1, -⟩
  · exact ⟨true, by rw [h2]; simp⟩
  · exfalso
    rw [hcongr id i hi] at h1
    cases hst : d₁.stored with
    | true => exact (R₁.forgotten hst hc).2 h1
    | false =>
      obtain ⟨g1, g2⟩ := R₁.unstored hst
      rcases g2 with g2 | ⟨g2, -⟩
      · exact hs g2
      · rw [g1] at h1
        have hskip : Entry.skipped id ∈ σ₁.log := by
          rw [mem_mine (id := id) (by rfl)]
          rw [completed_mine] at hc
          rcases R₁.ended ho hi with ⟨e1, b, e2⟩ | ⟨e1, e2⟩ | ⟨e1, e2⟩ | e2
          · rw [h1] at e1; simp at e1
          · rw [e2] at hc; simp at hc
          · rw [h1] at e1; simp at e1
          · rw [e2]; simp
        have hnok := R₁.skip id hskip
        have : ¬ ∀ e ∈ σ₁.log, e.failed = false := by
          rw [← R₁.okIff, hnok]; simp
        simp only [Classical.not_forall] at this
        obtain ⟨e, he, hf⟩ := this
        cases e with
        | called id' b =>
          have : id' ∈ calledIds σ₁.log := mem_calledIds.2 ⟨b, he⟩
          rw [g2] at this; simp at this
        | unchanged id' => simp [Entry.failed] at hf
        | skipped id' => simp [Entry.failed] at hf
        | missing => exact R₁.noMissing he
        | storeFailed => exact hs he
        | other => exact ho he
        | broken id' =>
          obtain ⟨i', hi'⟩ := Option.isSome_iff_exists.1 (find_isSome.2 (R₁.only _ he id' rfl))
          rw [mem_mine (id := id') (by rfl)] at he
          have hnone : decision σ₀.files (loadGenFile σ₀.stateFile) id' i' = none := by
            rcases R₁.ended ho hi' with ⟨e1, b, e2⟩ | ⟨e1, e2⟩ | ⟨e1, e2⟩ | e2
            · rw [e2] at he; simp at he
            · rw [e2] at he; simp at he
            · exact e1
            · rw [e2] at he; simp at he
          rcases R₂.ended_ok hok hi' with ⟨e1, -⟩ | ⟨e1, -⟩ <;>
            rw [hcongr id' i' hi', g1, hnone] at e1 <;> simp at e1

/-- The run in which `b` fails, and its retry, which calls `b` only. -/
def exBad : Sys := runG exS (exGen [1]) exFailG

example : ∃ d d₂, exBad.done = some d ∧ d.ok = false ∧
    (runG exBad (exGen [1]) exRetryG).done = some d₂ ∧ d₂.ok = true ∧
    (b!"b" ∈ calledIds (runG exBad (exGen [1]) exRetryG).log ↔ ¬ Completed exBad.log b!"b") ∧
    calledIds (runG exBad (exGen [1]) exRetryG).log = [b!"b"] :=
  let ⟨d, h1, h2⟩ := outcome_ok (σ := exBad) (b := false) (by decide +kernel)
  let ⟨d₂, g1, g2⟩ := outcome_ok (σ := runG exBad (exGen [1]) exRetryG) (b := true) (by decide +kernel)
  ⟨d, d₂, h1, h2, g1, g2, (C31_failed_retried (exReflexive [1])
    (quietRun (mid := exFailG) (by decide +kernel) (by decide) (by decide)) h1 (by decide +kernel)
    (by decide +kernel) Untouched.rfl'
    (quietRun (mid := exRetryG) (by decide +kernel) (by decide) (by decide))).2 d₂ g1 g2 _ (by decide),
    by decide +kernel⟩

/-! ## C32 -/

/-- The generator without one id. -/
def without (id : Str) (c : Cfg) : Cfg := c.filter fun x => x.1 ≠ id

theorem find_without {id : Str} : ∀ {c : Cfg} {id' : Str},
    find id' (without id c) = if id' = id then none else find id' c := by
  intro c id'
  induction c with
  | nil => simp [without, find]
  | cons x c ih =>
    obtain ⟨k, i⟩ := x
    simp only [without] at ih
    by_cases hk : k = id
    · simp only [without, hk, ne_eq, not_true, decide_false, Bool.false_eq_true, not_false_eq_true,
        List.filter_cons_of_neg, ih, find]
      by_cases h : id' = id
      · simp [h]
      · have : ¬ id = id' := fun e => h e.symm
        simp [h, this]
    · simp only [without, ne_eq, hk, not_false_eq_true, decide_true, List.filter_cons_of_pos, find,
        ih]
      by_cases h : k = id'
      · subst h; simp [hk]
      · simp [h]

/-- C32: after a successful run, a run without one of the ids calls nothing; if it
succeeds, the state contains exactly the remaining ids; and when the id is added again
later, a successful run calls its callback and no other. -/
theorem C32_removed_id {id : Str} (hr : Reflexive c) (h₁ : QuietRun σ₀ c mid₁ σ₁)
    (hd₁ : σ₁.done = some d₁) (hok₁ : d₁.ok = true) (hid : id ∈ keys c) (hu : Untouched c σ₁ σ₂)
    (h₂ : QuietRun σ₂ (without id c) mid₂ σ₃) :
    calledIds σ₃.log = [] ∧
    ∀ d₂, σ₃.done = some d₂ → d₂.ok = true →
      (∃ s, loadGenFile σ₃.stateFile = some s ∧
        ∀ id', id' ∈ keys s.ids ↔ id' ∈ keys c ∧ id' ≠ id) ∧
      ∀ σ₄ σ₅ d₃, Untouched c σ₃ σ₄ → QuietRun σ₄ c mid₃ σ₅ → σ₅.done = some d₃ → d₃.ok = true →
        calledIds σ₅.log = [id] := by
  have R₁ := h₁.report hd₁
  have hw : ∀ id' i, find id' (without id c) = some i → find id' c = some i ∧ id' ≠ id := by
    intro id' i hi
    rw [find_without] at hi
    split at hi
    · simp at hi
    · exact ⟨hi, by assumption⟩
  have hdec : ∀ id' i, find id' c = some i →
      decision σ₂.files (loadGenFile σ₂.stateFile) id' i = some false := by
    intro id' i hi
    have hk : id' ∈ keys c := find_isSome.1 (by rw [hi]; rfl)
    rw [hu.stateFile, decision_congr (f := σ₀.files) (by
      intro p hp
      rw [hu.files p (inputs_mem hi hp), R₁.files])]
    exact R₁.settled rfl hr (R₁.noStoreFailed hok₁) hi (R₁.completed_ok hok₁ hk)
  have hcall : calledIds σ₃.log = [] := by
    rw [List.eq_nil_iff_forall_not_mem]
    intro id' hid'
    obtain ⟨i, hi⟩ := Option.isSome_iff_exists.1 (find_isSome.2 (h₂.sofar.called_key hid'))
    exact h₂.sofar.uncalled hi (by rw [hdec id' i (hw id' i hi).1]; simp) hid'
  refine ⟨hcall, ?_⟩
  intro d₂ hd₂ hok₂
  have R₂ := h₂.report hd₂
  have hbuild : computeBuild (loadGenFile σ₂.stateFile) (without id c) = true := by
    obtain ⟨i, hi⟩ := Option.isSome_iff_exists.1 (find_isSome.2 hid)
    obtain ⟨s, hs, -⟩ := decision_false (hdec id i hi)
    simp only [storedId] at hs
    cases hL : loadGenFile σ₂.stateFile with
    | none => rw [hL] at hs; simp at hs
    | some s' =>
      rw [hL] at hs
      simp only [Option.bind_some] at hs
      simp only [computeBuild, Bool.or_eq_true, List.any_eq_true]
      left
      exact ⟨_, find_mem hs, by simp [find_without]⟩
  have hstored : d₂.stored = true := by
    cases hst : d₂.stored with
    | true => rfl
    | false =>
      obtain ⟨-, h | ⟨-, h | h⟩⟩ := R₂.unstored hst
      · exact absurd h (R₂.noStoreFailed hok₂)
      · rw [hbuild] at h; simp at h
      · exact absurd h (R₂.noOther hok₂)
  obtain ⟨s, hs1, hs2, hs3⟩ := R₂.stored hstored
  have hkeys : ∀ id', id' ∈ keys s.ids ↔ id' ∈ keys c ∧ id' ≠ id := by
    intro id'
    have hkw : id' ∈ keys (without id c) ↔ id' ∈ keys c ∧ id' ≠ id := by
      rw [← find_isSome, ← find_isSome, find_without]
      by_cases h : id' = id <;> simp [h]
    rw [← hkw]
    constructor
    · intro hk
      refine Classical.not_not.1 fun hn => ?_
      have : ¬ Completed σ₃.log id' := fun hc => hn (R₂.completed_key hc)
      have := hs3 id' this
      rw [find_none] at this
      exact this hk
    · intro hk
      obtain ⟨i, hi⟩ := Option.isSome_iff_exists.1 (find_isSome.2 hk)
      obtain ⟨x, hx, -⟩ := hs2 id' i hi (R₂.completed_ok hok₂ hk)
      exact find_isSome.1 (by rw [hx]; rfl)
  refine ⟨⟨s, hs1, hkeys⟩, ?_⟩
  intro σ₄ σ₅ d₃ hu' h₃ hd₃ hok₃
  have R₃ := h₃.report hd₃
  have hrw : Reflexive (without id c) := fun id' i h b hi => hr id' i h b (hw id' i hi).1
  have h3 : ∀ id', id' ∈ calledIds σ₅.log ↔ id' = id := by
    intro id'
    constructor
    · intro hc
      refine Classical.not_not.1 fun hne => ?_
      have hk := h₃.sofar.called_key hc
      obtain ⟨i, hi⟩ := Option.isSome_iff_exists.1 (find_isSome.2 hk)
      have hi' : find id' (without id c) = some i := by rw [find_without, if_neg hne, hi]
      refine h₃.sofar.uncalled hi ?_ hc
      rw [hu'.stateFile, decision_congr (f := σ₂.files) (by
        intro p hp
        rw [hu'.files p (inputs_mem hi hp), R₂.files])]
      rw [R₂.settled rfl hrw (R₂.noStoreFailed hok₂) hi'
        (R₂.completed_ok hok₂ (find_isSome.1 (by rw [hi']; rfl)))]
      simp
    · rintro rfl
      refine ((C28_exactly_needed h₃ hd₃ hok₃).2 id').2 ?_
      obtain ⟨i, hi⟩ := Option.isSome_iff_exists.1 (find_isSome.2 hid)
      refine ⟨i, hi, ?_⟩
      intro x hx
      rw [hu'.stateFile, hs1] at hx
      simp only [storedId, Option.bind_some] at hx
      have := find_isSome.1 (show (find id' s.ids).isSome by rw [hx]; rfl)
      exact absurd rfl ((hkeys id').1 this).2
  have hnd := h₃.sofar.nodup
  revert hnd h3
  generalize calledIds σ₅.log = l
  intro h3 hnd
  match l, h3, hnd with
  | [], h3, _ => have := (h3 id).2 rfl; simp at this
  | [a], h3, _ => rw [(h3 a).1 (by simp)]
  | a :: b :: l, h3, hnd =>
    have ha := (h3 a).1 (by simp)
    have hb := (h3 b).1 (by simp)
    rw [ha, hb] at hnd
    simp at hnd

/-- Drop `b`, run, add it again. -/
def exDropped : Sys :=
  runG exOk (without b!"b" (exGen [1])) [.begin, .task b!"a", .finish [b!"a"] true]

example : calledIds exDropped.log = [] ∧
    ∃ d₃, (runG exDropped (exGen [1]) exRetryG).done = some d₃ ∧ d₃.ok = true ∧
      calledIds (runG exDropped (exGen [1]) exRetryG).log = [b!"b"] :=
  let ⟨_, h1, h2⟩ := outcome_ok (σ := exOk) (b := true) (by decide +kernel)
  let ⟨d₂, g1, g2⟩ := outcome_ok (σ := exDropped) (b := true) (by decide +kernel)
  let ⟨d₃, k1, k2⟩ := outcome_ok (σ := runG exDropped (exGen [1]) exRetryG) (b := true)
    (by decide +kernel)
  have h := C32_removed_id (mid₃ := exRetryG) (exReflexive [1]) exOk_run h1 h2
    (show b!"b" ∈ keys (exGen [1]) by decide) Untouched.rfl'
    (quietRun (mid := [.begin, .task b!"a", .finish [b!"a"] true]) (by decide +kernel)
      (by decide) (by decide))
  ⟨h.1, d₃, k1, k2, (h.2 d₂ g1 g2).2 _ _ d₃ Untouched.rfl'
    (quietRun (by decide +kernel) (by decide) (by decide)) k1 k2⟩

/-! ## C33 -/

def exChange : List Event :=
  [.begin, .task b!"a", .task b!"b", .call b!"a" true, .finish [b!"b", b!"a"] true]

/-- C33, the part that holds: if the handler of an id says that the data changed, a
successful run executes the callback again. -/
theorem C33_data_changed_partial {id : Str} {i : IdCfg} {hd : Handler} {s : IdInfo} {b : Blob}
    (h : QuietRun σ₀ c mid σ) (hdone : σ.done = some d) (hok : d.ok = true)
    (hi : find id c = some i) (hh : i.handler = some hd)
    (hs : storedId (loadGenFile σ₀.stateFile) id = some s) (hb : hd.serialize = some b)
    (hne : hd.isEqual s.userblob b ≠ some true) : id ∈ calledIds σ.log := by
  rw [(C28_exactly_needed h hdone hok).2]
  refine ⟨i, hi, ?_⟩
  intro s' hs' hu
  rw [hs] at hs'; simp only [Option.some.injEq] at hs'; subst hs'
  obtain ⟨b', h1, h2⟩ := hu.blob hd hh
  rw [hb] at h1; simp only [Option.some.injEq] at h1; subst h1
  exact hne h2

/-- The data of `a` changes from `[1]` to `[2]`. -/
example : ∃ d, (runG exOk (exGen [2]) exChange).done = some d ∧ d.ok = true ∧
    calledIds (runG exOk (exGen [2]) exChange).log = [b!"a"] :=
  let ⟨d, h1, h2⟩ := outcome_ok (σ := runG exOk (exGen [2]) exChange) (b := true) (by decide +kernel)
  ⟨d, h1, h2, by decide +kernel⟩

/-- C33 is false when the handler is taken away: whatever was recorded, if files and
outputs are the same then the callback does not run. -/
theorem C33_handler_removed_false {id : Str} {i : IdCfg} {s : IdInfo}
    (h : QuietRun σ₀ c mid σ) (hi : find id c = some i) (hh : i.handler = none)
    (hs : storedId (loadGenFile σ₀.stateFile) id = some s)
    (hin : recorded s.inputs = versions σ₀.files i.inputs) (hout : s.outputs = i.outputs) :
    id ∉ calledIds σ.log := by
  intro hc
  obtain ⟨i', hi', hn⟩ := h.sofar.need hc
  rw [hi] at hi'; simp only [Option.some.injEq] at hi'; subst hi'
  exact hn s hs ⟨hin, hout, fun hd hhd => by rw [hh] at hhd; simp at hhd⟩

/-- The generator without any data. -/
def exNoData : Cfg :=
  [ (b!"a", ⟨[b!"/p/a.in"], [b!"/p/a.out"], none⟩),
    (b!"b", ⟨[b!"/p/b.in", b!"/p/a.in"], [b!"/p/b.out"], none⟩) ]

/-- After a successful run with the data `[1]`, the handler is removed: nothing is
called, the run succeeds. -/
example : (storedId (loadGenFile exOk.stateFile) b!"a").map (·.userblob) = some [1] ∧
    outcome (runG exOk exNoData exNullG) = some true ∧
    calledIds (runG exOk exNoData exNullG).log = [] :=
  ⟨by decide +kernel, by decide +kernel, by decide +kernel⟩

/-- C33 is false when a handler is added whose `Verify` rejects the blob that was
recorded before (empty, without a handler): the callback does not run and the run fails. -/
theorem C33_handler_added_false {id : Str} {i : IdCfg} {s : IdInfo} {hd : Handler}
    (h : QuietRun σ₀ c mid σ) (hi : find id c = some i) (hh : i.handler = some hd)
    (hs : storedId (loadGenFile σ₀.stateFile) id = some s)
    (hv : hd.verify s.userblob = false)
    (hin : recorded s.inputs = versions σ₀.files i.inputs) (hout : s.outputs = i.outputs) :
    id ∉ calledIds σ.log ∧ ∀ d, σ.done = some d → d.ok = false := by
  have hdec : decision σ₀.files (loadGenFile σ₀.stateFile) id i = none := by
    simp only [storedId] at hs
    simp only [decision, hs]
    cases hcv : convert σ₀.files i with
    | none => rfl
    | some cur =>
      have hcur := convert_iff.1 hcv
      have e1 : s.inputs = cur.inputs := recorded_inj (hin.trans hcur.1.symm)
      have e2 : s.outputs = cur.outputs := hout.trans hcur.2.1.symm
      simp [isChanged, e1, e2, hh, Handler.checkChanged, hv]
  refine ⟨h.sofar.uncalled hi (by rw [hdec]; simp), ?_⟩
  intro d hdone
  cases hok : d.ok with
  | false => rfl
  | true =>
    rcases (h.report hdone).ended_ok hok hi with ⟨h1, -⟩ | ⟨h1, -⟩ <;> rw [hdec] at h1 <;> simp at h1

/-- After a successful run without data, a handler is added: the run fails, and so does
every later one. -/
example : outcome (runG exS exNoData exFullG) = some true ∧
    outcome (runG (runG exS exNoData exFullG) (exGen [1]) exNullG) = some false ∧
    calledIds (runG (runG exS exNoData exFullG) (exGen [1]) exNullG).log = [] ∧
    outcome (runG (runG (runG exS exNoData exFullG) (exGen [1]) exNullG) (exGen [1]) exNullG)
      = some false :=
  ⟨by decide +kernel, by decide +kernel, by decide +kernel, by decide +kernel⟩

end Verif.Generator
