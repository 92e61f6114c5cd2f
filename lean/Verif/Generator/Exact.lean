import Verif.Generator.Report

/-! # Decisions of the run after a run -/

namespace Verif.Generator
open Verif Verif.Schema Verif.Json
open Verif.Target (Reads fileHash upd)

variable {f : Str → Option Nat} {L : Option GenSchema} {c : Cfg} {sf : Option Str} {σ : Sys}
  {d : Done}

theorem Report.ended (h : Report f L c sf σ d) (ho : Entry.other ∉ σ.log) {id : Str} {i : IdCfg}
    (hi : find id c = some i) :
    (decision f L id i = some true ∧ ∃ b, mine id σ.log = [.called id b]) ∨
    (decision f L id i = some false ∧ mine id σ.log = [.unchanged id]) ∨
    (decision f L id i = none ∧ mine id σ.log = [.broken id]) ∨
    mine id σ.log = [.skipped id] := by
  obtain ⟨s, hs, he⟩ := h.each id i hi
  rcases he with he | he
  · cases s with
    | waiting => simp [Status.isEnded] at he
    | calling => simp [Status.isEnded] at he
    | ended a b =>
      cases a <;> cases b <;> simp only [StatusOk] at hs
      · rcases hs with hs | hs
        · exact .inr (.inr (.inl hs))
        · exact .inr (.inr (.inr hs))
      · exact .inr (.inl hs)
      · exact .inl ⟨hs.1, _, hs.2⟩
      · exact .inl ⟨hs.1, _, hs.2⟩
  · exact absurd he.2 ho

theorem Report.noOther (h : Report f L c sf σ d) (hok : d.ok = true) : Entry.other ∉ σ.log := by
  intro hm
  have := h.okIff.1 (h.ok ▸ hok) _ hm
  simp [Entry.failed] at this

/-- In a successful run every id was called with success or found unchanged. -/
theorem Report.ended_ok (h : Report f L c sf σ d) (hok : d.ok = true) {id : Str} {i : IdCfg}
    (hi : find id c = some i) :
    (decision f L id i = some true ∧ mine id σ.log = [.called id true]) ∨
    (decision f L id i = some false ∧ mine id σ.log = [.unchanged id]) := by
  have hall := h.okIff.1 (h.ok ▸ hok)
  have hfail : ∀ e ∈ mine id σ.log, e.failed = false := fun e he => hall e (List.mem_filter.1 he).1
  rcases h.ended (h.noOther hok) hi with ⟨h1, b, h2⟩ | h1 | ⟨h1, h2⟩ | h1
  · rw [h2] at hfail
    have := hfail _ (List.mem_singleton.2 rfl)
    simp only [Entry.failed, Bool.not_eq_false'] at this
    subst this
    exact .inl ⟨h1, h2⟩
  · exact .inr h1
  · rw [h2] at hfail
    have := hfail _ (List.mem_singleton.2 rfl)
    simp [Entry.failed] at this
  · have hm : Entry.skipped id ∈ σ.log := by
      rw [mem_mine (id := id) (by rfl), h1]; simp
    have := h.skip id hm
    rw [← h.ok, hok] at this; simp at this

theorem Report.completed_ok (h : Report f L c sf σ d) (hok : d.ok = true) {id : Str}
    (hk : id ∈ keys c) : Completed σ.log id := by
  obtain ⟨i, hi⟩ := Option.isSome_iff_exists.1 (find_isSome.2 hk)
  rw [completed_mine]
  rcases h.ended_ok hok hi with ⟨-, h2⟩ | ⟨-, h2⟩ <;> rw [h2] <;> simp

theorem Report.completed_key (h : Report f L c sf σ d) {id : Str} (hc : Completed σ.log id) :
    id ∈ keys c := by
  rcases hc with hc | hc <;> exact h.only _ hc id rfl

theorem decision_refl {id : Str} {i : IdCfg} {x : IdInfo} (hx : convert f i = some x)
    (hs : storedId L id = some x)
    (hr : ∀ h b, i.handler = some h → h.serialize = some b → h.isEqual b b = some true) :
    decision f L id i = some false := by
  simp only [storedId] at hs
  simp only [decision, hx, hs, isChanged]
  simp only [ne_eq, not_true, decide_false, Bool.or_self, Bool.false_eq_true, if_false]
  have hb := (convert_iff.1 hx).2.2
  cases hh : i.handler with
  | none => rfl
  | some h =>
    rw [hh] at hb
    obtain ⟨h1, h2⟩ := blobOf_some hb
    simp [Handler.checkChanged, h2, hr h _ hh h1]

/-- After a run that could store its state, an id that was completed needs nothing. -/
theorem Report.settled (h : Report f L c sf σ d) (hL : L = loadGenFile sf) (hr : Reflexive c)
    (hs : Entry.storeFailed ∉ σ.log) {id : Str} {i : IdCfg}
    (hi : find id c = some i) (hc : Completed σ.log id) :
    decision f (loadGenFile σ.stateFile) id i = some false := by
  cases hst : d.stored with
  | true =>
    obtain ⟨s, h1, h2, -⟩ := h.stored hst
    obtain ⟨x, hx1, hx2⟩ := h2 id i hi hc
    rw [h1]
    exact decision_refl hx2 hx1 fun hd b hh hb => hr id i hd b hi hh hb
  | false =>
    obtain ⟨h1, h2⟩ := h.unstored hst
    rw [h1, ← hL]
    rcases h2 with h2 | ⟨h2, h3⟩
    · exact absurd h2 hs
    · have hcm := completed_mine.1 hc
      have hnc : id ∉ calledIds σ.log := by rw [h2]; simp
      rw [called_mine] at hnc
      have hun : Entry.unchanged id ∈ mine id σ.log := by
        rcases hcm with hcm | hcm
        · exact absurd ⟨_, hcm⟩ hnc
        · exact hcm
      obtain ⟨st, hst', -⟩ := h.each id i hi
      cases st with
      | waiting => simp only [StatusOk] at hst'; rw [hst'] at hun; simp at hun
      | calling => simp only [StatusOk] at hst'; rw [hst'.2] at hun; simp at hun
      | ended a b =>
        cases a <;> cases b <;> simp only [StatusOk] at hst'
        · rcases hst' with h | h
          · rw [h.2] at hun; simp at hun
          · rw [h] at hun; simp at hun
        · exact hst'.1
        · rw [hst'.2] at hun; simp at hun
        · rw [hst'.2] at hun; simp at hun

/-- An id that was not completed is not in a state that was stored. -/
theorem Report.forgotten (h : Report f L c sf σ d) (hst : d.stored = true) {id : Str} {i : IdCfg}
    (hc : ¬ Completed σ.log id) : storedId (loadGenFile σ.stateFile) id = none ∧
      decision f (loadGenFile σ.stateFile) id i ≠ some false := by
  obtain ⟨s, h1, -, h3⟩ := h.stored hst
  have : storedId (loadGenFile σ.stateFile) id = none := by rw [h1]; exact h3 id hc
  refine ⟨this, ?_⟩
  simp only [storedId] at this
  simp only [decision, this]
  cases convert f i <;> simp

theorem Sofar.uncalled (h : Sofar f L c sf σ) {id : Str} {i : IdCfg} (hi : find id c = some i)
    (hd : decision f L id i ≠ some true) : id ∉ calledIds σ.log := by
  rw [called_mine]
  obtain ⟨s, hs⟩ := h.each id i hi
  rintro ⟨b, hb⟩
  cases s with
  | waiting => simp only [StatusOk] at hs; rw [hs] at hb; simp at hb
  | calling => simp only [StatusOk] at hs; rw [hs.2] at hb; simp at hb
  | ended a b =>
    cases a <;> cases b <;> simp only [StatusOk] at hs
    · rcases hs with h | h
      · rw [h.2] at hb; simp at hb
      · rw [h] at hb; simp at hb
    · rw [hs.2] at hb; simp at hb
    · exact hd hs.1
    · exact hd hs.1

theorem Sofar.called_key (h : Sofar f L c sf σ) {id : Str} (hc : id ∈ calledIds σ.log) :
    id ∈ keys c := by
  obtain ⟨b, hb⟩ := mem_calledIds.1 hc
  exact h.only _ hb id rfl

/-- After a successful run the stored ids are the configured ones. -/
theorem Report.build_false (h : Report f L c sf σ d) (hL : L = loadGenFile sf) (hok : d.ok = true) :
    computeBuild (loadGenFile σ.stateFile) c = false := by
  cases hst : d.stored with
  | true =>
    obtain ⟨s, h1, h2, h3⟩ := h.stored hst
    rw [h1]
    simp only [computeBuild, Bool.or_eq_false_iff, List.any_eq_false]
    refine ⟨?_, ?_⟩
    · intro x hx
      have hk : x.1 ∈ keys s.ids := List.mem_map.2 ⟨x, hx, rfl⟩
      have hcm : Completed σ.log x.1 := by
        refine Classical.not_not.1 fun hn => ?_
        have := h3 x.1 hn
        rw [find_none] at this
        exact this hk
      have := find_isSome.2 (h.completed_key hcm)
      simp only [Option.isNone_iff_eq_none]
      intro e; rw [e] at this; simp at this
    · intro x hx
      have hk : x.1 ∈ keys c := List.mem_map.2 ⟨x, hx, rfl⟩
      obtain ⟨i, hi⟩ := Option.isSome_iff_exists.1 (find_isSome.2 hk)
      obtain ⟨y, hy, -⟩ := h2 x.1 i hi (h.completed_ok hok hk)
      rw [hy]; simp
  | false =>
    obtain ⟨h1, h2⟩ := h.unstored hst
    rw [h1, ← hL]
    rcases h2 with h2 | ⟨-, h2 | h2⟩
    · have := h.okIff.1 (h.ok ▸ hok) _ h2
      simp [Entry.failed] at this
    · exact h2
    · exact absurd h2 (h.noOther hok)

theorem Report.noStoreFailed (h : Report f L c sf σ d) (hok : d.ok = true) :
    Entry.storeFailed ∉ σ.log := by
  intro hm
  have := h.okIff.1 (h.ok ▸ hok) _ hm
  simp [Entry.failed] at this

end Verif.Generator
