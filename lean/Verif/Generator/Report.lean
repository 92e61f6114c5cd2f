import Verif.Generator.Track

/-! # What a finished quiet run did and stored -/

namespace Verif.Generator
open Verif Verif.Schema Verif.Json
open Verif.Target (Reads fileHash upd)

variable {f : Str → Option Nat} {L : Option GenSchema} {c : Cfg} {sf : Option Str}

structure Report (f : Str → Option Nat) (L : Option GenSchema) (c : Cfg) (sf : Option Str)
    (σ : Sys) (d : Done) : Prop where
  cfg : d.cfg = c
  ok : d.ok = σ.ok
  okIff : σ.ok = true ↔ ∀ e ∈ σ.log, e.failed = false
  only : ∀ e ∈ σ.log, ∀ id, e.about = some id → id ∈ keys c
  skip : ∀ id, Entry.skipped id ∈ σ.log → σ.ok = false
  each : ∀ id i, find id c = some i →
    ∃ s, StatusOk f L id i σ.log s ∧ (s.isEnded = true ∨ (s = .waiting ∧ Entry.other ∈ σ.log))
  stored : d.stored = true → ∃ s, loadGenFile σ.stateFile = some s ∧
    (∀ id i, find id c = some i → Completed σ.log id → ∃ x, find id s.ids = some x ∧
      convert f i = some x) ∧
    (∀ id, ¬ Completed σ.log id → find id s.ids = none)
  unstored : d.stored = false → σ.stateFile = sf ∧
    (Entry.storeFailed ∈ σ.log ∨
      (calledIds σ.log = [] ∧ (computeBuild L c = false ∨ Entry.other ∈ σ.log)))
  noMissing : Entry.missing ∉ σ.log
  files : σ.files = f
  storedDirty : d.stored = true ∨ Entry.storeFailed ∈ σ.log →
    computeBuild L c = true ∨ calledIds σ.log ≠ []

theorem decision_convert {id : Str} {i : IdCfg} {b : Bool} (h : decision f L id i = some b) :
    ∃ s, convert f i = some s := by
  simp only [decision] at h
  split at h
  · simp at h
  · exact ⟨_, by assumption⟩

theorem StatusOk.good {id : Str} {i : IdCfg} {log : List Entry} {s : Status}
    (h : StatusOk f L id i log s) (hs : s.good = true) : ∃ x, convert f i = some x := by
  cases s with
  | waiting => simp [Status.good] at hs
  | calling => simp [Status.good] at hs
  | ended a b =>
    simp only [Status.good] at hs; subst hs
    cases a
    · exact decision_convert h.1
    · exact decision_convert h.1

theorem completed_mine {log : List Entry} {id : Str} : Completed log id ↔
    Entry.called id true ∈ mine id log ∨ Entry.unchanged id ∈ mine id log :=
  or_congr (mem_mine rfl) (mem_mine rfl)

theorem called_mine {log : List Entry} {id : Str} : id ∈ calledIds log ↔
    ∃ b, Entry.called id b ∈ mine id log := by
  rw [mem_calledIds]
  exact exists_congr fun b => mem_mine rfl

theorem StatusOk.completed {id : Str} {i : IdCfg} {log : List Entry} {s : Status}
    (h : StatusOk f L id i log s) : Completed log id ↔ s.good = true := by
  rw [completed_mine]
  cases s with
  | waiting => simp only [StatusOk] at h; rw [h]; simp [Status.good]
  | calling => simp only [StatusOk] at h; rw [h.2]; simp [Status.good]
  | ended a b =>
    cases a <;> cases b <;> simp only [StatusOk] at h
    · rcases h with h | h
      · rw [h.2]; simp [Status.good]
      · rw [h]; simp [Status.good]
    · rw [h.2]; simp [Status.good]
    · rw [h.2]; simp [Status.good]
    · rw [h.2]; simp [Status.good]

theorem StatusOk.called {id : Str} {i : IdCfg} {log : List Entry} {s : Status}
    (h : StatusOk f L id i log s) (hs : s.isEnded = true) : id ∈ calledIds log ↔ s.ran = true := by
  rw [called_mine]
  cases s with
  | waiting => simp [Status.isEnded] at hs
  | calling => simp [Status.isEnded] at hs
  | ended a b =>
    cases a <;> cases b <;> simp only [StatusOk] at h
    · rcases h with h | h
      · rw [h.2]; simp [Status.ran]
      · rw [h]; simp [Status.ran]
    · rw [h.2]; simp [Status.ran]
    · rw [h.2]; simp [Status.ran]
    · rw [h.2]; simp [Status.ran]

theorem convertAll_spec {r : Run} (hg : ∀ id i, find id r.cfg = some i → (r.status id).good = true →
      ∃ x, convert f i = some x) (hsub : ∀ id ∈ keys r.cfg, True) :
    ∀ order : List Str, order.Nodup → (∀ id ∈ order, id ∈ keys r.cfg) →
      ∃ l, convertAll f r order = some l ∧ (keys l).Sublist order ∧
        (∀ id ∈ order, ∀ i, find id r.cfg = some i → (r.status id).good = true →
          ∃ x, find id l = some x ∧ convert f i = some x) ∧
        (∀ id, (r.status id).good = false → find id l = none) := by
  intro order
  induction order with
  | nil => intro _ _; exact ⟨[], rfl, .refl _, by simp, fun _ _ => rfl⟩
  | cons a order ih =>
    intro hn hm
    obtain ⟨l, h1, h2, h3, h4⟩ := ih (List.nodup_cons.1 hn).2 fun id hid => hm id (by simp [hid])
    simp only [convertAll]
    cases ha : (r.status a).good with
    | false =>
      refine ⟨l, by simpa using h1, .cons _ h2, ?_, h4⟩
      intro id hid i hi hgd
      rcases List.mem_cons.1 hid with rfl | hid
      · rw [ha] at hgd; simp at hgd
      · exact h3 id hid i hi hgd
    | true =>
      obtain ⟨ia, hia⟩ := Option.isSome_iff_exists.1 (find_isSome.2 (hm a (by simp)))
      obtain ⟨x, hx⟩ := hg a ia hia ha
      refine ⟨(a, x) :: l, by simp [hia, hx, h1], h2.cons₂ _, ?_, ?_⟩
      · intro id hid i hi hgd
        by_cases e : a = id
        · subst e
          rw [hia] at hi; simp only [Option.some.injEq] at hi; subst hi
          exact ⟨x, by simp [find], hx⟩
        · rcases List.mem_cons.1 hid with rfl | hid
          · exact absurd rfl e
          · simp only [find, e, if_false]
            exact h3 id hid i hi hgd
      · intro id hb
        have e : a ≠ id := by rintro rfl; rw [ha] at hb; simp at hb
        simp only [find, e, if_false]
        exact h4 id hb

theorem finish_cases (σ : Sys) (r : Run) (order : List Str) (b : Bool) :
    (r.dirty = false ∧ finishRun σ r order b =
      { σ with run := none, done := some ⟨r.cfg, σ.ok, false⟩ }) ∨
    (r.dirty = true ∧ toStore σ.files r order = none ∧ finishRun σ r order b =
      { σ.fail .missing with
        run := none, lost := r.lose σ.lost, done := some ⟨r.cfg, false, false⟩ }) ∨
    (∃ s t, r.dirty = true ∧ toStore σ.files r order = some s ∧ genText s = some t ∧
      finishRun σ r order b =
      { σ with stateFile := some t, run := none, lost := [], done := some ⟨r.cfg, σ.ok, true⟩ }) ∨
    (r.dirty = true ∧ finishRun σ r order b =
      { σ.fail .storeFailed with
        run := none, lost := r.lose σ.lost, done := some ⟨r.cfg, false, false⟩ }) := by
  simp only [finishRun]
  cases hd : r.dirty with
  | false => simp
  | true =>
    simp only [if_true]
    cases ht : toStore σ.files r order with
    | none => simp
    | some s =>
      simp only
      cases hg : genText s with
      | none => simp [storeText, Sys.fail]
      | some t =>
        cases b with
        | false => simp [storeText, Sys.fail]
        | true =>
          refine .inr (.inr (.inl ⟨s, t, trivial, rfl, hg, ?_⟩))
          simp [storeText]

theorem mine_append_silent {log : List Entry} {e : Entry} (h : e.about = none) (id : Str) :
    mine id (log ++ [e]) = mine id log := mine_append_other (by rw [h]; simp)

theorem completed_append {log : List Entry} {e : Entry} {id : Str} (h : e.about = none) :
    Completed (log ++ [e]) id ↔ Completed log id := by
  rw [completed_mine, completed_mine, mine_append_silent h]

theorem joined_iff {r : Run} : r.joined = true ↔
    r.began = true ∧ ∀ id ∈ keys r.cfg, (r.status id).isEnded = true := by
  simp [Run.joined]

theorem dirty_iff {r : Run} : r.dirty = true ↔
    computeBuild r.load r.cfg = true ∨ ∃ id ∈ keys r.cfg, (r.status id).ran = true := by
  simp [Run.dirty]

theorem report_finished {σ' : Sys} {r : Run} {order : List Str} {b : Bool} {d : Done}
    (hn : (keys c).Nodup) (ht : Track f L c sf σ' r) (hj : r.joined = true)
    (ho : order.Perm (keys c)) (hd : (finishRun σ' r order b).done = some d) :
    Report f L c sf (finishRun σ' r order b) d := by
  have hend : ∀ id i, find id c = some i → (r.status id).isEnded = true := by
    intro id i hi
    refine (joined_iff.1 hj).2 id ?_
    rw [ht.cfg]
    exact find_isSome.1 (by rw [hi]; rfl)
  have hcompleted : ∀ id, Completed σ'.log id → id ∈ keys c := by
    rintro id (h | h) <;> exact ht.only _ h id rfl
  obtain ⟨l, hl1, hl2, hl3, hl4⟩ := convertAll_spec (f := f) (r := r)
    (by
      intro id i hi hg
      rw [ht.cfg] at hi
      exact (ht.ids id i hi).good hg) (fun _ _ => trivial) order
    (ho.nodup_iff.2 hn) (by intro id hid; rw [ht.cfg]; exact ho.mem_iff.1 hid)
  have hts : toStore σ'.files r order = some ⟨[], l⟩ := by
    simp [toStore, ht.files, hl1]
  have hnone : ∀ id, ¬ Completed σ'.log id → find id l = none := by
    intro id hc
    by_cases hk : id ∈ keys c
    · obtain ⟨i, hi⟩ := Option.isSome_iff_exists.1 (find_isSome.2 hk)
      rw [(ht.ids id i hi).completed, Bool.not_eq_true] at hc
      exact hl4 id hc
    · rw [find_none]
      exact fun h => hk (ho.mem_iff.1 (hl2.subset h))
  have each : ∀ log, (∀ id, mine id log = mine id σ'.log) → ∀ id i, find id c = some i →
      ∃ s, StatusOk f L id i log s ∧ (s.isEnded = true ∨ (s = .waiting ∧ Entry.other ∈ log)) := by
    intro log hlog id i hi
    refine ⟨r.status id, ?_, .inl (hend id i hi)⟩
    have := ht.ids id i hi
    revert this
    generalize r.status id = s
    cases s with
    | waiting => simp only [StatusOk, hlog]; exact _root_.id
    | calling => simp only [StatusOk, hlog]; exact _root_.id
    | ended a b => cases a <;> cases b <;> simp only [StatusOk, hlog] <;> exact _root_.id
  have called : r.dirty = false → calledIds σ'.log = [] ∧ computeBuild L c = false := by
    intro hdi
    have h1 : ¬ (computeBuild r.load r.cfg = true ∨ ∃ id ∈ keys r.cfg, (r.status id).ran = true) := by
      rw [← dirty_iff, hdi]; simp
    rw [not_or, ht.cfg, ht.load] at h1
    refine ⟨?_, by simpa using h1.1⟩
    rw [List.eq_nil_iff_forall_not_mem]
    intro id hid
    obtain ⟨b, hb⟩ := mem_calledIds.1 hid
    have hk := ht.only _ hb id rfl
    obtain ⟨i, hi⟩ := Option.isSome_iff_exists.1 (find_isSome.2 hk)
    exact h1.2 ⟨id, hk, ((ht.ids id i hi).called (hend id i hi)).1 hid⟩
  have dirty : r.dirty = true → computeBuild L c = true ∨ calledIds σ'.log ≠ [] := by
    intro hdi
    rw [dirty_iff, ht.cfg, ht.load] at hdi
    rcases hdi with h | ⟨id, hk, hran⟩
    · exact .inl h
    · right
      obtain ⟨i, hi⟩ := Option.isSome_iff_exists.1 (find_isSome.2 hk)
      have := ((ht.ids id i hi).called (hend id i hi)).2 hran
      intro e
      rw [e] at this; simp at this
  rcases finish_cases σ' r order b with ⟨h1, h2⟩ | ⟨h1, h2, h3⟩ | ⟨s, t, h1, h2, h3, h4⟩ | ⟨h1, h2⟩
  · rw [h2] at hd ⊢
    simp only [Option.some.injEq] at hd; subst hd
    refine ⟨ht.cfg, rfl, ht.ok, ht.only, ht.skip, each _ fun _ => rfl, ?_, ?_, ht.clean.1, ht.files,
      by simp [ht.clean.2]⟩
    · intro h; simp at h
    · intro _; exact ⟨ht.state, .inr ⟨(called h1).1, .inl (called h1).2⟩⟩
  · rw [hts] at h2; simp at h2
  · rw [h4] at hd ⊢
    simp only [Option.some.injEq] at hd; subst hd
    rw [hts] at h2; simp only [Option.some.injEq] at h2; subst h2
    refine ⟨ht.cfg, rfl, ht.ok, ht.only, ht.skip, each _ fun _ => rfl, ?_, ?_, ht.clean.1, ht.files, fun _ => dirty h1⟩
    · intro _
      have hln : (l.map Prod.fst).Nodup := by
        have := (ho.nodup_iff.2 hn).sublist hl2
        exact this
      refine ⟨⟨[], l⟩, ?_, ?_, hnone⟩
      · simp only [loadGenFile, loadFile, Option.bind_some]
        exact loadGen_text hln h3
      · intro id i hi hc
        have hk := hcompleted id hc
        rw [(ht.ids id i hi).completed] at hc
        exact hl3 id (ho.mem_iff.2 hk) i (by rw [ht.cfg]; exact hi) hc
    · intro h; simp at h
  · rw [h2] at hd ⊢
    simp only [Option.some.injEq] at hd; subst hd
    refine ⟨ht.cfg, rfl, ?_, ?_, ?_, each _ ?_, ?_, ?_, ?_, ht.files, fun _ => ?_⟩
    · simp only [Sys.fail, Bool.false_eq_true, false_iff]
      intro h
      have := h .storeFailed (by simp)
      simp [Entry.failed] at this
    · intro e he id hid
      simp only [Sys.fail, List.mem_append, List.mem_singleton] at he
      rcases he with he | rfl
      · exact ht.only e he id hid
      · simp [Entry.about] at hid
    · intro _ _; rfl
    · exact mine_append_silent rfl
    · intro h; simp at h
    · intro _
      exact ⟨ht.state, .inl (by simp [Sys.fail])⟩
    · simp only [Sys.fail, List.mem_append, List.mem_singleton, reduceCtorEq, or_false]
      exact ht.clean.1
    · simp only [Sys.fail, calledIds_append]
      rcases dirty h1 with h | h
      · exact .inl h
      · right; simpa [calledIds] using h

theorem report_never {σ' : Sys} {r : Run} {d : Done} (ht : Track f L c sf σ' r)
    (hb : r.began = false) (hok : σ'.ok = false) (hd : some ⟨c, false, false⟩ = some d) :
    Report f L c sf { σ' with run := none, done := some ⟨c, false, false⟩ } d := by
  simp only [Option.some.injEq] at hd; subst hd
  have hmine : ∀ id ∈ keys c, mine id σ'.log = [] := by
    intro id hk
    obtain ⟨i, hi⟩ := Option.isSome_iff_exists.1 (find_isSome.2 hk)
    have := ht.ids id i hi
    rw [ht.idle hb id] at this
    exact this
  have habout : ∀ e ∈ σ'.log, e.about = none := by
    intro e he
    cases ha : e.about with
    | none => rfl
    | some id =>
      have hk := ht.only e he id ha
      have := (mem_mine ha).1 he
      rw [hmine id hk] at this
      simp at this
  have hother : Entry.other ∈ σ'.log := by
    have h1 : ¬ ∀ e ∈ σ'.log, e.failed = false := by rw [← ht.ok, hok]; simp
    simp only [Classical.not_forall] at h1
    obtain ⟨e, he, hf⟩ := h1
    cases e with
    | other => exact he
    | missing => exact absurd he ht.clean.1
    | storeFailed => exact absurd he ht.clean.2
    | called id b => have := habout _ he; simp [Entry.about] at this
    | unchanged id => have := habout _ he; simp [Entry.about] at this
    | broken id => have := habout _ he; simp [Entry.about] at this
    | skipped id => have := habout _ he; simp [Entry.about] at this
  refine ⟨rfl, hok.symm, ht.ok, ht.only, ht.skip, ?_, ?_, ?_, ht.clean.1, ht.files,
    by simp [ht.clean.2]⟩
  · intro id i hi
    refine ⟨.waiting, ?_, .inr ⟨rfl, hother⟩⟩
    exact hmine id (find_isSome.1 (by rw [hi]; rfl))
  · intro h; simp at h
  · intro _
    refine ⟨ht.state, .inr ⟨?_, .inr hother⟩⟩
    rw [List.eq_nil_iff_forall_not_mem]
    intro id hid
    obtain ⟨b, hb⟩ := mem_calledIds.1 hid
    have := habout _ hb
    simp [Entry.about] at this

theorem QuietRun.report {σ₀ σ : Sys} {mid : List Event} {d : Done} (h : QuietRun σ₀ c mid σ)
    (hd : σ.done = some d) :
    Report σ₀.files (loadGenFile σ₀.stateFile) c σ₀.stateFile σ d := by
  rcases h.tinv with ⟨r, hr, hdn, -⟩ | ⟨hr, hE⟩
  · rw [hd] at hdn; simp at hdn
  · cases hE with
    | finished σ' r order b ht hj ho => exact report_finished h.ids ht hj ho hd
    | never σ' r ht hb hok => exact report_never ht hb hok hd

/-- At every moment of a quiet run. -/
structure Sofar (f : Str → Option Nat) (L : Option GenSchema) (c : Cfg) (sf : Option Str)
    (σ : Sys) : Prop where
  state : σ.done = none → σ.stateFile = sf
  only : ∀ e ∈ σ.log, ∀ id, e.about = some id → id ∈ keys c
  each : ∀ id i, find id c = some i → ∃ s, StatusOk f L id i σ.log s

theorem QuietRun.sofar {σ₀ σ : Sys} {mid : List Event} (h : QuietRun σ₀ c mid σ) :
    Sofar σ₀.files (loadGenFile σ₀.stateFile) c σ₀.stateFile σ := by
  rcases h.tinv with ⟨r, hr, hdn, ht⟩ | ⟨hr, hE⟩
  · exact ⟨fun _ => ht.state, ht.only, fun id i hi => ⟨_, ht.ids id i hi⟩⟩
  · have : ∃ d, σ.done = some d := by
      cases hE with
      | finished σ' r order b ht hj ho =>
        rcases finish_cases σ' r order b with ⟨_, h2⟩ | ⟨_, _, h3⟩ | ⟨s, t, _, _, _, h4⟩ | ⟨_, h2⟩
        · exact ⟨_, by rw [h2]⟩
        · exact ⟨_, by rw [h3]⟩
        · exact ⟨_, by rw [h4]⟩
        · exact ⟨_, by rw [h2]⟩
      | never σ' r ht hb hok => exact ⟨_, rfl⟩
    obtain ⟨d, hd⟩ := this
    have hrep := h.report hd
    refine ⟨fun h => by rw [hd] at h; simp at h, hrep.only, ?_⟩
    intro id i hi
    obtain ⟨s, hs, -⟩ := hrep.each id i hi
    exact ⟨s, hs⟩

theorem Sofar.nodup {σ : Sys} (h : Sofar f L c sf σ) : (calledIds σ.log).Nodup := by
  have key : ∀ id, (calledIds (mine id σ.log)).length ≤ 1 := by
    intro id
    by_cases hk : id ∈ keys c
    · obtain ⟨i, hi⟩ := Option.isSome_iff_exists.1 (find_isSome.2 hk)
      obtain ⟨s, hs⟩ := h.each id i hi
      cases s with
      | waiting => simp only [StatusOk] at hs; rw [hs]; simp [calledIds]
      | calling => simp only [StatusOk] at hs; rw [hs.2]; simp [calledIds]
      | ended a b =>
        cases a <;> cases b <;> simp only [StatusOk] at hs
        · rcases hs with hs | hs
          · rw [hs.2]; simp [calledIds]
          · rw [hs]; simp [calledIds]
        · rw [hs.2]; simp [calledIds]
        · rw [hs.2]; simp [calledIds]
        · rw [hs.2]; simp [calledIds]
    · have : mine id σ.log = [] := by
        rw [List.eq_nil_iff_forall_not_mem]
        intro e he
        have := List.mem_filter.1 he
        exact hk (h.only e this.1 id (by simpa using this.2))
      rw [this]; simp [calledIds]
  have count : ∀ (log : List Entry) (id : Str),
      (calledIds log).count id ≤ (calledIds (mine id log)).length := by
    intro log id
    induction log with
    | nil => simp [calledIds]
    | cons e log ih =>
      have happ : calledIds (e :: log) = calledIds [e] ++ calledIds log := calledIds_append [e] log
      rw [happ, List.count_append]
      by_cases ha : e.about = some id
      · have : mine id (e :: log) = e :: mine id log := by simp [mine, ha]
        rw [this, show calledIds (e :: mine id log) = calledIds [e] ++ calledIds (mine id log) from
          calledIds_append [e] _, List.length_append]
        have : (calledIds [e]).count id ≤ (calledIds [e]).length := List.count_le_length
        omega
      · have : mine id (e :: log) = mine id log := by simp [mine, ha]
        rw [this]
        have h0 : (calledIds [e]).count id = 0 := by
          rw [List.count_eq_zero]
          intro hm
          obtain ⟨b, hb⟩ := mem_calledIds.1 hm
          simp only [List.mem_singleton] at hb
          rw [← hb] at ha
          exact ha rfl
        omega
  rw [List.nodup_iff_count]
  intro id
  exact Nat.le_trans (count σ.log id) (key id)

theorem Sofar.need {σ : Sys} (h : Sofar f L c sf σ) {id : Str} (hc : id ∈ calledIds σ.log) :
    Need f L c id := by
  obtain ⟨b, hb⟩ := mem_calledIds.1 hc
  obtain ⟨i, hi⟩ := Option.isSome_iff_exists.1 (find_isSome.2 (h.only _ hb id rfl))
  refine ⟨i, hi, ?_⟩
  obtain ⟨s, hs⟩ := h.each id i hi
  rw [mem_mine (id := id) (by rfl)] at hb
  cases s with
  | waiting => simp only [StatusOk] at hs; rw [hs] at hb; simp at hb
  | calling => simp only [StatusOk] at hs; rw [hs.2] at hb; simp at hb
  | ended a b =>
    cases a <;> cases b <;> simp only [StatusOk] at hs
    · rcases hs with hs | hs
      · rw [hs.2] at hb; simp at hb
      · rw [hs] at hb; simp at hb
    · rw [hs.2] at hb; simp at hb
    · exact decision_true hs.1
    · exact decision_true hs.1

end Verif.Generator
