import Verif.Generator.Shadow
import Verif.Generator.Liveness

/-! # Runs of a generator that was run before -/

namespace Verif.Generator
open Verif Verif.Schema Verif.Json
open Verif.Target (Reads fileHash upd)

variable {f : Str → Option Nat} {L : Option GenSchema} {c : Cfg} {sf : Option Str}

/-- With the files `f` and the stored state `L` there is nothing to do for `c`. -/
structure Settled (f : Str → Option Nat) (L : Option GenSchema) (c : Cfg) : Prop where
  ids : ∀ id i, find id c = some i → decision f L id i = some false
  build : computeBuild L c = false

/-- After a run that ended without a failure there is nothing to do. -/
theorem Replay.settled {κ σ : Sys} {b : Bool} (h : Replay κ c b σ) (hr : Reflexive c)
    (hn : σ.run = none) (hok : σ.ok = true) : Settled σ.files (loadGenFile σ.stateFile) c := by
  obtain ⟨σ₁, mid, s, v, g1, g2, g3⟩ := h.quietRun
  have hd : ∃ d, (σ.withFiles σ.files σ.used s v).done = some d := by
    rcases g3.tinv with ⟨r, hr, -, -⟩ | ⟨-, hE⟩
    · rw [show (σ.withFiles σ.files σ.used s v).run = σ.run from rfl, hn] at hr
      simp at hr
    · cases hE' : (σ.withFiles σ.files σ.used s v).done with
      | some d => exact ⟨d, rfl⟩
      | none =>
        exfalso
        generalize σ.withFiles σ.files σ.used s v = τ at hE hE'
        cases hE with
        | finished σ' r order b ht hj ho =>
          rcases finish_cases σ' r order b with ⟨_, h2⟩ | ⟨_, _, h3⟩ | ⟨s, t, _, _, _, h4⟩ | ⟨_, h2⟩
          · rw [h2] at hE'; simp at hE'
          · rw [h3] at hE'; simp at hE'
          · rw [h4] at hE'; simp at hE'
          · rw [h2] at hE'; simp at hE'
        | never σ' r ht hb hok => simp at hE'
  obtain ⟨d, hd⟩ := hd
  have R := g3.report hd
  have hdok : d.ok = true := R.ok.trans hok
  rw [g2] at R
  refine ⟨fun id i hi => ?_, R.build_false rfl hdok⟩
  exact R.settled rfl hr (R.noStoreFailed hdok) hi
    (R.completed_ok hdok (find_isSome.1 (by rw [hi]; rfl)))

/-- What a run can do when there was nothing to do with some version of the files. -/
theorem Replay.needed {κ σ : Sys} {b : Bool} (h : Replay κ c b σ)
    (hs : Settled f (loadGenFile κ.stateFile) c) {id : Str} (hc : id ∈ calledIds σ.log) :
    ∃ i, find id c = some i ∧ ∃ p ∈ i.inputs, σ.files p ≠ f p := by
  obtain ⟨σ₁, mid, s, v, g1, g2, g3⟩ := h.quietRun
  have hso := g3.sofar
  obtain ⟨i, hi⟩ := Option.isSome_iff_exists.1 (find_isSome.2 (hso.called_key hc))
  refine ⟨i, hi, Classical.byContradiction fun hne => ?_⟩
  refine hso.uncalled hi ?_ hc
  rw [g2, g1.state, decision_congr (f := f) (fun p hp => Classical.byContradiction fun h' =>
    hne ⟨p, hp, h'⟩), hs.ids id i hi]
  simp

theorem null_last_step {σ : Sys} {e : Event} (h : TInv f L c sf σ) (hs : Settled f L c)
    (he : e.outside = false) : (step σ e).last = σ.last := by
  rcases h with ⟨r, hr, -, ht⟩ | ⟨hr, -⟩
  · cases e <;> simp only [Event.outside, Bool.true_eq_false] at he
    case otherFail => simp only [step]; split <;> rfl
    case «begin» => simp only [step, inRun, hr, beginRun]; repeat' split
                    all_goals rfl
    case task id =>
      simp only [step, inRun, hr, taskRun]
      split
      · rename_i i hi hb hw
        split
        · rfl
        · rw [ht.files, ht.load, hs.ids id i (by rw [← ht.cfg]; exact hi)]
      · rfl
    case look id p v => simp only [step, inRun, hr, lookAt]; split <;> rfl
    case call id b =>
      simp only [step, inRun, hr, callRun]
      split
      · rename_i i hi hc
        have := ht.ids id i (by rw [← ht.cfg]; exact hi)
        rw [hc] at this
        have := this.1
        rw [hs.ids id i (by rw [← ht.cfg]; exact hi)] at this
        simp at this
      · rfl
    case finish order b =>
      simp only [step, inRun, hr, finishRun]
      repeat' split
      all_goals rfl
  · cases e <;> simp only [Event.outside, Bool.true_eq_false] at he <;> simp [step, inRun, hr]

theorem null_last (hs : Settled f L c) (hn : (keys c).Nodup) : ∀ (mid : List Event) (σ : Sys),
    TInv f L c sf σ → (∀ e ∈ mid, e.outside = false) → (steps σ mid).last = σ.last := by
  intro mid
  induction mid with
  | nil => intros; rfl
  | cons e l ih =>
    intro σ h he
    have h1 := he e (by simp)
    exact (ih (step σ e) (tinv_step hn h h1) fun x hx => he x (by simp [hx])).trans
      (null_last_step h hs h1)

/-- A run with nothing to do. -/
theorem Replay.null {κ σ : Sys} {b : Bool} (h : Replay κ c b σ)
    (hs : Settled σ.files (loadGenFile κ.stateFile) c) :
    calledIds σ.log = [] ∧ SameStore σ κ ∧ (∀ e ∈ σ.log, e.failed = true → e = .other) ∧
      (∀ r, σ.run = some r → r.dirty = false ∧ ∀ id ∈ keys c, (r.status id).touched = false) := by
  have hcall : calledIds σ.log = [] := by
    rw [List.eq_nil_iff_forall_not_mem]
    intro id hid
    obtain ⟨i, -, p, -, hp⟩ := h.needed hs hid
    exact hp rfl
  obtain ⟨σ₁, mid, s, v, g1, g2, g3⟩ := h.quietRun
  have hs1 : Settled σ₁.files (loadGenFile σ₁.stateFile) c := by rw [g2, g1.state]; exact hs
  have hlast : σ.last = κ.last := by
    have h0 : QuietRun σ₁ c [] (step σ₁ (.start c)) := ⟨g3.idle, g3.ids, by simp, rfl⟩
    have h1 := null_last hs1 g3.ids mid _ h0.tinv g3.quiet
    rw [g3.result] at h1
    have h2 : (step σ₁ (.start c)).last = σ₁.last := by
      simp only [step, startRun]
      split
      · rfl
      · split <;> rfl
    exact (h1.trans h2).trans g1.last
  have hids : ∀ (log : List Entry), (∀ id i, find id c = some i →
      ∃ st, StatusOk σ₁.files (loadGenFile σ₁.stateFile) id i log st) →
      (∀ e ∈ log, ∀ id, e.about = some id → id ∈ keys c) →
      ∀ e ∈ log, ∀ id, e.about = some id → e = .unchanged id ∨ e = .skipped id := by
    intro log h1 h2 e he id ha
    obtain ⟨i, hi⟩ := Option.isSome_iff_exists.1 (find_isSome.2 (h2 e he id ha))
    obtain ⟨st, hst⟩ := h1 id i hi
    have hd := hs1.ids id i hi
    rw [mem_mine ha] at he
    cases st with
    | waiting => simp only [StatusOk] at hst; rw [hst] at he; simp at he
    | calling => simp only [StatusOk] at hst; rw [hst.2] at he; simp at he
    | ended a b =>
      cases a <;> cases b <;> simp only [StatusOk] at hst
      · rcases hst with hst | hst
        · rw [hst.1] at hd; simp at hd
        · rw [hst] at he; exact .inr (List.mem_singleton.1 he)
      · rw [hst.2] at he; exact .inl (List.mem_singleton.1 he)
      · rw [hst.1] at hd; simp at hd
      · rw [hst.1] at hd; simp at hd
  have hsofar := g3.sofar
  have hmine := hids σ.log hsofar.each hsofar.only
  -- the rest of the log
  have hrest : (Entry.missing ∉ σ.log ∧ Entry.storeFailed ∉ σ.log) ∧ σ.stateFile = σ₁.stateFile ∧
      ∀ r, σ.run = some r → r.dirty = false ∧ ∀ id ∈ keys c, (r.status id).touched = false := by
    rcases g3.tinv with ⟨r, hr, -, ht⟩ | ⟨hr, hE⟩
    · refine ⟨ht.clean, ht.state, fun r' hr' => ?_⟩
      have he : r = r' := by
        have : some r = some r' := hr.symm.trans hr'
        simpa using this
      subst he
      have hst : ∀ id ∈ keys c, (r.status id).touched = false := by
        intro id hid
        obtain ⟨i, hi⟩ := Option.isSome_iff_exists.1 (find_isSome.2 hid)
        have hk := ht.ids id i hi
        have hd := hs1.ids id i hi
        cases hst : r.status id with
        | waiting => rfl
        | calling => rw [hst] at hk; rw [hk.1] at hd; simp at hd
        | ended a b =>
          cases a with
          | false => rfl
          | true => rw [hst] at hk; rw [hk.1] at hd; simp at hd
      refine ⟨?_, hst⟩
      cases hdy : r.dirty with
      | false => rfl
      | true =>
        rcases dirty_iff.1 hdy with h1 | ⟨id, hid, h1⟩
        · rw [ht.load, ht.cfg, hs1.build] at h1; simp at h1
        · have := hst id (by rw [← ht.cfg]; exact hid)
          cases hst : r.status id with
          | waiting => rw [hst] at h1; simp [Status.ran] at h1
          | calling => rw [hst] at h1; simp [Status.ran] at h1
          | ended a b =>
            rw [hst] at h1 this
            simp only [Status.ran, Status.touched] at h1 this
            rw [h1] at this; simp at this
    · have hd : ∃ d, σ.done = some d := by
        cases hdn : σ.done with
        | some d => exact ⟨d, rfl⟩
        | none =>
          exfalso
          have hE' : (σ.withFiles σ.files σ.used s v).done = none := hdn
          generalize σ.withFiles σ.files σ.used s v = τ at hE hE'
          cases hE with
          | finished σ' r order b ht hj ho =>
            rcases finish_cases σ' r order b with ⟨_, h2⟩ | ⟨_, _, h3⟩ | ⟨s, t, _, _, _, h4⟩ | ⟨_, h2⟩
            · rw [h2] at hE'; simp at hE'
            · rw [h3] at hE'; simp at hE'
            · rw [h4] at hE'; simp at hE'
            · rw [h2] at hE'; simp at hE'
          | never σ' r ht hb hok => simp at hE'
      obtain ⟨d, hd⟩ := hd
      have R := g3.report hd
      have hnd : d.stored = false ∧ Entry.storeFailed ∉ σ.log := by
        have key : ¬ (d.stored = true ∨ Entry.storeFailed ∈ σ.log) := by
          intro h'
          rcases R.storedDirty h' with h' | h'
          · rw [hs1.build] at h'; simp at h'
          · exact h' hcall
        rw [not_or] at key
        exact ⟨by simpa using key.1, key.2⟩
      refine ⟨⟨R.noMissing, hnd.2⟩, (R.unstored hnd.1).1, fun r hr' => ?_⟩
      have : (none : Option Run) = some r := hr.symm.trans hr'
      simp at this
  obtain ⟨⟨h1, h2⟩, h3, h4⟩ := hrest
  refine ⟨hcall, ⟨h3.trans g1.state, hlast⟩, fun e he hf => ?_, h4⟩
  cases e with
  | called id b => have := hmine _ he id rfl; simp at this
  | unchanged id => simp [Entry.failed] at hf
  | broken id => have := hmine _ he id rfl; simp at this
  | skipped id => simp [Entry.failed] at hf
  | missing => exact absurd he h1
  | other => rfl
  | storeFailed => exact absurd he h2

/-- Also when it is killed. -/
theorem Replay.killed {κ σ : Sys} {b : Bool} (h : Replay κ c b σ)
    (hs : Settled σ.files (loadGenFile κ.stateFile) c) (order : List Str) (w : Option Nat) :
    SameStore (step σ (.crash order w)) κ := by
  obtain ⟨-, h1, -, h2⟩ := h.null hs
  simp only [step, inRun]
  cases hr : σ.run with
  | none => exact h1
  | some r =>
    simp only [crashRun, (h2 r hr).1, Bool.and_false, Bool.false_and, Bool.false_eq_true, if_false]
    cases w <;> exact ⟨h1.state, h1.last⟩

end Verif.Generator
