import Verif.Generator.Lemmas

/-! # What a quiet run knows at every moment -/

namespace Verif.Generator
open Verif Verif.Schema Verif.Json
open Verif.Target (Reads fileHash upd)

variable {f : Str → Option Nat} {L : Option GenSchema} {c : Cfg} {sf : Option Str}

/-- What the status of an id says about the decision and the log. -/
def StatusOk (f : Str → Option Nat) (L : Option GenSchema) (id : Str) (i : IdCfg)
    (log : List Entry) : Status → Prop
  | .waiting => mine id log = []
  | .calling => decision f L id i = some true ∧ mine id log = []
  | .ended true b => decision f L id i = some true ∧ mine id log = [.called id b]
  | .ended false true => decision f L id i = some false ∧ mine id log = [.unchanged id]
  | .ended false false =>
    (decision f L id i = none ∧ mine id log = [.broken id]) ∨ mine id log = [.skipped id]

structure Track (f : Str → Option Nat) (L : Option GenSchema) (c : Cfg) (sf : Option Str)
    (σ : Sys) (r : Run) : Prop where
  cfg : r.cfg = c
  load : r.load = L
  files : σ.files = f
  state : σ.stateFile = sf
  idle : r.began = false → ∀ id, r.status id = .waiting
  ids : ∀ id i, find id c = some i → StatusOk f L id i σ.log (r.status id)
  only : ∀ e ∈ σ.log, ∀ id, e.about = some id → id ∈ keys c
  ok : σ.ok = true ↔ ∀ e ∈ σ.log, e.failed = false
  skip : ∀ id, Entry.skipped id ∈ σ.log → σ.ok = false
  clean : Entry.missing ∉ σ.log ∧ Entry.storeFailed ∉ σ.log

/-- The run is over. -/
inductive Ended (f : Str → Option Nat) (L : Option GenSchema) (c : Cfg) (sf : Option Str) :
    Sys → Prop where
  | finished (σ' : Sys) (r : Run) (order : List Str) (b : Bool) : Track f L c sf σ' r →
      r.joined = true → order.Perm (keys c) → Ended f L c sf (finishRun σ' r order b)
  | never (σ' : Sys) (r : Run) : Track f L c sf σ' r → r.began = false → σ'.ok = false →
      Ended f L c sf { σ' with run := none, done := some ⟨c, false, false⟩ }

/-- A run is active and tracked, or over. -/
def TInv (f : Str → Option Nat) (L : Option GenSchema) (c : Cfg) (sf : Option Str) (σ : Sys) :
    Prop :=
  (∃ r, σ.run = some r ∧ σ.done = none ∧ Track f L c sf σ r) ∨
    (σ.run = none ∧ Ended f L c sf σ)

theorem StatusOk.other {id : Str} {i : IdCfg} {log : List Entry} {e : Entry} {s : Status}
    (h : StatusOk f L id i log s) (he : e.about ≠ some id) : StatusOk f L id i (log ++ [e]) s := by
  cases s with
  | waiting => simpa only [StatusOk, mine_append_other he] using h
  | calling => simpa only [StatusOk, mine_append_other he] using h
  | ended a b => cases a <;> cases b <;> simpa only [StatusOk, mine_append_other he] using h

theorem Track.entry {σ σ' : Sys} {r r' : Run} {id : Str} {i : IdCfg} {e : Entry} {s : Status}
    (h : Track f L c sf σ r) (hb : r.began = true) (hi : find id c = some i)
    (he : e.about = some id) (hr : r' = r.set id s)
    (hs : StatusOk f L id i (σ.log ++ [e]) s)
    (hl : σ'.log = σ.log ++ [e]) (hf : σ'.files = σ.files) (hst : σ'.stateFile = σ.stateFile)
    (hok : σ'.ok = (σ.ok && !e.failed)) (hsk : ∀ j, e = .skipped j → σ.ok = false) :
    Track f L c sf σ' r' := by
  subst hr
  refine ⟨h.cfg, h.load, hf.trans h.files, hst.trans h.state, ?_, ?_, ?_, ?_, ?_, ?_⟩
  · intro hb'; rw [show (r.set id s).began = r.began from rfl, hb] at hb'; simp at hb'
  · intro id' i' hi'
    rw [hl]
    simp only [Run.set, upd]
    split
    · rename_i e'; subst e'
      rw [hi] at hi'; simp only [Option.some.injEq] at hi'; subst hi'
      exact hs
    · rename_i hne
      refine (h.ids id' i' hi').other ?_
      rw [he]; simp only [ne_eq, Option.some.injEq]; exact fun e' => hne e'.symm
  · intro x hx id' hid
    rw [hl, List.mem_append, List.mem_singleton] at hx
    rcases hx with hx | rfl
    · exact h.only x hx id' hid
    · rw [he] at hid
      simp only [Option.some.injEq] at hid
      subst hid
      exact find_isSome.1 (by rw [hi]; rfl)
  · rw [hok, hl, Bool.and_eq_true, h.ok]
    simp only [List.mem_append, List.mem_singleton]
    constructor
    · rintro ⟨h1, h2⟩ x (hx | rfl)
      · exact h1 x hx
      · simpa using h2
    · intro h1
      exact ⟨fun x hx => h1 x (.inl hx), by simp [h1 e (.inr rfl)]⟩
  · intro j hj
    rw [hl, List.mem_append, List.mem_singleton] at hj
    rw [hok]
    rcases hj with hj | hj
    · rw [h.skip j hj]; rfl
    · rw [hsk j hj.symm]; rfl
  · rw [hl]
    have h1 : e ≠ .missing := by rintro rfl; simp [Entry.about] at he
    have h2 : e ≠ .storeFailed := by rintro rfl; simp [Entry.about] at he
    simp only [List.mem_append, List.mem_singleton, not_or]
    exact ⟨⟨h.clean.1, h1.symm⟩, ⟨h.clean.2, h2.symm⟩⟩

theorem Track.quiet {σ σ' : Sys} {r : Run} (h : Track f L c sf σ r) (hl : σ'.log = σ.log)
    (hf : σ'.files = σ.files) (hst : σ'.stateFile = σ.stateFile) (hok : σ'.ok = σ.ok) :
    Track f L c sf σ' r :=
  ⟨h.cfg, h.load, hf.trans h.files, hst.trans h.state, h.idle, hl ▸ h.ids, hl ▸ h.only,
    by rw [hl, hok]; exact h.ok, by rw [hl, hok]; exact h.skip, by rw [hl]; exact h.clean⟩

theorem Track.fail {σ : Sys} {r : Run} (h : Track f L c sf σ r) :
    Track f L c sf (σ.fail .other) r := by
  refine ⟨h.cfg, h.load, h.files, h.state, h.idle, ?_, ?_, ?_, ?_, ?_⟩
  · intro id i hi
    exact (h.ids id i hi).other (by simp [Entry.about])
  · intro x hx id hid
    simp only [Sys.fail, List.mem_append, List.mem_singleton] at hx
    rcases hx with hx | rfl
    · exact h.only x hx id hid
    · simp [Entry.about] at hid
  · simp only [Sys.fail, Bool.false_eq_true, false_iff]
    intro hh
    have := hh .other (by simp)
    simp [Entry.failed] at this
  · intro _ _; rfl
  · simp only [Sys.fail, List.mem_append, List.mem_singleton, reduceCtorEq, or_false]
    exact h.clean

theorem tinv_step {σ : Sys} {e : Event} (hn : (keys c).Nodup) (h : TInv f L c sf σ)
    (he : e.outside = false) : TInv f L c sf (step σ e) := by
  rcases h with ⟨r, hr, hd, ht⟩ | ⟨hr, hE⟩
  · cases e with
    | edit p t => simp [Event.outside] at he
    | delete p => simp [Event.outside] at he
    | dropState => simp [Event.outside] at he
    | start c => simp [Event.outside] at he
    | crash o w => simp [Event.outside] at he
    | otherFail =>
      simp only [step, hr, Option.isSome_some, if_true]
      exact .inl ⟨r, hr, hd, ht.fail⟩
    | begin =>
      simp only [step, inRun, hr, beginRun]
      split
      · exact .inl ⟨r, hr, hd, ht⟩
      · rename_i hb
        simp only [Bool.not_eq_true] at hb
        split
        · rename_i hok
          simp only [Bool.not_eq_true'] at hok
          rw [ht.cfg]
          exact .inr ⟨rfl, .never σ r ht hb hok⟩
        · refine .inl ⟨_, rfl, hd, ?_⟩
          refine ⟨ht.cfg, ht.load, ht.files, ht.state, ?_, ht.ids, ht.only, ht.ok, ht.skip, ht.clean⟩
          intro h; simp at h
    | task id =>
      simp only [step, inRun, hr, taskRun]
      split
      · rename_i i hi hb hs
        rw [ht.cfg] at hi
        have hsi := ht.ids id i hi
        rw [hs] at hsi
        simp only [StatusOk] at hsi
        split
        · rename_i hok
          simp only [Bool.not_eq_true'] at hok
          refine .inl ⟨_, rfl, hd, ht.entry (e := .skipped id) (i := i) (s := .ended false false) hb hi rfl rfl
            ?_ rfl rfl rfl ?_ ?_⟩
          · simp only [StatusOk]
            right
            rw [mine_append_self (by rfl), hsi]; rfl
          · show σ.ok = _
            rw [hok]; rfl
          · intro _ _; exact hok
        · rename_i hok
          simp only [Bool.not_eq_true', Bool.not_eq_false] at hok
          have hde : decision σ.files r.load id i = decision f L id i := by rw [ht.files, ht.load]
          rw [hde]
          split
          · rename_i hdec
            refine .inl ⟨_, rfl, hd, ht.entry (e := .broken id) (i := i) (s := .ended false false) hb hi
              rfl rfl ?_ rfl rfl rfl ?_ ?_⟩
            · simp only [StatusOk]
              left
              rw [mine_append_self (by rfl), hsi]; exact ⟨hdec, rfl⟩
            · show false = _
              rw [hok]; rfl
            · intro j hj; simp at hj
          · rename_i hdec
            refine .inl ⟨_, rfl, hd, ?_⟩
            refine ⟨ht.cfg, ht.load, ht.files, ht.state, ?_, ?_, ht.only, ht.ok, ht.skip, ht.clean⟩
            · intro hb'; rw [show (r.set id .calling).began = r.began from rfl, hb] at hb'; simp at hb'
            · intro id' i' hi'
              simp only [Run.set, upd]
              split
              · rename_i e'; subst e'
                rw [hi] at hi'; simp only [Option.some.injEq] at hi'; subst hi'
                exact ⟨hdec, hsi⟩
              · exact ht.ids id' i' hi'
          · rename_i hdec
            refine .inl ⟨_, rfl, hd, ht.entry (e := .unchanged id) (i := i) (s := .ended false true) hb hi
              rfl rfl ?_ rfl rfl rfl ?_ ?_⟩
            · simp only [StatusOk]
              rw [mine_append_self (by rfl), hsi]; exact ⟨hdec, rfl⟩
            · show σ.ok = _
              simp [Entry.failed]
            · intro j hj; simp at hj
      · exact .inl ⟨r, hr, hd, ht⟩
    | look id p v =>
      simp only [step, inRun, hr, lookAt]
      split
      · exact .inl ⟨r, rfl, hd, ht.quiet rfl rfl rfl rfl⟩
      · exact .inl ⟨r, hr, hd, ht⟩
    | call id ok =>
      simp only [step, inRun, hr, callRun]
      split
      · rename_i i hi hs
        rw [ht.cfg] at hi
        have hsi := ht.ids id i hi
        rw [hs] at hsi
        simp only [StatusOk] at hsi
        have hb : r.began = true := by
          cases hb : r.began
          · rw [ht.idle hb id] at hs; simp at hs
          · rfl
        cases ok with
        | true =>
          refine .inl ⟨_, rfl, hd, ht.entry (e := .called id true) (i := i) (s := .ended true true) hb hi rfl rfl
            ?_ rfl rfl rfl ?_ ?_⟩
          · simp only [StatusOk]
            rw [mine_append_self (by rfl), hsi.2]; exact ⟨hsi.1, rfl⟩
          · show σ.ok = _
            simp [Entry.failed]
          · intro j hj; simp at hj
        | false =>
          refine .inl ⟨_, rfl, hd, ht.entry (e := .called id false) (i := i) (s := .ended true false) hb hi rfl rfl
            ?_ rfl rfl rfl ?_ ?_⟩
          · simp only [StatusOk]
            rw [mine_append_self (by rfl), hsi.2]; exact ⟨hsi.1, rfl⟩
          · show false = _
            simp [Entry.failed]
          · intro j hj; simp at hj
      · exact .inl ⟨r, hr, hd, ht⟩
    | finish order b =>
      simp only [step, inRun, hr]
      split
      · rename_i hj
        rw [Bool.and_eq_true, List.isPerm_iff, ht.cfg] at hj
        refine .inr ⟨?_, .finished σ r order b ht hj.1 hj.2⟩
        simp only [finishRun]
        repeat' split
        all_goals rfl
      · exact .inl ⟨r, hr, hd, ht⟩
  · have : step σ e = σ := by
      cases e <;> simp only [Event.outside, Bool.true_eq_false] at he <;>
        simp [step, inRun, hr]
    rw [this]; exact .inr ⟨hr, hE⟩

theorem tinv_steps {σ : Sys} {l : List Event} (hn : (keys c).Nodup) (h : TInv f L c sf σ)
    (hl : ∀ e ∈ l, e.outside = false) : TInv f L c sf (steps σ l) := by
  induction l generalizing σ with
  | nil => exact h
  | cons e l ih =>
    exact ih (tinv_step hn h (hl e (by simp))) fun x hx => hl x (by simp [hx])

theorem QuietRun.tinv {σ₀ σ : Sys} {mid : List Event} (h : QuietRun σ₀ c mid σ) :
    TInv σ₀.files (loadGenFile σ₀.stateFile) c σ₀.stateFile σ := by
  obtain ⟨h1, h2, h3, rfl⟩ := h
  refine tinv_steps h2 ?_ h3
  simp only [step, startRun, h1, h2, if_true]
  refine .inl ⟨_, rfl, rfl, ?_⟩
  refine ⟨rfl, rfl, rfl, rfl, fun _ _ => rfl, ?_, ?_, ?_, ?_, ?_⟩
  · intro id i _; simp [StatusOk, mine]
  all_goals simp

end Verif.Generator
