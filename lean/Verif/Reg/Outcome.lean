import Verif.Reg.OutcomeSpec

/-! # When a build succeeds: lemmas -/

namespace Verif.Generator
open Verif Verif.Schema Verif.Json
open Verif.Target (Reads fileHash upd)

variable {f : Str → Option Nat} {L : Option GenSchema} {c : Cfg} {sf : Option Str}

/-- A run that is over has a result. -/
theorem QuietRun.has_done {σ₀ σ : Sys} {mid : List Event} (h : QuietRun σ₀ c mid σ)
    (hr : σ.run = none) : ∃ d, σ.done = some d := by
  rcases h.tinv with ⟨r, hr', -, -⟩ | ⟨-, hE⟩
  · rw [hr] at hr'; simp at hr'
  · cases hE with
    | finished σ' r order b ht hj ho =>
      rcases finish_cases σ' r order b with ⟨_, h2⟩ | ⟨_, _, h3⟩ | ⟨s, t, _, _, _, h4⟩ | ⟨_, h2⟩
      · exact ⟨_, by rw [h2]⟩
      · exact ⟨_, by rw [h3]⟩
      · exact ⟨_, by rw [h4]⟩
      · exact ⟨_, by rw [h2]⟩
    | never σ' r ht hb hok => exact ⟨_, rfl⟩

theorem QuietRun.noMissing {σ₀ σ : Sys} {mid : List Event} (h : QuietRun σ₀ c mid σ) :
    Entry.missing ∉ σ.log := by
  cases hr : σ.run with
  | none =>
    obtain ⟨d, hd⟩ := h.has_done hr
    exact (h.report hd).noMissing
  | some r =>
    rcases h.tinv with ⟨r', -, -, ht⟩ | ⟨hr', -⟩
    · exact ht.clean.1
    · rw [hr] at hr'; simp at hr'

/-- A broken id could not be decided upon. -/
theorem QuietRun.broken {σ₀ σ : Sys} {mid : List Event} {id : Str} (h : QuietRun σ₀ c mid σ)
    (hb : Entry.broken id ∈ σ.log) :
    ∃ i, find id c = some i ∧ decision σ₀.files (loadGenFile σ₀.stateFile) id i = none := by
  have hs := h.sofar
  obtain ⟨i, hi⟩ := Option.isSome_iff_exists.1 (find_isSome.2 (hs.only _ hb id rfl))
  refine ⟨i, hi, ?_⟩
  obtain ⟨st, hst⟩ := hs.each id i hi
  rw [mem_mine rfl] at hb
  cases st with
  | waiting => simp only [StatusOk] at hst; rw [hst] at hb; simp at hb
  | calling => simp only [StatusOk] at hst; rw [hst.2] at hb; simp at hb
  | ended a b =>
    cases a <;> cases b <;> simp only [StatusOk] at hst
    · rcases hst with hst | hst
      · exact hst.1
      · rw [hst] at hb; simp at hb
    · rw [hst.2] at hb; simp at hb
    · rw [hst.2] at hb; simp at hb
    · rw [hst.2] at hb; simp at hb

theorem hashPaths_none {l : List Str} (h : hashPaths f l = none) : ∃ p ∈ l, f p = none := by
  induction l with
  | nil => simp [hashPaths] at h
  | cons p l ih =>
    cases hp : f p with
    | none => exact ⟨p, by simp, hp⟩
    | some t =>
      simp only [hashPaths, fileHash, hp, Option.map_some] at h
      split at h
      · simp at h
      · rename_i hn
        cases hr : hashPaths f l with
        | none =>
          obtain ⟨q, hq, hf⟩ := ih hr
          exact ⟨q, by simp [hq], hf⟩
        | some r => exact absurd hr (hn _ r rfl)

theorem hashPaths_present {l : List Str} {r : List PathInfo} (h : hashPaths f l = some r) :
    ∀ p ∈ l, ∃ t, f p = some t := by
  induction l generalizing r with
  | nil => simp
  | cons q l ih =>
    simp only [hashPaths] at h
    split at h
    · rename_i h1 h2
      intro p hp
      rcases List.mem_cons.1 hp with rfl | hp
      · cases hq : f p with
        | none => simp [fileHash, hq] at h1
        | some t => exact ⟨t, rfl⟩
      · exact ih h2 p hp
    · simp at h

theorem find_of_mem {α : Type} {l : List (Str × α)} {x : Str × α} (hn : (keys l).Nodup) (h : x ∈ l) :
    find x.1 l = some x.2 := by
  induction l with
  | nil => simp at h
  | cons y l ih =>
    obtain ⟨k, b⟩ := y
    simp only [keys, List.map_cons, List.nodup_cons] at hn
    simp only [find]
    rcases List.mem_cons.1 h with rfl | hm
    · simp
    · rw [if_neg, ih hn.2 hm]
      rintro rfl
      exact hn.1 (List.mem_map.2 ⟨x, hm, rfl⟩)

end Verif.Generator

namespace Verif.Reg
open Verif Verif.Schema
open Verif.Target (Fixed BinArt objPath outputPath upd paths Clean)

/-- A task that makes the task state FAILURE has failed itself. -/
theorem own_of_task {c : Comp} {e : Ev} (he : e.isTask = true) (hok : c.ok = true)
    (h : (c.step e).ok = false) : OwnFailure (c.step e) := by
  cases c with
  | target fx σ =>
    cases e with
    | g e => simp only [Comp.step] at h; rw [hok] at h; simp at h
    | t e =>
      have hok' : σ.ok = true := hok
      revert h
      have happ : ∀ {σ' : Target.Sys} (x : Target.Entry), x.failed = true → x ≠ .other →
          σ'.log = σ.log ++ [x] → OwnFailure (.target fx σ') := by
        intro σ' x h1 h2 h3
        exact ⟨x, by rw [h3]; simp, h1, h2⟩
      cases e <;> simp only [Ev.isTask, Target.Event.progress, Bool.false_eq_true] at he <;>
        simp only [Comp.step, Target.step, Target.inPhase, Target.Sys.put, Target.lookAt,
          Target.pchTask, Target.pchExec, Target.objTask,
          Target.execObj, Target.addObj, Target.linkTask, Target.linkExec, Target.finishRun, Comp.ok]
      all_goals repeat' split
      all_goals intro h
      all_goals first
        | exact happ _ rfl (by simp) rfl
        | (exfalso; have h' : σ.ok = false := h; rw [hok'] at h'; simp at h')
  | gen σ =>
    cases e with
    | t e => simp only [Comp.step] at h; rw [hok] at h; simp at h
    | g e =>
      have hok' : σ.ok = true := hok
      revert h
      have happ : ∀ {σ' : Generator.Sys} (x : Generator.Entry), x.failed = true → x ≠ .other →
          σ'.log = σ.log ++ [x] → OwnFailure (.gen σ') := by
        intro σ' x h1 h2 h3
        exact ⟨x, by rw [h3]; simp, h1, h2⟩
      cases e <;> simp only [Ev.isTask, Generator.Event.progress, Bool.false_eq_true] at he <;>
        simp only [Comp.step, Generator.step, Generator.inRun, Generator.beginRun, Generator.taskRun,
          Generator.callRun, Generator.finishRun, Comp.ok]
      all_goals repeat' split
      all_goals intro h
      all_goals first
        | exact happ _ rfl (by simp) rfl
        | (exfalso; have h' : σ.ok = false := h; rw [hok'] at h'; simp at h')

theorem Faulty.own {c : Comp} (h : Faulty c) : OwnFailure c := by
  cases c with
  | target fx σ =>
    rcases h with h | ⟨p, h⟩ | h | h
    · exact ⟨_, h, rfl, by simp⟩
    · exact ⟨_, h, rfl, by simp⟩
    · exact ⟨_, h, rfl, by simp⟩
    · exact ⟨_, h, rfl, by simp⟩
  | gen σ =>
    rcases h with ⟨id, h⟩ | h
    · exact ⟨_, h, rfl, by simp⟩
    · exact ⟨_, h, rfl, by simp⟩

/-- The data of the ids is accepted: what could not be decided upon misses an input. -/
theorem decision_absent {f : Str → Option Nat} {σ : Generator.Sys} {c : Generator.Cfg} {id : Str}
    {i : Generator.IdCfg} (ha : Accepts (.gen σ) (.gen c)) (hi : Generator.find id c = some i)
    (h : Generator.decision f (loadGenFile σ.stateFile) id i = none) : ∃ p ∈ i.inputs, f p = none := by
  cases hh : Generator.hashPaths f i.inputs with
  | none => exact Generator.hashPaths_none hh
  | some r =>
    exfalso
    simp only [Generator.decision, Generator.convert, hh] at h
    cases hn : i.handler with
    | none =>
      simp only [hn, Generator.blobOf] at h
      split at h
      · simp at h
      · simp only [Generator.isChanged] at h
        split at h <;> simp at h
    | some H =>
      obtain ⟨b, hb, hp⟩ := ha id i H hi hn
      simp only [hn, Generator.blobOf, hb] at h
      split at h
      · simp at h
      · rename_i prev hprev
        obtain ⟨x, hx, hx'⟩ := Option.bind_eq_some_iff.1 hprev
        obtain ⟨q, hq⟩ := hp x prev hx hx'
        simp only [Generator.isChanged, hq] at h
        split at h <;> simp at h

/-- What fails without a failed command or callback and without a failure to store misses an
input. -/
theorem Quietly.absent {κ c : Comp} {s : Setup} {b : Bool} (h : Quietly κ s b c) (ha : Accepts κ s)
    (ho : OwnFailure c) (hf : ¬ Faulty c) : ∃ p ∈ s.inputs, c.files p = none := by
  cases h with
  | @target fx κ σ c o b h =>
    obtain ⟨x, hx, h1, h2⟩ := ho
    obtain ⟨σ₁, mid, s, v, -, g2, g3⟩ := h.quietRun
    cases x with
    | pch b =>
      cases b
      · exact absurd (.inl hx) hf
      · simp [Target.Entry.failed] at h1
    | obj p b =>
      cases b
      · exact absurd (.inr (.inl ⟨p, hx⟩)) hf
      · simp [Target.Entry.failed] at h1
    | link b =>
      cases b
      · exact absurd (.inr (.inr (.inl hx))) hf
      · simp [Target.Entry.failed] at h1
    | missing ph =>
      obtain ⟨p, hp, hn⟩ := g3.missing (ph := ph) hx
      exact ⟨p, mem_inputs.1 hp, by rw [← hn, g2]; rfl⟩
    | storeFailed => exact absurd (.inr (.inr (.inr hx))) hf
    | other => exact absurd rfl h2
  | @gen κ σ c b h =>
    obtain ⟨x, hx, h1, h2⟩ := ho
    obtain ⟨σ₁, mid, s, v, g1, g2, g3⟩ := h.quietRun
    cases x with
    | called id b =>
      cases b
      · exact absurd (.inl ⟨id, hx⟩) hf
      · simp [Generator.Entry.failed] at h1
    | unchanged id => simp [Generator.Entry.failed] at h1
    | skipped id => simp [Generator.Entry.failed] at h1
    | broken id =>
      obtain ⟨i, hi, hd⟩ := g3.broken (id := id) hx
      rw [g1.state] at hd
      obtain ⟨p, hp, hn⟩ := decision_absent ha hi hd
      refine ⟨p, List.mem_flatMap.2 ⟨(id, i), Generator.find_mem hi, hp⟩, ?_⟩
      rw [g2] at hn; exact hn
    | missing => exact absurd hx g3.noMissing
    | storeFailed => exact absurd (.inr hx) hf
    | other => exact absurd rfl h2

/-- A builder that is done without a failure has all its inputs. -/
theorem Quietly.present {κ c : Comp} {s : Setup} {b : Bool} (h : Quietly κ s b c) (hs : Regular s)
    (hr : c.running = false) (hok : c.ok = true) : Present c.files s ∧ ¬ OwnFailure c := by
  cases h with
  | @target fx κ σ c o b h =>
    simp only [Comp.running, Option.isSome_eq_false_iff, Option.isNone_iff_eq_none] at hr
    obtain ⟨σ₁, mid, s, v, g1, g2, g4, g5, g6, g8, g7⟩ := id h
    have g5' := fun e he => Target.Event.own_quiet (g5 e he)
    have hq : Target.QuietRun fx σ₁ c o mid (σ.withFiles σ.files σ.used true s v) := ⟨g1, g4, g5', g7⟩
    have hd := Target.own_done (fx := fx) mid _ g5 (fun h => by rw [h] at g4; simp at g4)
      (by rw [g7]; exact hr)
    rw [g7] at hd
    obtain ⟨d, hd⟩ := Option.isSome_iff_exists.1 hd
    have hdok : d.ok = true := (hq.inv.log.done d hd).trans hok
    have hall := (hq.ok_iff hd).1 hdok
    have hp := ((Target.C10_success_iff hs hq hd).1 hdok).2.2.2.1
    have hfiles := (hq.report hs hd).files
    refine ⟨fun p hp' => ?_, ?_⟩
    · obtain ⟨t, ht⟩ := hp p (mem_inputs.2 hp')
      refine ⟨t, ?_⟩
      rw [← hfiles] at ht; exact ht
    · rintro ⟨x, hx, h1, -⟩
      rw [hall x hx] at h1; simp at h1
  | @gen κ σ c b h =>
    simp only [Comp.running, Option.isSome_eq_false_iff, Option.isNone_iff_eq_none] at hr
    obtain ⟨σ₁, mid, s, v, g1, g2, g3⟩ := h.quietRun
    obtain ⟨d, hd⟩ := g3.has_done hr
    have R := g3.report hd
    have hdok : d.ok = true := R.ok.trans hok
    have hall := R.okIff.1 hok
    refine ⟨fun p hp' => ?_, ?_⟩
    · obtain ⟨x, hx, hp⟩ := List.mem_flatMap.1 hp'
      have hi := Generator.find_of_mem g3.ids hx
      obtain ⟨st, hst, he⟩ := R.each x.1 x.2 hi
      have hc := R.completed_ok hdok (Generator.find_isSome.1 (by rw [hi]; rfl))
      obtain ⟨q, hq⟩ := hst.good (hst.completed.1 hc)
      simp only [Generator.convert] at hq
      split at hq
      · rename_i h1 h2
        obtain ⟨t, ht⟩ := Generator.hashPaths_present h1 p hp
        exact ⟨t, by rw [g2] at ht; exact ht⟩
      · simp at hq
    · rintro ⟨x, hx, h1, -⟩
      rw [hall x hx] at h1; simp at h1

/-- The builder has made the file in the present run: it has linked it with success, or the callback
of an id that has it among its outputs returned true. -/
def Has : Comp → Setup → Str → Prop
  | .target fx σ, _, p => Target.Entry.link true ∈ σ.log ∧ p = outputPath fx
  | .gen σ, .gen c, p => ∃ id i, Generator.Entry.called id true ∈ σ.log ∧
      Generator.find id c = some i ∧ p ∈ i.outputs
  | _, _, _ => False

/-- A builder without a stored state makes everything. -/
theorem Quietly.delivered {κ c : Comp} {s : Setup} {b : Bool} (h : Quietly κ s b c) (hs : Regular s)
    (hr : c.running = false) (hok : c.ok = true) (hu : Unbuilt κ) :
    ∀ p ∈ yields κ s, Has c s p := by
  cases h with
  | @target fx κ σ c o b h =>
    simp only [Comp.running, Option.isSome_eq_false_iff, Option.isNone_iff_eq_none] at hr
    obtain ⟨σ₁, mid, s, v, g1, g2, g4, g5, g6, g8, g7⟩ := id h
    have g5' := fun e he => Target.Event.own_quiet (g5 e he)
    have hq : Target.QuietRun fx σ₁ c o mid (σ.withFiles σ.files σ.used true s v) := ⟨g1, g4, g5', g7⟩
    have hd := Target.own_done (fx := fx) mid _ g5 (fun h => by rw [h] at g4; simp at g4)
      (by rw [g7]; exact hr)
    rw [g7] at hd
    obtain ⟨d, hd⟩ := Option.isSome_iff_exists.1 hd
    have hdok : d.ok = true := (hq.inv.log.done d hd).trans hok
    obtain ⟨l, -, hl⟩ := Target.C57_rebuilt_without_state_partial hs hq (by rw [g2.state]; exact hu) hd hdok
    intro p hp
    refine ⟨?_, List.mem_singleton.1 hp⟩
    have : Target.Entry.link true ∈ Target.commands (σ.withFiles σ.files σ.used true s v).log := by
      rw [hl]; simp
    exact (List.mem_filter.1 this).1
  | @gen κ σ c b h =>
    simp only [Comp.running, Option.isSome_eq_false_iff, Option.isNone_iff_eq_none] at hr
    obtain ⟨σ₁, mid, s, v, g1, g2, g3⟩ := h.quietRun
    obtain ⟨d, hd⟩ := g3.has_done hr
    have R := g3.report hd
    have hdok : d.ok = true := R.ok.trans hok
    have hu' : loadGenFile κ.stateFile = none := hu
    intro p hp
    obtain ⟨x, hx, hp⟩ := List.mem_flatMap.1 hp
    have hi := Generator.find_of_mem g3.ids hx
    refine ⟨x.1, x.2, ?_, hi, hp⟩
    obtain ⟨st, hst, he⟩ := R.each x.1 x.2 hi
    have hc := R.completed_ok hdok (Generator.find_isSome.1 (by rw [hi]; rfl))
    rcases hc with hc | hc
    · exact hc
    · exfalso
      have hcc := (Generator.mem_mine (id := x.1) rfl).1 hc
      rw [g1.state, hu'] at hst
      cases st with
      | waiting => simp only [Generator.StatusOk] at hst; rw [hst] at hcc; simp at hcc
      | calling => simp only [Generator.StatusOk] at hst; rw [hst.2] at hcc; simp at hcc
      | ended a b =>
        cases a <;> cases b <;> simp only [Generator.StatusOk] at hst
        · rcases hst with hst | hst
          · rw [hst.2] at hcc; simp at hcc
          · rw [hst] at hcc; simp at hcc
        · have := hst.1
          simp only [Generator.decision] at this
          split at this
          · simp at this
          · simp at this
        · rw [hst.2] at hcc; simp at hcc
        · rw [hst.2] at hcc; simp at hcc

/-! ## Logs only grow -/

/-- The log of the second builder continues the log of the first. -/
inductive Grows : Comp → Comp → Prop
  | target {fx : Fixed} {σ σ' : Target.Sys} : (∀ x ∈ σ.log, x ∈ σ'.log) → Grows (.target fx σ) (.target fx σ')
  | gen {σ σ' : Generator.Sys} : (∀ x ∈ σ.log, x ∈ σ'.log) → Grows (.gen σ) (.gen σ')

theorem Grows.refl (c : Comp) : Grows c c := by
  cases c
  · exact .target fun _ h => h
  · exact .gen fun _ h => h

theorem Grows.trans {a b c : Comp} (h : Grows a b) (h' : Grows b c) : Grows a c := by
  cases h with
  | target h => cases h' with | target h' => exact .target fun x hx => h' x (h x hx)
  | gen h => cases h' with | gen h' => exact .gen fun x hx => h' x (h x hx)

theorem Grows.own {c c' : Comp} (h : Grows c c') (ho : OwnFailure c) : OwnFailure c' := by
  cases h with
  | target h => obtain ⟨x, hx, h1⟩ := ho; exact ⟨x, h x hx, h1⟩
  | gen h => obtain ⟨x, hx, h1⟩ := ho; exact ⟨x, h x hx, h1⟩

theorem Grows.faulty {c c' : Comp} (h : Grows c c') (ho : Faulty c) : Faulty c' := by
  cases h with
  | target h =>
    rcases ho with ho | ⟨p, ho⟩ | ho | ho
    · exact .inl (h _ ho)
    · exact .inr (.inl ⟨p, h _ ho⟩)
    · exact .inr (.inr (.inl (h _ ho)))
    · exact .inr (.inr (.inr (h _ ho)))
  | gen h =>
    rcases ho with ⟨id, ho⟩ | ho
    · exact .inl ⟨id, h _ ho⟩
    · exact .inr (h _ ho)

theorem Grows.has {c c' : Comp} {s : Setup} {p : Str} (h : Grows c c') (ho : Has c s p) : Has c' s p := by
  cases h with
  | target h => exact ⟨h _ ho.1, ho.2⟩
  | gen h =>
    cases s with
    | target c o => exact ho.elim
    | gen c => obtain ⟨id, i, h1, h2⟩ := ho; exact ⟨id, i, h _ h1, h2⟩

theorem grows_write (c : Comp) (p : Str) (x : Option Nat) : Grows c (c.write p x) := by
  cases x <;> cases c <;> first | exact .target fun _ h => h | exact .gen fun _ h => h

theorem write_grows (c : Comp) (p : Str) (x : Option Nat) : Grows (c.write p x) c := by
  cases x <;> cases c <;> first | exact .target fun _ h => h | exact .gen fun _ h => h

theorem grows_look (c : Comp) {e : Ev} (he : e.isLook = true) :
    Grows c (c.step e) ∧ Grows (c.step e) c := by
  rcases look_cases c he with he | ⟨fx, σ, v, rfl, he⟩ | ⟨σ, v, rfl, he⟩ <;> rw [he]
  · exact ⟨.refl _, .refl _⟩
  · exact ⟨.target fun _ h => h, .target fun _ h => h⟩
  · exact ⟨.gen fun _ h => h, .gen fun _ h => h⟩

theorem grows_fail (c : Comp) : Grows c c.fail := by
  cases c with
  | target fx σ =>
    simp only [Comp.fail, Comp.step, Target.step]
    split
    · exact .target fun x hx => List.mem_append_left _ hx
    · exact .refl _
  | gen σ =>
    simp only [Comp.fail, Comp.step, Generator.step]
    split
    · exact .gen fun x hx => List.mem_append_left _ hx
    · exact .refl _

theorem Has.of_fail {c : Comp} {s : Setup} {p : Str} (h : Has c.fail s p) : Has c s p := by
  cases c with
  | target fx σ =>
    revert h
    simp only [Comp.fail, Comp.step, Target.step]
    split
    · rintro ⟨h, h'⟩
      simp only [Target.Sys.fail, List.mem_append, List.mem_singleton] at h
      exact ⟨h.resolve_right (by simp), h'⟩
    · exact id
  | gen σ =>
    cases s with
    | target c o =>
      revert h
      simp only [Comp.fail, Comp.step, Generator.step]
      split <;> exact id
    | gen c =>
      revert h
      simp only [Comp.fail, Comp.step, Generator.step]
      split
      · rintro ⟨id, i, h, h'⟩
        simp only [Generator.Sys.fail, List.mem_append, List.mem_singleton] at h
        exact ⟨id, i, h.resolve_right (by simp), h'⟩
      · exact id

theorem grows_task (c : Comp) {e : Ev} (he : e.isTask = true) : Grows c (c.step e) := by
  cases c with
  | target fx σ =>
    cases e with
    | g e => exact .refl _
    | t e =>
      refine .target ?_
      cases e <;> simp only [Ev.isTask, Target.Event.progress, Bool.false_eq_true] at he <;>
        simp only [Target.step, Target.inPhase, Target.pchTask, Target.pchExec, Target.objTask,
          Target.execObj, Target.addObj, Target.linkTask, Target.linkExec, Target.finishRun]
      all_goals repeat' split
      all_goals first
        | exact fun x hx => hx
        | exact fun x hx => List.mem_append_left _ hx
  | gen σ =>
    cases e with
    | t e => exact .refl _
    | g e =>
      refine .gen ?_
      cases e <;> simp only [Ev.isTask, Generator.Event.progress, Bool.false_eq_true] at he <;>
        simp only [Generator.step, Generator.inRun, Generator.beginRun, Generator.taskRun,
          Generator.callRun, Generator.finishRun]
      all_goals repeat' split
      all_goals first
        | exact fun x hx => hx
        | exact fun x hx => List.mem_append_left _ hx

/-- What a step adds to the products was written by it. -/
theorem has_task {c : Comp} {e : Ev} {used : Str → List Nat} {ws : Writes} {s : Setup} {p : Str}
    (he : e.isTask = true) (hl : legal c e used ws = true)
    (hth : ∀ id c i, e = .g (.call id true) → s = .gen c → Generator.find id c = some i →
      ∀ p ∈ i.outputs, ∃ t, (p, some t) ∈ ws)
    (h : Has (c.step e) s p) : Has c s p ∨ ∃ t, (p, some t) ∈ ws := by
  cases c with
  | target fx σ =>
    cases e with
    | g e => exact .inl h
    | t e =>
      revert h
      have happ : ∀ {σ' : Target.Sys} (x : Target.Entry), x ≠ .link true →
          σ'.log = σ.log ++ [x] → Has (.target fx σ') s p → Has (.target fx σ) s p := by
        rintro σ' x h1 h2 ⟨h3, h4⟩
        rw [h2, List.mem_append, List.mem_singleton] at h3
        exact ⟨h3.resolve_right h1.symm, h4⟩
      cases e <;> simp only [Ev.isTask, Target.Event.progress, Bool.false_eq_true] at he
      case linkExec ok junk =>
        cases hr : σ.run with
        | none => simp only [Comp.step, Target.step, Target.inPhase, hr]; exact .inl
        | some r =>
          by_cases hp : r.phase = .linkRun
          · cases ok with
            | true =>
              rintro ⟨-, h⟩
              simp only [legal, linkWrites, hr, hp, if_true, Bool.and_eq_true, List.any_eq_true,
                decide_eq_true_eq] at hl
              obtain ⟨-, x, hx, h1, h2⟩ := hl
              obtain ⟨t, ht⟩ := Option.isSome_iff_exists.1 h2
              refine .inr ⟨t, ?_⟩
              rw [h, ← h1, ← ht]
              exact hx
            | false =>
              simp only [Comp.step, Target.step, Target.inPhase, hr, hp, if_true, Target.linkExec,
                Bool.false_eq_true, if_false]
              exact fun h => .inl (happ (.link false) (by simp) rfl h)
          · simp only [Comp.step, Target.step, Target.inPhase, hr, if_neg hp]; exact .inl
      all_goals
        simp only [Comp.step, Target.step, Target.inPhase, Target.pchTask, Target.pchExec, Target.objTask,
          Target.execObj, Target.addObj, Target.linkTask, Target.finishRun]
      all_goals repeat' split
      all_goals intro h
      all_goals first
        | exact .inl h
        | exact .inl (happ _ (by simp) rfl h)
  | gen σ =>
    cases e with
    | t e => exact .inl h
    | g e =>
      cases s with
      | target c o => exact .inl (by cases hq : (Comp.gen σ).step (.g e) <;> rw [hq] at h <;> first | exact h.elim | simp [Comp.step] at hq)
      | gen cfg =>
        revert h
        have happ : ∀ {σ' : Generator.Sys} (x : Generator.Entry), (∀ id, x ≠ .called id true) →
            σ'.log = σ.log ++ [x] → Has (.gen σ') (.gen cfg) p → Has (.gen σ) (.gen cfg) p := by
          rintro σ' x h1 h2 ⟨id, i, h3, h4⟩
          rw [h2, List.mem_append, List.mem_singleton] at h3
          exact ⟨id, i, h3.resolve_right (h1 id).symm, h4⟩
        cases e <;> simp only [Ev.isTask, Generator.Event.progress, Bool.false_eq_true] at he
        case call id ok =>
          cases ok with
          | true =>
            rintro ⟨id', i, h1, h2, h3⟩
            by_cases hid : id' = id
            · subst hid
              exact .inr (hth id' cfg i rfl rfl h2 p h3)
            · refine .inl ⟨id', i, ?_, h2, h3⟩
              revert h1
              simp only [Generator.step, Generator.inRun, Generator.callRun]
              repeat' split
              all_goals simp [hid]
          | false =>
            simp only [Comp.step, Generator.step, Generator.inRun, Generator.callRun, Bool.false_eq_true,
              if_false]
            repeat' split
            all_goals intro h
            all_goals first
              | exact .inl h
              | exact .inl (happ _ (by simp) rfl h)
        all_goals
          simp only [Comp.step, Generator.step, Generator.inRun, Generator.beginRun, Generator.taskRun,
            Generator.finishRun]
        all_goals repeat' split
        all_goals intro h
        all_goals first
          | exact .inl h
          | exact .inl (happ _ (by simp) rfl h)

end Verif.Reg
