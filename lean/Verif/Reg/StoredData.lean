import Verif.Reg.AgreeSpec

/-! # The data in the stored states of generators was given by scripts -/

namespace Verif.Reg
open Verif Verif.Schema Verif.Json
open Verif.Target (upd)
open Verif.Generator (Blob)

/-- The configuration stores only such data. -/
def CfgStores (P : Str → Blob → Prop) (c : Generator.Cfg) : Prop :=
  ∀ id i b, Generator.find id c = some i → Generator.blobOf i.handler = some b → P id b

/-- The scripts that are started store only such data: builder, id and data. -/
def Stores (P : Str → Str → Blob → Prop) : WEvent → Prop
  | .launch g s => ∀ j ∈ g.ids, ∀ c, s j = .gen c → CfgStores (P j) c
  | _ => True

/-- The data that a generator has stored, or is about to store. -/
structure DataGen (P : Str → Blob → Prop) (σ : Generator.Sys) : Prop where
  state : ∀ id x, Generator.storedId (loadGenFile σ.stateFile) id = some x → P id x.userblob
  run : ∀ r, σ.run = some r → (Generator.keys r.cfg).Nodup ∧ CfgStores P r.cfg

variable {P : Str → Blob → Prop}

theorem DataGen.of {σ σ' : Generator.Sys} (h : DataGen P σ) (h3 : σ'.stateFile = σ.stateFile)
    (hr : ∀ r, σ'.run = some r → (Generator.keys r.cfg).Nodup ∧ CfgStores P r.cfg) : DataGen P σ' :=
  ⟨by rw [h3]; exact h.state, hr⟩

theorem dataGen_stored {σ σ' : Generator.Sys} {r : Generator.Run} {order : List Str} {s : GenSchema} {t : Str}
    (h : DataGen P σ) (hr : σ.run = some r) (ho : order.Perm (Generator.keys r.cfg))
    (hs : Generator.toStore σ.files r order = some s) (ht : genText s = some t)
    (h3 : σ'.stateFile = some t) (h4 : σ'.run = none) : DataGen P σ' := by
  obtain ⟨l, hl1, hl2⟩ := Option.map_eq_some_iff.1 hs
  obtain ⟨g1, g2⟩ := Generator.convertAll_inv hl1
  have hn : (Generator.keys l).Nodup := (ho.nodup_iff.2 (h.run r hr).1).sublist g1
  have hload : loadGenFile σ'.stateFile = some s := by
    rw [h3]
    simp only [loadGenFile, loadFile, Option.bind_some]
    refine loadGen_text ?_ ht
    rw [← hl2]; exact hn
  refine ⟨fun id x hx => ?_, fun r hr => by rw [h4] at hr; simp at hr⟩
  rw [hload] at hx
  simp only [Generator.storedId, Option.bind_some, ← hl2] at hx
  obtain ⟨-, k, hk, hc⟩ := g2 id x (Generator.find_mem hx)
  exact (h.run r hr).2 id k _ hk (Generator.convert_iff.1 hc).2.2

theorem dataGen_step {σ : Generator.Sys} {e : Generator.Event} (h : DataGen P σ)
    (hs : ∀ c, e = .start c → CfgStores P c) : DataGen P (Generator.step σ e) := by
  have hset : ∀ {r : Generator.Run} {id st}, σ.run = some r → ∀ r', some (r.set id st) = some r' →
      (Generator.keys r'.cfg).Nodup ∧ CfgStores P r'.cfg := by
    intro r id st hr r' hr'
    simp only [Option.some.injEq] at hr'
    subst hr'
    exact h.run r hr
  cases e with
  | edit p t => exact ⟨h.state, h.run⟩
  | delete p => exact ⟨h.state, h.run⟩
  | dropState =>
    simp only [Generator.step]
    split
    · exact ⟨fun id x hx => by simp [loadGenFile, loadFile, Generator.storedId] at hx, h.run⟩
    · exact h
  | otherFail => simp only [Generator.step]; split <;> exact ⟨h.state, h.run⟩
  | start c =>
    simp only [Generator.step, Generator.startRun]
    repeat' split
    · exact h
    · rename_i hn
      refine h.of rfl fun r hr => ?_
      simp only [Option.some.injEq] at hr
      subst hr
      exact ⟨hn, hs c rfl⟩
    · exact h
  | «begin» =>
    simp only [Generator.step, Generator.inRun, Generator.beginRun]
    split
    · rename_i r hr
      repeat' split
      · exact h
      · exact h.of rfl (by simp)
      · refine h.of rfl fun r' hr' => ?_
        simp only [Option.some.injEq] at hr'
        subst hr'
        exact h.run r hr
    · exact h
  | task id =>
    simp only [Generator.step, Generator.inRun, Generator.taskRun]
    split
    · rename_i r hr
      repeat' split
      all_goals first
        | exact h
        | exact h.of rfl (hset hr)
    · exact h
  | look id p v =>
    simp only [Generator.step, Generator.inRun, Generator.lookAt]
    repeat' split
    all_goals exact ⟨h.state, h.run⟩
  | call id ok =>
    simp only [Generator.step, Generator.inRun, Generator.callRun]
    split
    · rename_i r hr
      repeat' split
      all_goals first
        | exact h
        | exact h.of rfl (hset hr)
    · exact h
  | finish order canOpen =>
    simp only [Generator.step, Generator.inRun]
    split
    · rename_i r hr
      split
      · rename_i ho
        simp only [Bool.and_eq_true, List.isPerm_iff] at ho
        simp only [Generator.finishRun]
        split
        · split
          · exact h.of rfl (by simp)
          · rename_i s hst
            cases htx : genText s with
            | none => simp only [storeText]; exact h.of rfl (by simp)
            | some t =>
              cases canOpen with
              | false =>
                simp only [storeText, Bool.false_eq_true, if_false]
                exact h.of rfl (by simp)
              | true =>
                simp only [storeText, if_true]
                exact dataGen_stored h hr ho.2 hst htx rfl rfl
        · exact h.of rfl (by simp)
      · exact h
    · exact h
  | crash order wr =>
    simp only [Generator.step, Generator.inRun]
    split
    · rename_i r hr
      simp only [Generator.crashRun]
      split
      · exact h.of rfl (by simp)
      · rename_i n
        split
        · rename_i ho
          simp only [Bool.and_eq_true, List.isPerm_iff] at ho
          split
          · exact h.of rfl (by simp)
          · rename_i text htx
            obtain ⟨s, hst, ht⟩ := Option.bind_eq_some_iff.1 htx
            split
            · rename_i hn
              refine ⟨fun id x hx => ?_, by simp⟩
              rw [Generator.truncated_unreadable (h.run r hr).1 ho.2 hst ht hn] at hx
              simp [Generator.storedId] at hx
            · exact dataGen_stored h hr ho.2 hst ht rfl rfl
        · exact h.of rfl (by simp)
    · exact h

/-! ## Worlds -/

def DataComp (P : Str → Blob → Prop) : Comp → Prop
  | .target _ _ => True
  | .gen σ => DataGen P σ

theorem dataComp_step {c : Comp} {e : Ev} (h : DataComp P c)
    (hs : ∀ x, e = .g (.start x) → CfgStores P x) : DataComp P (c.step e) := by
  cases c with
  | target fx σ => cases e <;> trivial
  | gen σ =>
    cases e with
    | t e => exact h
    | g e => exact dataGen_step h fun x hx => hs x (by rw [hx])

theorem dataComp_write {c : Comp} {p : Str} {x : Option Nat} (h : DataComp P c) : DataComp P (c.write p x) := by
  cases x <;> exact dataComp_step (dataComp_step h (by simp)) (by simp)

theorem dataComp_writes {j : Str} : ∀ (ws : Writes) (w : World), DataComp P (w.comps j) →
    DataComp P ((w.writes ws).comps j) := by
  intro ws
  induction ws with
  | nil => intro w h; exact h
  | cons x l ih => intro w h; exact ih (w.write x.1 x.2) (dataComp_write h)

theorem dataComp_event {Q : Str → Str → Blob → Prop} {w : World} {e : WEvent} (h : ∀ j, DataComp (Q j) (w.comps j))
    (he : Stores Q e) : ∀ j, DataComp (Q j) ((w.step e).comps j) := by
  intro j
  cases e with
  | edit p t => simp only [World.step, World.write]; exact dataComp_write (h j)
  | delete p => simp only [World.step, World.write]; exact dataComp_write (h j)
  | dropState id =>
    simp only [World.step]
    split
    · exact h j
    · simp only [upd]
      split
      · rename_i e
        subst e
        exact dataComp_step (dataComp_step (h _) (by simp)) (by simp)
      · exact h j
  | launch g s =>
    simp only [World.step]
    split
    · simp only
      split
      · rename_i hj
        have hc := he j hj
        cases hsj : s j with
        | target c o => exact dataComp_step (h j) (by simp)
        | gen c =>
          refine dataComp_step (h j) fun x hx => ?_
          simp only [Ev.g.injEq, Generator.Event.start.injEq] at hx
          rw [← hx]
          exact hc c hsj
      · exact h j
    · exact h j
  | «begin» id => simp only [World.step]; split <;> exact h j
  | task id e ws =>
    simp only [World.step]
    split
    · rename_i hg
      simp only [Bool.and_eq_true, decide_eq_true_eq] at hg
      refine dataComp_writes ws (w.stepped id e ws) ?_
      simp only [World.stepped]
      split
      · rename_i e'
        subst e'
        refine dataComp_step (h j) ?_
        rintro x rfl
        simp [Ev.isTask, Generator.Event.progress] at hg
      · split
        · exact dataComp_step (dataComp_step (h j) (by simp)) (by simp)
        · exact h j
    · exact h j
  | look id e =>
    simp only [World.step]
    split
    · rename_i hg
      simp only [Bool.and_eq_true, decide_eq_true_eq] at hg
      simp only [upd]
      split
      · rename_i e'
        subst e'
        refine dataComp_step (h _) ?_
        rintro x rfl
        simp [Ev.isLook] at hg
      · exact h j
    · exact h j
  | join =>
    simp only [World.step]
    split
    · simp only
      split
      · exact dataComp_step (dataComp_step (h j) (by simp)) (by simp)
      · exact h j
    · exact h j
  | kill order written =>
    simp only [World.step]
    split
    · simp only
      split
      · exact dataComp_step (dataComp_step (h j) (by simp)) (by simp)
      · exact h j
    · exact h j

theorem dataComp_events {Q : Str → Str → Blob → Prop} : ∀ (evs : List WEvent) (w : World),
    (∀ j, DataComp (Q j) (w.comps j)) → (∀ e ∈ evs, Stores Q e) → ∀ j, DataComp (Q j) ((w.steps evs).comps j) := by
  intro evs
  induction evs with
  | nil => intro w h _; exact h
  | cons e l ih =>
    intro w h he
    exact ih (w.step e) (dataComp_event h (he e (by simp))) fun x hx => he x (by simp [hx])

/-- After any history the data in the stored state of a generator is data that some script has given to it. -/
theorem stored_history {kinds : Str → Kind} {Q : Str → Str → Blob → Prop} {hist : List WEvent}
    (h : ∀ e ∈ hist, Stores Q e) {j : Str} {σ : Generator.Sys}
    (hσ : ((World.init kinds).steps hist).comps j = .gen σ) {id : Str} {x : IdInfo}
    (hx : Generator.storedId (loadGenFile σ.stateFile) id = some x) : Q j id x.userblob := by
  have hi : ∀ j, DataComp (Q j) ((World.init kinds).comps j) := by
    intro j
    simp only [World.init]
    cases kinds j with
    | target fx => trivial
    | gen => exact ⟨by simp [Generator.Sys.init, loadGenFile, loadFile, Generator.storedId],
        by simp [Generator.Sys.init]⟩
  have := dataComp_events hist _ hi h j
  rw [hσ] at this
  exact this.state id x hx

end Verif.Reg
