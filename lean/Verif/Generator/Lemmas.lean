import Verif.Generator.Spec
import Verif.Schema.Lemmas

/-! # Lemmas about decisions and logs -/

namespace Verif.Generator
open Verif Verif.Schema Verif.Json
open Verif.Target (Reads fileHash upd)

variable {f : Str → Option Nat} {L : Option GenSchema} {c : Cfg} {id : Str} {i : IdCfg}

theorem find_mem {α : Type} {id : Str} {l : List (Str × α)} {a : α} (h : find id l = some a) :
    (id, a) ∈ l := by
  induction l with
  | nil => simp [find] at h
  | cons x l ih =>
    obtain ⟨k, b⟩ := x
    simp only [find] at h
    split at h
    · rename_i hk; subst hk
      simp only [Option.some.injEq] at h; subst h; simp
    · exact List.mem_cons_of_mem _ (ih h)

theorem find_isSome {α : Type} {id : Str} {l : List (Str × α)} :
    (find id l).isSome ↔ id ∈ keys l := by
  induction l with
  | nil => simp [find, keys]
  | cons x l ih =>
    obtain ⟨k, b⟩ := x
    simp only [find, keys, List.map_cons, List.mem_cons]
    split
    · rename_i hk; simp [hk]
    · rename_i hk
      rw [ih]
      simp only [keys]
      constructor
      · exact .inr
      · rintro (h | h)
        · exact absurd h.symm hk
        · exact h

theorem find_none {α : Type} {id : Str} {l : List (Str × α)} :
    find id l = none ↔ id ∉ keys l := by
  rw [← find_isSome]; simp

theorem mem_find {α : Type} {id : Str} {l : List (Str × α)} {a : α} (hn : (keys l).Nodup)
    (h : (id, a) ∈ l) : find id l = some a := by
  induction l with
  | nil => simp at h
  | cons x l ih =>
    obtain ⟨k, b⟩ := x
    simp only [keys, List.map_cons, List.nodup_cons] at hn
    simp only [find]
    rcases List.mem_cons.1 h with h | h
    · simp only [Prod.mk.injEq] at h; simp [h.1, h.2]
    · rw [if_neg ?_]
      · exact ih hn.2 h
      · rintro rfl
        exact hn.1 (List.mem_map.2 ⟨_, h, rfl⟩)

theorem hashPaths_iff {l : List Str} {r : List PathInfo} :
    hashPaths f l = some r ↔ recorded r = versions f l := by
  induction l generalizing r with
  | nil => cases r <;> simp [hashPaths, recorded, versions]
  | cons p l ih =>
    simp only [hashPaths]
    cases hp : fileHash f p with
    | none => cases r <;> simp [recorded, versions, hp]
    | some h =>
      cases hl : hashPaths f l with
      | none =>
        simp only [reduceCtorEq, false_iff]
        intro e
        cases r with
        | nil => simp [recorded, versions] at e
        | cons x r =>
          simp only [recorded, versions, List.map_cons, List.cons.injEq] at e
          have := (ih (r := r)).2 e.2
          rw [hl] at this; simp at this
      | some r' =>
        cases r with
        | nil => simp [recorded, versions]
        | cons x r =>
          have h1 := ih (r := r)
          rw [hl] at h1
          obtain ⟨xp, xh⟩ := x
          simp only [recorded, versions, List.map_cons, List.cons.injEq, Option.some.injEq,
            PathInfo.mk.injEq, Prod.mk.injEq, hp] at h1 ⊢
          rw [h1]
          exact and_congr_left fun _ => ⟨fun h => ⟨h.1.symm, h.2.symm⟩, fun h => ⟨h.1.symm, h.2.symm⟩⟩

theorem recorded_inj {a b : List PathInfo} (h : recorded a = recorded b) : a = b := by
  refine (List.map_inj_right ?_).1 h
  intro x y hxy
  simp only [Prod.mk.injEq, Option.some.injEq] at hxy
  cases x; cases y; simp_all

/-- What `ConvertToInternal` yields. -/
theorem convert_iff {s : IdInfo} : convert f i = some s ↔
    recorded s.inputs = versions f i.inputs ∧ s.outputs = i.outputs ∧
      blobOf i.handler = some s.userblob := by
  simp only [convert]
  cases h1 : hashPaths f i.inputs with
  | none =>
    simp only [reduceCtorEq, false_iff]
    rintro ⟨h, -⟩
    rw [hashPaths_iff.2 h] at h1; simp at h1
  | some r =>
    have hr := hashPaths_iff.1 h1
    cases h2 : blobOf i.handler with
    | none => simp
    | some b =>
      obtain ⟨si, so, sb⟩ := s
      simp only [Option.some.injEq, IdInfo.mk.injEq]
      constructor
      · rintro ⟨rfl, rfl, rfl⟩; exact ⟨hr, rfl, rfl⟩
      · rintro ⟨h, rfl, rfl⟩
        exact ⟨recorded_inj (hr.trans h.symm), rfl, rfl⟩

theorem blobOf_some {h : Handler} {b : Blob} (hb : blobOf (some h) = some b) :
    h.serialize = some b ∧ h.verify b = true := by
  simp only [blobOf, Handler.getSerializedData] at hb
  split at hb
  · simp at hb
  · rename_i b' e
    split at hb
    · rename_i hv
      simp only [Option.some.injEq] at hb; subst hb
      exact ⟨e, hv⟩
    · simp at hb

theorem decision_false (h : decision f L id i = some false) :
    ∃ s, storedId L id = some s ∧ Unchanged f s i := by
  simp only [decision] at h
  split at h
  · simp at h
  · rename_i cur hc
    have hcur := convert_iff.1 hc
    split at h
    · simp at h
    · rename_i prev hp
      refine ⟨prev, hp, ?_⟩
      simp only [isChanged] at h
      split at h
      · simp at h
      · rename_i hne
        simp only [Bool.or_eq_true, decide_eq_true_eq, not_or, Decidable.not_not] at hne
        refine ⟨?_, hne.2.trans hcur.2.1, ?_⟩
        · rw [hne.1]; exact hcur.1
        · intro hd hhd
          rw [hhd] at h
          simp only [Handler.checkChanged] at h
          split at h
          · simp at h
          · split at h
            · simp at h
            · rw [hhd] at hcur
              refine ⟨_, (blobOf_some hcur.2.2).1, ?_⟩
              simpa using h

theorem decision_true (h : decision f L id i = some true) :
    ∀ s, storedId L id = some s → ¬ Unchanged f s i := by
  intro s hs hu
  simp only [decision] at h
  split at h
  · simp at h
  · rename_i cur hc
    have hcur := convert_iff.1 hc
    simp only [storedId] at hs
    rw [hs] at h
    simp only [isChanged] at h
    rw [if_neg ?_] at h
    · cases hhd : i.handler with
      | none => rw [hhd] at h; simp at h
      | some hd =>
        rw [hhd] at h hcur
        obtain ⟨b, hb1, hb2⟩ := hu.blob hd hhd
        simp only [Handler.checkChanged] at h
        split at h
        · simp at h
        · split at h
          · simp at h
          · have := (blobOf_some hcur.2.2).1
            rw [hb1] at this
            simp only [Option.some.injEq] at this
            rw [← this, hb2] at h
            simp at h
    · simp only [Bool.or_eq_true, decide_eq_true_eq, not_or, Decidable.not_not]
      exact ⟨recorded_inj (hu.inputs.trans hcur.1.symm), hu.outputs.trans hcur.2.1.symm⟩

/-- What was recorded now is unchanged. -/
theorem unchanged_of_convert {s : IdInfo} (h : convert f i = some s)
    (hr : ∀ h b, i.handler = some h → h.serialize = some b → h.isEqual b b = some true) :
    Unchanged f s i := by
  obtain ⟨h1, h2, h3⟩ := convert_iff.1 h
  refine ⟨h1, h2, ?_⟩
  intro hd hhd
  rw [hhd] at h3
  exact ⟨_, (blobOf_some h3).1, hr _ _ hhd (blobOf_some h3).1⟩

/-- A decision that depends on nothing but the inputs of the id. -/
theorem versions_congr {g : Str → Option Nat} {l : List Str} (h : ∀ p ∈ l, g p = f p) :
    versions g l = versions f l := by
  simp only [versions]
  refine List.map_congr_left fun p hp => ?_
  simp only [fileHash, h p hp]

theorem convert_congr {g : Str → Option Nat} (h : ∀ p ∈ i.inputs, g p = f p) :
    convert g i = convert f i := by
  have : ∀ l : List Str, (∀ p ∈ l, g p = f p) → hashPaths g l = hashPaths f l := by
    intro l hl
    induction l with
    | nil => rfl
    | cons p l ih =>
      simp only [hashPaths, fileHash, hl p (by simp), ih fun q hq => hl q (by simp [hq])]
  simp only [convert, this _ h]

theorem decision_congr {g : Str → Option Nat} (h : ∀ p ∈ i.inputs, g p = f p) :
    decision g L id i = decision f L id i := by
  simp only [decision, convert_congr h]

theorem inputs_mem (h : find id c = some i) {p : Str} (hp : p ∈ i.inputs) : p ∈ inputsOf c :=
  List.mem_flatMap.2 ⟨_, find_mem h, hp⟩

/-! ## Logs -/

/-- The id an entry is about. -/
def Entry.about : Entry → Option Str
  | .called id _ | .unchanged id | .broken id | .skipped id => some id
  | _ => none

/-- The entries about an id. -/
def mine (id : Str) (log : List Entry) : List Entry := log.filter fun e => e.about = some id

theorem mine_append_self {log : List Entry} {e : Entry} (h : e.about = some id) :
    mine id (log ++ [e]) = mine id log ++ [e] := by simp [mine, h]

theorem mine_append_other {log : List Entry} {e : Entry} (h : e.about ≠ some id) :
    mine id (log ++ [e]) = mine id log := by simp [mine, h]

theorem mem_mine {log : List Entry} {e : Entry} (h : e.about = some id) :
    e ∈ log ↔ e ∈ mine id log := by simp [mine, h]

theorem mem_calledIds {log : List Entry} : id ∈ calledIds log ↔ ∃ b, Entry.called id b ∈ log := by
  simp only [calledIds, List.mem_filterMap]
  constructor
  · rintro ⟨e, he, h⟩
    cases e <;> simp only [Option.some.injEq, reduceCtorEq] at h
    subst h; exact ⟨_, he⟩
  · rintro ⟨b, h⟩; exact ⟨_, h, rfl⟩

theorem calledIds_append (a b : List Entry) : calledIds (a ++ b) = calledIds a ++ calledIds b := by
  simp [calledIds]

end Verif.Generator
