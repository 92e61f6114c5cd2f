import Verif.Target.SyncProps

/-! # `Copy` and `Insert` by move with repeated options, exactly (C45) -/

namespace Verif.Target
open Verif Verif.Schema

theorem copyLeaves_entries (src junk : TargetSchema) (o o' : SyncOption) :
    entries o' (copyLeaves src junk o) = if o' = o then entries o' junk else entries o' src := by
  cases o <;> cases o' <;> rfl

/-- The list `a` when its entries were moved from and have become those of `b`. -/
def movedFrom (a b : List (PathInfo ⊕ Str)) : List (PathInfo ⊕ Str) := a.zipWith (fun _ y => y) b

theorem movedFrom_twice (a b : List (PathInfo ⊕ Str)) : movedFrom (movedFrom a b) b = movedFrom a b := by
  induction a generalizing b with
  | nil => rfl
  | cons x a ih =>
    cases b with
    | nil => rfl
    | cons y b => exact congrArg (y :: ·) (ih b)

theorem movedFrom_map (a b : List Str) : (a.zipWith (fun _ j => j) b).map .inr =
    movedFrom (a.map .inr) (b.map .inr) := by
  induction a generalizing b with
  | nil => rfl
  | cons x a ih =>
    cases b with
    | nil => rfl
    | cons y b => exact congrArg (.inr y :: ·) (ih b)

theorem insertLeaves_entries (src junk : TargetSchema) (o o' : SyncOption) :
    entries o' (insertLeaves src junk o) =
      if o' = o ∧ o.movable = true then movedFrom (entries o' src) (entries o' junk)
      else entries o' src := by
  cases o <;> cases o' <;> first | rfl | exact movedFrom_map _ _

theorem copyMove_rest (junk : Nat → TargetSchema) (n : Nat) (t src : TargetSchema)
    (options : List SyncOption) : SameRest t (copyMove junk n t src options).1 := by
  induction options generalizing t src n with
  | nil => exact ⟨rfl, rfl, rfl, rfl⟩
  | cons x xs ih => exact (copyOne_rest t src x).trans (ih _ _ _)

theorem insertMove_rest (junk : Nat → TargetSchema) (n : Nat) (t src : TargetSchema)
    (options : List SyncOption) : SameRest t (insertMove junk n t src options).1 := by
  induction options generalizing t src n with
  | nil => exact ⟨rfl, rfl, rfl, rfl⟩
  | cons x xs ih => exact (insertOne_rest t src x).trans (ih _ _ _)

/-- C45, `Copy` by move exactly: a list that is selected once is that of the source; one that is
selected again is what a move leaves behind; the others are unchanged. -/
theorem C45_copy_exact (junk : TargetSchema) (t src : TargetSchema) (options : List SyncOption)
    (n : Nat) :
    (∀ o, entries o (copyMove (fun _ => junk) n t src options).1 =
      if options.count o = 0 then entries o t
      else if options.count o = 1 then entries o src else entries o junk) ∧
    SameRest t (copyMove (fun _ => junk) n t src options).1 := by
  refine ⟨fun o => ?_, copyMove_rest _ _ _ _ _⟩
  induction options generalizing t src n with
  | nil => simp [copyMove]
  | cons x xs ih =>
    rw [show copyMove (fun _ => junk) n t src (x :: xs) =
      copyMove (fun _ => junk) (n + 1) (copyOne t src x) (copyLeaves src junk x) xs from rfl, ih,
      copyOne_entries, copyLeaves_entries]
    by_cases h : o = x
    · subst h
      rw [List.count_cons_self]
      simp only [if_true]
      by_cases h0 : xs.count o = 0
      · simp [h0]
      · simp [h0]
    · rw [List.count_cons_of_ne (fun e => h e.symm)]
      simp [h]

/-- C45, `Insert` by move exactly: a list of paths gets the entries of the source as often as it is
selected; a list of strings gets them once, and after that what a move leaves behind. -/
theorem C45_insert_exact (junk : TargetSchema) (t src : TargetSchema) (options : List SyncOption)
    (n : Nat) :
    (∀ o, entries o (insertMove (fun _ => junk) n t src options).1 =
      entries o t ++
        if o.movable = false then (List.replicate (options.count o) (entries o src)).flatten
        else if options.count o = 0 then []
        else entries o src ++ (List.replicate (options.count o - 1)
          (movedFrom (entries o src) (entries o junk))).flatten) ∧
    SameRest t (insertMove (fun _ => junk) n t src options).1 := by
  refine ⟨fun o => ?_, insertMove_rest _ _ _ _ _⟩
  induction options generalizing t src n with
  | nil => simp [insertMove]
  | cons x xs ih =>
    rw [show insertMove (fun _ => junk) n t src (x :: xs) =
      insertMove (fun _ => junk) (n + 1) (insertOne t src x) (insertLeaves src junk x) xs from rfl,
      ih, insertOne_entries, insertLeaves_entries]
    by_cases h : o = x
    · subst h
      rw [List.count_cons_self]
      cases hm : o.movable with
      | false => simp [List.replicate_succ]
      | true =>
        by_cases h0 : xs.count o = 0
        · simp [h0]
        · obtain ⟨k, hk⟩ : ∃ k, xs.count o = k + 1 := ⟨_, (Nat.succ_pred h0).symm⟩
          simp [hk, List.replicate_succ, movedFrom_twice]
    · rw [List.count_cons_of_ne (fun e => h e.symm)]
      simp [h]

/-- C45: with moved-from lists that are empty, `Copy` by move does what `Copy` by reference does,
whatever the targets are, exactly if no option is repeated. -/
theorem C45_copy_iff (options : List SyncOption) :
    (∀ t src : TargetSchema, (copyMove (fun _ => .empty) 0 t src options).1 = copy t src options) ↔
      options.Nodup := by
  constructor
  · intro h
    rw [List.nodup_iff_count]
    intro o
    have h1 := (C45_copy_exact .empty (exSyncFull b!"t") (exSyncFull b!"s") options 0).1 o
    rw [h, (C44_copy _ _ _).1 o] at h1
    by_cases h2 : options.count o ≤ 1
    · exact h2
    · exfalso
      rw [if_pos (List.count_pos_iff.1 (by omega)), if_neg (by omega), if_neg (by omega)] at h1
      cases o <;> simp [entries, exSyncFull, TargetSchema.empty] at h1
  · intro h t src
    exact C45_copy_partial _ t src options h 0

/-- C45: whatever a move leaves behind and whatever the targets are, `Insert` by move does what `Insert`
by reference does, exactly if no option for a list of strings is repeated. -/
theorem C45_insert_iff (options : List SyncOption) :
    (∀ t src junk : TargetSchema,
      (insertMove (fun _ => junk) 0 t src options).1 = insert t src options) ↔
      ∀ o : SyncOption, o.movable = true → options.count o ≤ 1 := by
  constructor
  · intro h o hm
    have h1 := (C45_insert_exact (exSyncFull b!"j") (exSyncFull b!"t") (exSyncFull b!"s") options 0).1 o
    rw [h, (C44_insert _ _ _).1 o, hm] at h1
    by_cases h2 : options.count o ≤ 1
    · exact h2
    · exfalso
      obtain ⟨k, hk⟩ : ∃ k, options.count o = k + 2 := ⟨options.count o - 2, by omega⟩
      rw [hk] at h1
      cases o <;> simp [entries, exSyncFull, List.replicate_succ, SyncOption.movable, movedFrom] at h1 hm
  · intro h t src junk
    exact C45_insert_partial _ t src options h 0

/-- `-O2` and then twice the link flags. -/
example : (insertMove (fun _ => { TargetSchema.empty with linkFlags := [b!""] }) 0 (exSyncFull b!"t")
      (exSyncFull b!"s") [.cppCompileFlags, .linkFlags, .linkFlags]).1.linkFlags =
    [b!"t", b!"s", b!""] ∧
    ¬ [SyncOption.linkFlags, .linkFlags].Nodup ∧ [SyncOption.linkFlags, .sources].Nodup := by decide

end Verif.Target
