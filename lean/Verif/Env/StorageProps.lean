import Verif.Env.StorageSpec

/-! # C42, C43: the storage -/

namespace Verif.Env
open Verif

/-- Induction on the last operation. -/
theorem snocInduction {α : Type} {p : List α → Prop} (l : List α) (nil : p [])
    (snoc : ∀ l o, p l → p (l ++ [o])) : p l := by
  rw [← List.reverse_reverse l]
  induction l.reverse with
  | nil => exact nil
  | cons o l ih => rw [List.reverse_cons]; exact snoc _ _ ih

theorem after_nil : storageAfter [] = Storage.init := rfl

theorem after_snoc (ops : List StorageOp) (o : StorageOp) :
    storageAfter (ops ++ [o]) = (storageAfter ops).step o := by
  simp [storageAfter, Storage.run]

theorem adds_snoc (ops : List StorageOp) (o : StorageOp) :
    adds (ops ++ [o]) = adds ops + (match o with | .add _ _ => 1 | .clear => 0) := by
  cases o <;> simp [adds]

theorem made_after (ops : List StorageOp) : (storageAfter ops).made = adds ops := by
  induction ops using snocInduction with
  | nil => rfl
  | snoc l o ih =>
    rw [after_snoc, adds_snoc, ← ih]
    cases o <;> rfl

theorem inUse_add {ops : List StorageOp} {id id' t : Str} :
    InUse (ops ++ [.add id' t]) id ↔ id = id' ∨ InUse ops id := by
  constructor
  · rintro ⟨a, b, t', h, hc, hm⟩
    rcases List.eq_nil_or_concat b with rfl | ⟨b', x, rfl⟩
    · simp at hm
    · rw [List.concat_eq_append] at h hc hm
      rw [← List.append_assoc] at h
      obtain ⟨h1, h2⟩ := List.append_inj' h rfl
      simp only [List.cons.injEq, and_true] at h2
      subst h2
      rcases List.mem_append.1 hm with hm | hm
      · exact .inr ⟨a, b', t', h1, fun hx => hc (by simp [hx]), hm⟩
      · simp only [List.mem_singleton, StorageOp.add.injEq] at hm
        exact .inl hm.1
  · rintro (rfl | ⟨a, b, t', h, hc, hm⟩)
    · exact ⟨ops, [.add id t], t, rfl, by simp, by simp⟩
    · exact ⟨a, b ++ [.add id' t], t', by rw [h, List.append_assoc], by simp [hc], by simp [hm]⟩

theorem inUse_clear {ops : List StorageOp} {id : Str} : ¬ InUse (ops ++ [.clear]) id := by
  rintro ⟨a, b, t', h, hc, hm⟩
  rcases List.eq_nil_or_concat b with rfl | ⟨b', x, rfl⟩
  · simp at hm
  · rw [List.concat_eq_append] at h hc hm
    rw [← List.append_assoc] at h
    obtain ⟨h1, h2⟩ := List.append_inj' h rfl
    simp only [List.cons.injEq, and_true] at h2
    subst h2
    simp at hc

theorem inUse_nil {id : Str} : ¬ InUse [] id := by
  rintro ⟨a, b, t', h, hc, hm⟩
  simp only [List.nil_eq, List.append_eq_nil_iff] at h
  rw [h.2] at hm
  simp at hm

theorem firstAdd_add {ops : List StorageOp} {id t id' t' : Str} {n : Nat} :
    FirstAdd (ops ++ [.add id' t']) id t n ↔
      FirstAdd ops id t n ∨ (id = id' ∧ t = t' ∧ n = adds ops ∧ ¬ InUse ops id) := by
  constructor
  · rintro ⟨a, b, h, hn, hc, hu⟩
    rcases List.eq_nil_or_concat b with rfl | ⟨b', x, rfl⟩
    · obtain ⟨h1, h2⟩ := List.append_inj' h rfl
      simp only [List.cons.injEq, StorageOp.add.injEq, and_true] at h2
      subst h1
      exact .inr ⟨h2.1.symm, h2.2.symm, hn, hu⟩
    · rw [List.concat_eq_append] at h hc
      rw [← List.cons_append, ← List.append_assoc] at h
      obtain ⟨h1, h2⟩ := List.append_inj' h rfl
      exact .inl ⟨a, b', h1, hn, fun hx => hc (by simp [hx]), hu⟩
  · rintro (⟨a, b, h, hn, hc, hu⟩ | ⟨rfl, rfl, hn, hu⟩)
    · exact ⟨a, b ++ [.add id' t'], by rw [h]; simp, hn, by simp [hc], hu⟩
    · exact ⟨ops, [], rfl, hn, by simp, hu⟩

theorem firstAdd_clear {ops : List StorageOp} {id t : Str} {n : Nat} :
    ¬ FirstAdd (ops ++ [.clear]) id t n := by
  rintro ⟨a, b, h, hn, hc, hu⟩
  rcases List.eq_nil_or_concat b with rfl | ⟨b', x, rfl⟩
  · obtain ⟨-, h2⟩ := List.append_inj' h rfl
    simp at h2
  · rw [List.concat_eq_append] at h hc
    rw [← List.cons_append, ← List.append_assoc] at h
    obtain ⟨h1, h2⟩ := List.append_inj' h rfl
    simp only [List.cons.injEq, and_true] at h2
    subst h2
    simp at hc

theorem firstAdd_nil {id t : Str} {n : Nat} : ¬ FirstAdd [] id t n := by
  rintro ⟨a, b, h, -⟩
  simp at h

theorem find_add (s : Storage) (id t id' : Str) :
    (s.add id t).2.find id' =
      if id' = id ∧ s.contains id = false then some ⟨s.made, t⟩ else s.find id' := by
  simp only [Storage.add, Storage.find]
  by_cases hc : s.contains id = true
  · simp [hc]
  · simp only [Bool.not_eq_true] at hc
    simp only [hc, Bool.false_eq_true, if_false, and_true]
    rw [List.find?_append]
    by_cases hid : id' = id
    · subst hid
      have : (s.ptrs.find? fun e => e.1 = id') = none := by
        simpa [Storage.contains, Storage.find] using hc
      rw [this]
      simp
    · rw [if_neg hid]
      have : ([(id, (⟨s.made, t⟩ : PtrMetadata))].find? fun e => e.1 = id') = none := by
        simp [Ne.symm hid]
      rw [this]
      simp

/-- The entry of an identifier is the object added first since the last `Clear`. -/
theorem find_after (ops : List StorageOp) (id : Str) :
    (∀ t n, (storageAfter ops).find id = some ⟨n, t⟩ ↔ FirstAdd ops id t n) ∧
    ((storageAfter ops).contains id = true ↔ InUse ops id) := by
  induction ops using snocInduction with
  | nil =>
    exact ⟨fun t n => by simp [after_nil, Storage.init, Storage.find, firstAdd_nil],
      by simp [after_nil, Storage.init, Storage.find, Storage.contains, inUse_nil]⟩
  | snoc l o ih =>
    rw [after_snoc]
    cases o with
    | clear =>
      exact ⟨fun t n => by simp [Storage.step, Storage.clear, Storage.find, firstAdd_clear],
        by simp [Storage.step, Storage.clear, Storage.find, Storage.contains, inUse_clear]⟩
    | add id' t' =>
      obtain ⟨ih1, ih2⟩ := ih
      have hf : ((storageAfter l).step (.add id' t')).find id = _ := find_add (storageAfter l) id' t' id
      refine ⟨fun t n => ?_, ?_⟩
      · rw [hf, firstAdd_add, ← ih1, ← ih2, made_after]
        by_cases hid : id = id'
        · subst hid
          cases hc : (storageAfter l).contains id with
          | true => simp
          | false =>
            have : (storageAfter l).find id = none := by
              simpa [Storage.contains] using hc
            simp only [this, true_and, if_true, Option.some.injEq, PtrMetadata.mk.injEq,
              reduceCtorEq, false_or, Bool.false_eq_true, not_false_eq_true, and_true]
            exact ⟨fun ⟨h1, h2⟩ => ⟨h2.symm, h1.symm⟩, fun ⟨h1, h2⟩ => ⟨h2.symm, h1.symm⟩⟩
        · simp [hid]
      · rw [inUse_add, ← ih2]
        rw [show ((storageAfter l).step (.add id' t')).contains id =
          (((storageAfter l).step (.add id' t')).find id).isSome from rfl, hf]
        by_cases hid : id = id'
        · subst hid
          by_cases hc : (storageAfter l).contains id = true
          · rw [if_neg (by simp [hc])]
            exact ⟨.inr, fun _ => hc⟩
          · rw [if_pos ⟨rfl, by simpa using hc⟩]
            simp
        · rw [if_neg fun h => hid h.1]
          exact ⟨.inr, fun h => h.resolve_left hid⟩

/-! ## C42 -/

/-- C42: `Ref` and `ConstRef` return the object that was added first under the identifier
since the last `Clear`, for the type it was added with. -/
theorem C42_ref (ops : List StorageOp) (id t : Str) (n : Nat) :
    (storageAfter ops).ref id t = some n ↔ FirstAdd ops id t n := by
  rw [← (find_after ops id).1 t n]
  simp only [Storage.ref]
  cases h : (storageAfter ops).find id with
  | none => simp
  | some m =>
    obtain ⟨p, t'⟩ := m
    simp only [Option.some.injEq, PtrMetadata.mk.injEq]
    split
    · rename_i e; subst e; simp
    · rename_i e
      simp only [reduceCtorEq, false_iff, not_and]
      exact fun _ h => e h.symm

/-- There is at most one such object, and it has one type: with another type `Ref` is
fatal. -/
theorem C42_unique {ops : List StorageOp} {id t t' : Str} {n n' : Nat}
    (h : FirstAdd ops id t n) (h' : FirstAdd ops id t' n') : n = n' ∧ t = t' := by
  rw [← (find_after ops id).1] at h h'
  rw [h] at h'
  simpa using h'

/-- C42: `Ref` is fatal exactly when the identifier was not added since the last `Clear`, or
was first added with another type. -/
theorem C42_fatal (ops : List StorageOp) (id t : Str) :
    (storageAfter ops).ref id t = none ↔
      ¬ InUse ops id ∨ ∃ t' n, FirstAdd ops id t' n ∧ t' ≠ t := by
  rw [← (find_after ops id).2]
  simp only [← (find_after ops id).1, Storage.ref, Storage.contains]
  cases h : (storageAfter ops).find id with
  | none => simp
  | some m =>
    obtain ⟨p, t'⟩ := m
    simp only [Option.isSome_some, not_true_eq_false, false_or, Option.some.injEq,
      PtrMetadata.mk.injEq]
    split
    · rename_i e; subst e
      simp only [reduceCtorEq, false_iff]
      rintro ⟨t2, n, ⟨-, h2⟩, h3⟩
      exact h3 h2.symm
    · rename_i e
      exact ⟨fun _ => ⟨t', p, ⟨rfl, rfl⟩, fun h => e h.symm⟩, fun _ => rfl⟩

/-- C42: `Contains` tells whether the identifier was added since the last `Clear`, `Valid`
whether `Ref` with this type would succeed. -/
theorem C42_contains_valid (ops : List StorageOp) (id t : Str) :
    ((storageAfter ops).contains id = true ↔ InUse ops id) ∧
    ((storageAfter ops).valid id t = true ↔ ∃ n, (storageAfter ops).ref id t = some n) := by
  refine ⟨(find_after ops id).2, ?_⟩
  simp only [Storage.valid, Storage.ref]
  cases h : (storageAfter ops).find id with
  | none => simp
  | some m =>
    obtain ⟨p, t'⟩ := m
    simp only [ne_eq, ite_not]
    split <;> simp

/-- C42: `Add` under an identifier that is not in use returns the object that `Ref` returns
until the next `Clear`. -/
theorem C42_add_partial (ops more : List StorageOp) (id t : Str) (hu : ¬ InUse ops id)
    (hc : .clear ∉ more) :
    (storageAfter (ops ++ .add id t :: more)).ref id t = some ((storageAfter ops).add id t).1 :=
  (C42_ref _ _ _ _).2 ⟨ops, more, rfl, made_after ops, hc, hu⟩

/-- … under an identifier in use it returns an object that `Ref` never returns, under no
identifier and no type, whatever happens later. -/
theorem C42_add_in_use_false (ops more : List StorageOp) (id t : Str) (hu : InUse ops id) :
    ∀ id' t', (storageAfter (ops ++ .add id t :: more)).ref id' t' ≠
      some ((storageAfter ops).add id t).1 := by
  intro id' t' h
  rw [C42_ref] at h
  obtain ⟨a, b, h1, h2, h3, h4⟩ := h
  have hn : adds ops = adds a := by
    rw [← h2]; exact (made_after ops).symm
  -- both histories end before the same call of `Add`
  have key : ∀ (l m x y : List StorageOp) (i s i' s' : Str),
      l ++ .add i s :: x = m ++ .add i' s' :: y → adds l = adds m → l = m := by
    intro l
    induction l with
    | nil =>
      intro m x y i s i' s' h ha
      cases m with
      | nil => rfl
      | cons o m =>
        simp only [List.nil_append, List.cons_append, List.cons.injEq] at h
        rw [← h.1] at ha
        simp [adds] at ha
    | cons o l ih =>
      intro m x y i s i' s' h ha
      cases m with
      | nil =>
        simp only [List.nil_append, List.cons_append, List.cons.injEq] at h
        rw [h.1] at ha
        simp [adds] at ha
      | cons o' m =>
        simp only [List.cons_append, List.cons.injEq] at h
        obtain ⟨rfl, h⟩ := h
        rw [ih m x y i s i' s' h (by cases o <;> simpa [adds] using ha)]
  have := key _ _ _ _ _ _ _ _ h1 hn
  subst this
  simp only [List.append_cancel_left_eq, List.cons.injEq, StorageOp.add.injEq] at h1
  rw [h1.1.1] at hu
  exact h4 hu

/-- A history with an identifier in use twice and a `Clear` in between. -/
def exOps : List StorageOp :=
  [.add b!"a" b!"int", .clear, .add b!"a" b!"str", .add b!"b" b!"int", .add b!"a" b!"int"]

example : (storageAfter exOps).ref b!"a" b!"str" = some 1 ∧
    (storageAfter exOps).ref b!"a" b!"int" = none ∧
    (storageAfter exOps).ref b!"b" b!"int" = some 2 ∧
    (storageAfter exOps).valid b!"a" b!"int" = false ∧
    (storageAfter exOps).contains b!"a" = true := by decide

example : FirstAdd exOps b!"a" b!"str" 1 := (C42_ref _ _ _ _).1 (by decide)

/-! ## C43 -/

structure StInv (s : Storage) : Prop where
  keys : (s.ptrs.map (·.1)).Nodup
  objs : (s.ptrs.map (·.2.ptr) ++ s.deleted).Nodup
  old : ∀ n ∈ s.ptrs.map (·.2.ptr) ++ s.deleted, n < s.made

theorem stInv_step {s : Storage} (h : StInv s) (o : StorageOp) : StInv (s.step o) := by
  cases o with
  | clear =>
    refine ⟨by simp [Storage.step, Storage.clear], ?_, ?_⟩
    · simpa [Storage.step, Storage.clear] using (List.perm_append_comm.nodup_iff).1 h.objs
    · intro n hn
      refine h.old n ?_
      simp only [Storage.step, Storage.clear, List.map_nil, List.nil_append] at hn
      simpa [or_comm] using hn
  | add id t =>
    simp only [Storage.step, Storage.add]
    by_cases hc : s.contains id = true
    · rw [if_pos hc]
      exact ⟨h.keys, h.objs, fun n hn => Nat.lt_succ_of_lt (h.old n hn)⟩
    · rw [if_neg hc]
      have hid : id ∉ s.ptrs.map (·.1) := by
        intro hm
        obtain ⟨e, he, rfl⟩ := List.mem_map.1 hm
        apply hc
        simp only [Storage.contains, Storage.find, Option.isSome_map, List.find?_isSome]
        exact ⟨e, he, by simp⟩
      have hnew : s.made ∉ s.ptrs.map (·.2.ptr) ++ s.deleted := fun hm =>
        Nat.lt_irrefl _ (h.old _ hm)
      refine ⟨?_, ?_, ?_⟩
      · simp only [List.map_append, List.map_cons, List.map_nil]
        rw [List.nodup_append]
        refine ⟨h.keys, by simp, ?_⟩
        simp only [List.mem_singleton]
        rintro a ha b rfl e
        exact hid (e ▸ ha)
      · simp only [List.map_append, List.map_cons, List.map_nil]
        have hp : (s.made :: (s.ptrs.map (·.2.ptr) ++ s.deleted)).Nodup :=
          List.nodup_cons.2 ⟨hnew, h.objs⟩
        refine (List.Perm.nodup_iff ?_).1 hp
        simpa using (List.perm_middle (a := s.made) (l₁ := s.ptrs.map (·.2.ptr))
          (l₂ := s.deleted)).symm
      · intro n hn
        simp only [List.map_append, List.map_cons, List.map_nil, List.append_assoc,
          List.mem_append, List.mem_singleton, List.cons_append, List.nil_append,
          List.mem_cons] at hn
        rcases hn with hn | hn | hn
        · exact Nat.lt_succ_of_lt (h.old n (List.mem_append_left _ hn))
        · subst hn; exact Nat.lt_succ_self _
        · exact Nat.lt_succ_of_lt (h.old n (List.mem_append_right _ hn))

theorem stInv_after (ops : List StorageOp) : StInv (storageAfter ops) := by
  induction ops using snocInduction with
  | nil => exact ⟨by simp [after_nil, Storage.init], by simp [after_nil, Storage.init],
      by simp [after_nil, Storage.init]⟩
  | snoc l o ih => rw [after_snoc]; exact stInv_step ih o

/-- C43: no object is deleted twice. -/
theorem C43_at_most_once (ops : List StorageOp) (n : Nat) :
    (storageAfter ops).deleted.count n ≤ 1 :=
  List.nodup_iff_count.1 (List.nodup_append.1 (stInv_after ops).objs).2.1 n

/-- C43: an object that `Ref` returns exists. -/
theorem C43_reachable_alive (ops : List StorageOp) (id t : Str) (n : Nat)
    (h : (storageAfter ops).ref id t = some n) :
    n < adds ops ∧ n ∉ (storageAfter ops).deleted := by
  have hI := stInv_after ops
  have hm : n ∈ (storageAfter ops).ptrs.map (·.2.ptr) := by
    simp only [Storage.ref, Storage.find] at h
    split at h
    · simp at h
    · rename_i m hf
      split at h
      · obtain ⟨e, he, rfl⟩ := Option.map_eq_some_iff.1 hf
        simp only [Option.some.injEq] at h
        exact List.mem_map.2 ⟨e, List.mem_of_find?_eq_some he, h⟩
      · simp at h
  refine ⟨made_after ops ▸ hI.old n (List.mem_append_left _ hm), fun hd => ?_⟩
  exact (List.nodup_append.1 hI.objs).2.2 n hm n hd rfl

theorem NoReuse.prefix {l : List StorageOp} {o : StorageOp} (h : NoReuse (l ++ [o])) :
    NoReuse l := fun a id t b e => h a id t (b ++ [o]) (by rw [e]; simp)

theorem live_or_deleted (ops : List StorageOp) (h : NoReuse ops) (n : Nat) (hn : n < adds ops) :
    n ∈ (storageAfter ops).ptrs.map (·.2.ptr) ++ (storageAfter ops).deleted := by
  induction ops using snocInduction with
  | nil => simp [adds] at hn
  | snoc l o ih =>
    rw [after_snoc]
    cases o with
    | clear =>
      have := ih h.prefix (by simpa [adds_snoc] using hn)
      simpa [Storage.step, Storage.clear, or_comm] using this
    | add id t =>
      have hc : (storageAfter l).contains id = false := by
        have := h l id t [] rfl
        rw [← (find_after l id).2] at this
        simpa using this
      simp only [Storage.step, Storage.add, hc, Bool.false_eq_true, if_false, made_after]
      rw [adds_snoc] at hn
      rcases Nat.lt_succ_iff_lt_or_eq.1 hn with hn | hn
      · have := ih h.prefix hn
        simp only [List.map_append, List.map_cons, List.map_nil, List.append_assoc,
          List.mem_append, List.mem_singleton, List.cons_append, List.nil_append,
          List.mem_cons] at this ⊢
        rcases this with h1 | h1
        · exact .inl h1
        · exact .inr (.inr h1)
      · subst hn; simp

/-- C43: when no identifier is added again while it is in use, every object that was made is
deleted exactly once by the next `Clear` or by the destructor.

Missing: identifiers that are added again; see `C43_leak_false`. -/
theorem C43_all_deleted_partial (ops : List StorageOp) (h : NoReuse ops) (n : Nat)
    (hn : n < adds ops) : (storageAfter (ops ++ [.clear])).deleted.count n = 1 := by
  refine Nat.le_antisymm (C43_at_most_once _ _) ?_
  rw [after_snoc]
  have := live_or_deleted ops h n hn
  exact List.one_le_count_iff.2 (by simpa [Storage.step, Storage.clear, or_comm] using this)

/-- C43 is false when an identifier is added again: the second object is never deleted,
whatever happens later. -/
theorem C43_leak_false (ops more : List StorageOp) (id t : Str) (hu : InUse ops id) :
    ((storageAfter ops).add id t).1 ∉ (storageAfter (ops ++ .add id t :: more)).deleted := by
  have h0 : ((storageAfter ops).add id t).1 = adds ops := made_after ops
  rw [h0]
  suffices h : adds ops < (storageAfter (ops ++ .add id t :: more)).made ∧
      adds ops ∉ (storageAfter (ops ++ .add id t :: more)).ptrs.map (·.2.ptr) ++
      (storageAfter (ops ++ .add id t :: more)).deleted from
    fun hm => h.2 (List.mem_append_right _ hm)
  induction more using snocInduction with
  | nil =>
    rw [after_snoc]
    have hc := (find_after ops id).2.2 hu
    simp only [Storage.step, Storage.add, hc, if_true, made_after]
    refine ⟨Nat.lt_succ_self _, fun hm => Nat.lt_irrefl (adds ops) ?_⟩
    have := (stInv_after ops).old _ hm
    rwa [made_after] at this
  | snoc l o ih =>
    rw [← List.cons_append, ← List.append_assoc, after_snoc]
    obtain ⟨h1, h2⟩ := ih
    cases o with
    | clear => exact ⟨h1, by simpa [Storage.step, Storage.clear, or_comm, and_comm] using h2⟩
    | add id' t' =>
      refine ⟨Nat.lt_succ_of_lt h1, ?_⟩
      simp only [Storage.step, Storage.add]
      split
      · exact h2
      · simp only [List.map_append, List.map_cons, List.map_nil, List.append_assoc,
          List.mem_append, List.cons_append, List.nil_append, List.mem_cons, not_or] at h2 ⊢
        exact ⟨h2.1, Nat.ne_of_lt h1, h2.2⟩

theorem kept_or_deleted (ops more : List StorageOp) (id t : Str) (hu : ¬ InUse ops id) :
    adds ops ∈ (storageAfter (ops ++ .add id t :: more)).ptrs.map (·.2.ptr) ++
      (storageAfter (ops ++ .add id t :: more)).deleted := by
  induction more using snocInduction with
  | nil =>
    rw [after_snoc]
    have hc : (storageAfter ops).contains id = false := by
      rw [← (find_after ops id).2] at hu
      simpa using hu
    simp [Storage.step, Storage.add, hc, made_after]
  | snoc l o ih =>
    rw [← List.cons_append, ← List.append_assoc, after_snoc]
    cases o with
    | clear => simpa [Storage.step, Storage.clear, or_comm] using ih
    | add id' t' =>
      simp only [Storage.step, Storage.add]
      split
      · exact ih
      · simp only [List.map_append, List.map_cons, List.map_nil, List.append_assoc,
          List.mem_append, List.cons_append, List.nil_append, List.mem_cons] at ih ⊢
        rcases ih with h1 | h1
        · exact .inl h1
        · exact .inr (.inr h1)

open Classical in
/-- C43, exactly, for every history: after a later `Clear` or the destructor, the object that an
`Add` made has been deleted once when its identifier was not in use at that `Add`, and not at
all when it was. -/
theorem C43_exact (ops more : List StorageOp) (id t : Str) :
    (storageAfter (ops ++ .add id t :: more ++ [.clear])).deleted.count
      ((storageAfter ops).add id t).1 = if InUse ops id then 0 else 1 := by
  split
  · rename_i hu
    rw [List.append_assoc, List.cons_append]
    exact List.count_eq_zero.2 (C43_leak_false ops (more ++ [.clear]) id t hu)
  · rename_i hu
    refine Nat.le_antisymm (C43_at_most_once _ _) ?_
    have h0 : ((storageAfter ops).add id t).1 = adds ops := made_after ops
    rw [h0, after_snoc]
    have := kept_or_deleted ops more id t hu
    exact List.one_le_count_iff.2 (by simpa [Storage.step, Storage.clear, or_comm] using this)

example : InUse [.add b!"a" b!"int"] b!"a" := ⟨[], _, b!"int", rfl, by decide, by decide⟩

/-- The third object of the example history is leaked, the others are deleted once. -/
example : (storageAfter (exOps ++ [.clear])).deleted = [0, 1, 2] ∧ adds exOps = 4 := by decide

example : NoReuse [.add b!"a" b!"int", .clear, .add b!"a" b!"int"] := by
  have h : ∀ l : List StorageOp, l = [.add b!"a" b!"int", .clear, .add b!"a" b!"int"] → NoReuse l := by
    intro l hl a id t b h
    rw [hl] at h
    rcases a with _ | ⟨o1, _ | ⟨o2, _ | ⟨o3, a⟩⟩⟩
    · exact inUse_nil
    · simp at h
    · simp only [List.cons_append, List.nil_append, List.cons.injEq] at h
      obtain ⟨rfl, rfl, -⟩ := h
      exact inUse_clear (ops := [_])
    · simp at h
  exact h _ rfl

end Verif.Env
