import Verif.Life.Spec

/-! # Lemmas about lifetimes -/

namespace Verif.Life

theorem snoc_ind {α : Type} {P : List α → Prop} (h0 : P []) (h1 : ∀ l a, P l → P (l ++ [a])) :
    ∀ l, P l := by
  intro l
  have : ∀ m : List α, P m.reverse := by
    intro m
    induction m with
    | nil => exact h0
    | cons a m ih => rw [List.reverse_cons]; exact h1 _ _ ih
  have h := this l.reverse
  rwa [List.reverse_reverse] at h

/-- The state after a script, whether it is defined or not. -/
def after (l : List Ev) : St := l.foldl St.next {}

theorem after_snoc (l : List Ev) (e : Ev) : after (l ++ [e]) = (after l).next e := by
  simp [after, List.foldl_append]

/-- A list that ends in `e` and splits around an event. -/
theorem snoc_split {α : Type} {p a b : List α} {e c : α} :
    p ++ [e] = a ++ c :: b ↔ (a = p ∧ c = e ∧ b = []) ∨ ∃ b', b = b' ++ [e] ∧ p = a ++ c :: b' := by
  constructor
  · intro h
    by_cases hb : b = []
    · subst hb
      have := List.append_inj' h rfl
      exact .inl ⟨this.1.symm, by simpa using this.2.symm, rfl⟩
    · obtain ⟨b', x, rfl⟩ : ∃ b' x, b = b' ++ [x] := ⟨b.dropLast, b.getLast hb, (List.dropLast_concat_getLast hb).symm⟩
      have h' : p ++ [e] = (a ++ c :: b') ++ [x] := by simpa using h
      have := List.append_inj' h' rfl
      have hx : e = x := by simpa using this.2
      exact .inr ⟨b', by rw [hx], this.1⟩
  · rintro (⟨rfl, rfl, rfl⟩ | ⟨b', rfl, rfl⟩) <;> simp

theorem createdBy_snoc {p : List Ev} {e : Ev} {x : Nat} {o : Obj} {st : Bool} {b : List Ev} :
    CreatedBy (p ++ [e]) x o st b ↔
      (e = .create o st ∧ x = created p ∧ b = []) ∨ ∃ b', b = b' ++ [e] ∧ CreatedBy p x o st b' := by
  constructor
  · rintro ⟨a, h, rfl⟩
    rcases snoc_split.1 h with ⟨rfl, h2, h3⟩ | ⟨b', h2, h3⟩
    · exact .inl ⟨h2.symm, rfl, h3⟩
    · exact .inr ⟨b', h2, a, h3, rfl⟩
  · rintro (⟨rfl, rfl, rfl⟩ | ⟨b', rfl, a, rfl, rfl⟩)
    · exact ⟨p, rfl, rfl⟩
    · exact ⟨a, by simp, rfl⟩

theorem created_snoc (p : List Ev) (e : Ev) :
    created (p ++ [e]) = created p + if e.creates then 1 else 0 := by
  simp [created, List.countP_append, List.countP_cons]

theorem open_nil : Open [] := by
  intro b1 b2 h
  have := (List.append_eq_nil_iff.1 h.symm).1
  subst this; simp

theorem open_snoc {b : List Ev} {e : Ev} :
    Open (b ++ [e]) ↔ Open b ∧ (b ++ [e]).count .leave ≤ (b ++ [e]).count .enter := by
  constructor
  · intro h
    exact ⟨fun b1 b2 e' => h b1 (b2 ++ [e]) (by rw [e']; simp), h _ [] (by simp)⟩
  · rintro ⟨h1, h2⟩ b1 b2 hb
    by_cases hn : b2 = []
    · subst hn; rw [List.append_nil] at hb; rw [← hb]; exact h2
    · obtain ⟨b', x, rfl⟩ : ∃ b' x, b2 = b' ++ [x] := ⟨b2.dropLast, b2.getLast hn, (List.dropLast_concat_getLast hn).symm⟩
      have h' : b ++ [e] = (b1 ++ b') ++ [x] := by simpa using hb
      exact h1 b1 b' (List.append_inj' h' rfl).1

/-- Local objects of the `k`-th function, counted from the innermost. -/
def InScope (p : List Ev) (k x : Nat) : Prop :=
  ∃ o b, CreatedBy p x o false b ∧ Open b ∧ b.count .enter = b.count .leave + k

theorem count_after (p : List Ev) : (after p).count = created p := by
  induction p using snoc_ind with
  | h0 => rfl
  | h1 p e ih =>
    rw [after_snoc, created_snoc, ← ih]
    cases e <;> simp only [St.next, Ev.creates, Bool.false_eq_true, if_false, if_true, Nat.add_zero]
    split
    · rfl
    · split <;> rfl

theorem inScope_snoc {p : List Ev} {e : Ev} {k x : Nat} :
    InScope (p ++ [e]) k x ↔ (∃ o, e = .create o false ∧ x = created p ∧ k = 0) ∨
      ∃ o b, CreatedBy p x o false b ∧ Open b ∧ (b ++ [e]).count .leave ≤ (b ++ [e]).count .enter ∧
        (b ++ [e]).count .enter = (b ++ [e]).count .leave + k := by
  constructor
  · rintro ⟨o, b, h, h2, h3⟩
    rcases createdBy_snoc.1 h with ⟨rfl, rfl, rfl⟩ | ⟨b', rfl, h'⟩
    · refine .inl ⟨o, rfl, rfl, ?_⟩
      simpa using h3.symm
    · rw [open_snoc] at h2
      exact .inr ⟨o, b', h', h2.1, h2.2, h3⟩
  · rintro (⟨o, rfl, rfl, rfl⟩ | ⟨o, b, h, h1, h2, h3⟩)
    · exact ⟨o, [], createdBy_snoc.2 (.inl ⟨rfl, rfl, rfl⟩), open_nil, rfl⟩
    · exact ⟨o, b ++ [e], createdBy_snoc.2 (.inr ⟨b, rfl, h⟩), open_snoc.2 ⟨h1, h2⟩, h3⟩

/-- An event that neither begins nor ends a function nor creates a local object. -/
theorem inScope_quiet {p : List Ev} {e : Ev} {k x : Nat} (h1 : e ≠ .enter) (h2 : e ≠ .leave)
    (h3 : ∀ o, e ≠ .create o false) : InScope (p ++ [e]) k x ↔ InScope p k x := by
  have c1 : ∀ b : List Ev, (b ++ [e]).count .enter = b.count .enter := by
    intro b; simp [List.count_append, List.count_singleton, h1]
  have c2 : ∀ b : List Ev, (b ++ [e]).count .leave = b.count .leave := by
    intro b; simp [List.count_append, List.count_singleton, h2]
  rw [inScope_snoc]
  constructor
  · rintro (⟨o, h, -⟩ | ⟨o, b, h, h4, -, h5⟩)
    · exact absurd h (h3 o)
    · rw [c1, c2] at h5
      exact ⟨o, b, h, h4, h5⟩
  · rintro ⟨o, b, h, h4, h5⟩
    refine .inr ⟨o, b, h, h4, ?_, ?_⟩
    · rw [c1, c2]; omega
    · rw [c1, c2]; exact h5

theorem scopes_after (p : List Ev) (k x : Nat) :
    x ∈ (after p).scopes.getD k [] ↔ InScope p k x := by
  induction p using snoc_ind generalizing k with
  | h0 =>
    simp only [after, List.foldl_nil, List.getD_nil, List.not_mem_nil, false_iff]
    rintro ⟨o, b, ⟨a, h, -⟩, -⟩
    simp at h
  | h1 p e ih =>
    rw [after_snoc]
    have quiet : (after p).next e = { (after p).next e with scopes := (after p).scopes } →
        e ≠ .enter → e ≠ .leave → (∀ o, e ≠ .create o false) →
        (x ∈ ((after p).next e).scopes.getD k [] ↔ InScope (p ++ [e]) k x) := by
      intro h h1 h2 h3
      rw [h, inScope_quiet h1 h2 h3]
      exact ih k
    cases e with
    | enter =>
      rw [inScope_snoc]
      cases k with
      | zero =>
        simp only [St.next, List.getD_cons_zero, List.not_mem_nil, false_iff]
        rintro (⟨o, h, -⟩ | ⟨o, b, -, h4, -, h5⟩)
        · cases h
        · have := h4 b [] (by simp)
          simp [List.count_append] at h5
          omega
      | succ k =>
        simp only [St.next, List.getD_cons_succ]
        rw [ih]
        constructor
        · rintro ⟨o, b, h, h4, h5⟩
          refine .inr ⟨o, b, h, h4, ?_, ?_⟩ <;> simp [List.count_append] <;> omega
        · rintro (⟨o, h, -⟩ | ⟨o, b, h, h4, -, h5⟩)
          · cases h
          · refine ⟨o, b, h, h4, ?_⟩
            simp [List.count_append] at h5
            omega
    | leave =>
      rw [inScope_snoc]
      have : (((after p).next .leave).scopes).getD k [] = (after p).scopes.getD (k + 1) [] := by
        simp only [St.next]
        cases (after p).scopes <;> simp
      rw [this, ih]
      constructor
      · rintro ⟨o, b, h, h4, h5⟩
        refine .inr ⟨o, b, h, h4, ?_, ?_⟩ <;> simp [List.count_append] <;> omega
      · rintro (⟨o, h, -⟩ | ⟨o, b, h, h4, -, h5⟩)
        · cases h
        · refine ⟨o, b, h, h4, ?_⟩
          simp [List.count_append] at h5
          omega
    | create o st =>
      cases st with
      | true => exact quiet (by simp [St.next]) (by simp) (by simp) (by simp)
      | false =>
        have e1 : ∀ k, InScope (p ++ [.create o false]) k x ↔ (x = created p ∧ k = 0) ∨ InScope p k x := by
          intro k
          rw [inScope_snoc]
          constructor
          · rintro (⟨-, -, h, h'⟩ | ⟨o', b, h, h4, -, h5⟩)
            · exact .inl ⟨h, h'⟩
            · refine .inr ⟨o', b, h, h4, ?_⟩
              simpa [List.count_append] using h5
          · rintro (⟨h, h'⟩ | ⟨o', b, h, h4, h5⟩)
            · exact .inl ⟨o, rfl, h, h'⟩
            · refine .inr ⟨o', b, h, h4, ?_, ?_⟩ <;> simp [List.count_append] <;> omega
        rw [e1, ← ih, ← count_after]
        simp only [St.next, Bool.false_eq_true, if_false]
        cases hs : (after p).scopes with
        | nil =>
          cases k <;> simp
        | cons l r => cases k <;> simp
    | call o d a => exact quiet rfl (by simp) (by simp) (by simp)
    | keep o d => exact quiet rfl (by simp) (by simp) (by simp)
    | prepare o d => exact quiet rfl (by simp) (by simp) (by simp)
    | build o => exact quiet rfl (by simp) (by simp) (by simp)
    | test t o => exact quiet rfl (by simp) (by simp) (by simp)
    | clear => exact quiet rfl (by simp) (by simp) (by simp)
    | run l => exact quiet rfl (by simp) (by simp) (by simp)

theorem stored_after (p : List Ev) (x : Nat) :
    x ∈ (after p).stored ↔ ∃ o b, CreatedBy p x o true b ∧ .clear ∉ b := by
  induction p using snoc_ind with
  | h0 =>
    simp only [after, List.foldl_nil, List.not_mem_nil, false_iff]
    rintro ⟨o, b, ⟨a, h, -⟩, -⟩
    simp at h
  | h1 p e ih =>
    rw [after_snoc]
    have e1 : (∃ o b, CreatedBy (p ++ [e]) x o true b ∧ .clear ∉ b) ↔
        (∃ o, e = .create o true ∧ x = created p) ∨ (e ≠ .clear ∧ x ∈ (after p).stored) := by
      rw [ih]
      constructor
      · rintro ⟨o, b, h, hb⟩
        rcases createdBy_snoc.1 h with ⟨rfl, rfl, rfl⟩ | ⟨b', rfl, h'⟩
        · exact .inl ⟨o, rfl, rfl⟩
        · simp only [List.mem_append, List.mem_singleton, not_or] at hb
          exact .inr ⟨Ne.symm hb.2, o, b', h', hb.1⟩
      · rintro (⟨o, rfl, rfl⟩ | ⟨h1, o, b, h, hb⟩)
        · exact ⟨o, [], createdBy_snoc.2 (.inl ⟨rfl, rfl, rfl⟩), by simp⟩
        · exact ⟨o, b ++ [e], createdBy_snoc.2 (.inr ⟨b, rfl, h⟩), by simp [hb, Ne.symm h1]⟩
    rw [e1]
    cases e with
    | create o st =>
      cases st with
      | true => simp [St.next, count_after]
      | false =>
        simp only [St.next, Bool.false_eq_true, if_false]
        cases (after p).scopes <;> simp
    | _ => simp [St.next]

theorem live_after (p : List Ev) (x : Nat) : (after p).live x = true ↔ Alive p x := by
  have hs : ((after p).scopes.any (·.contains x)) = true ↔ ∃ k, InScope p k x := by
    simp only [List.any_eq_true, List.contains_iff_mem]
    constructor
    · rintro ⟨l, hl, hx⟩
      obtain ⟨k, hk, rfl⟩ := List.getElem_of_mem hl
      refine ⟨k, (scopes_after p k x).1 ?_⟩
      simpa [List.getD, List.getElem?_eq_getElem hk] using hx
    · rintro ⟨k, hk⟩
      have := (scopes_after p k x).2 hk
      by_cases hl : k < (after p).scopes.length
      · simp only [List.getD, List.getElem?_eq_getElem hl, Option.getD_some] at this
        exact ⟨_, List.getElem_mem hl, this⟩
      · simp [List.getD, List.getElem?_eq_none (Nat.le_of_not_lt hl)] at this
  rw [St.live, Bool.or_eq_true, hs, List.contains_iff_mem, stored_after]
  constructor
  · rintro (⟨o, b, h⟩ | ⟨k, o, b, h, h1, -⟩)
    · exact ⟨o, b, .inr h⟩
    · exact ⟨o, b, .inl ⟨h, h1⟩⟩
  · rintro ⟨o, b, ⟨h, h1⟩ | h⟩
    · have := h1 b [] (by simp)
      exact .inr ⟨b.count .enter - b.count .leave, o, b, h, h1, by omega⟩
    · exact .inl ⟨o, b, h⟩

theorem keeps_iff {o : Obj} {x : Nat} : x ∈ o.keeps ↔ Holds o x := by
  cases o <;> simp only [Obj.keeps, List.mem_singleton, List.not_mem_nil] <;> constructor <;> intro h <;>
    first
      | (subst h; constructor)
      | exact .plugin h
      | (cases h; done)
      | (cases h; first | rfl | assumption)

theorem reads_iff {o : Obj} {x : Nat} : x ∈ o.reads ↔ ReadsFirst o x := by
  cases o <;> simp only [Obj.reads, List.mem_singleton, List.not_mem_nil] <;> constructor <;> intro h <;>
    first
      | (subst h; constructor)
      | (cases h; done)
      | (cases h; rfl)

theorem kept_after (p : List Ev) (o x : Nat) : (o, x) ∈ (after p).kept ↔ Refers p o x := by
  induction p using snoc_ind with
  | h0 =>
    simp only [after, List.foldl_nil, List.not_mem_nil, false_iff]
    rintro (h | ⟨ob, st, b, ⟨a, h, -⟩, -⟩) <;> simp at h
  | h1 p e ih =>
    rw [after_snoc]
    have e1 : Refers (p ++ [e]) o x ↔ (o, x) ∈ (after p).kept ∨ e = .keep o x ∨
        ∃ ob st, e = .create ob st ∧ o = created p ∧ Holds ob x := by
      rw [ih]
      simp only [Refers, List.mem_append, List.mem_singleton]
      constructor
      · rintro ((h | h) | ⟨ob, st, b, h, hx⟩)
        · exact .inl (.inl h)
        · exact .inr (.inl h.symm)
        · rcases createdBy_snoc.1 h with ⟨rfl, rfl, rfl⟩ | ⟨b', rfl, h'⟩
          · exact .inr (.inr ⟨ob, st, rfl, rfl, hx⟩)
          · exact .inl (.inr ⟨ob, st, b', h', hx⟩)
      · rintro ((h | ⟨ob, st, b, h, hx⟩) | h | ⟨ob, st, rfl, rfl, hx⟩)
        · exact .inl (.inl h)
        · exact .inr ⟨ob, st, b ++ [e], createdBy_snoc.2 (.inr ⟨b, rfl, h⟩), hx⟩
        · exact .inl (.inr h.symm)
        · exact .inr ⟨ob, st, [], createdBy_snoc.2 (.inl ⟨rfl, rfl, rfl⟩), hx⟩
    rw [e1]
    cases e with
    | create ob st =>
      have : (((after p).next (.create ob st)).kept) =
          (after p).kept ++ ob.keeps.map fun k => ((after p).count, k) := by
        simp only [St.next]
        split
        · rfl
        · split <;> rfl
      rw [this, count_after]
      simp only [List.mem_append, List.mem_map, Prod.mk.injEq]
      constructor
      · rintro (h | ⟨k, hk, h1, h2⟩)
        · exact .inl h
        · exact .inr (.inr ⟨ob, st, rfl, h1.symm, keeps_iff.1 (h2 ▸ hk)⟩)
      · rintro (h | h | ⟨ob', st', h, rfl, hx⟩)
        · exact .inl h
        · cases h
        · cases h
          exact .inr ⟨x, keeps_iff.2 hx, rfl, rfl⟩
    | keep o' d => simp [St.next, eq_comm, and_comm]
    | _ => simp [St.next]

theorem refs_after (p : List Ev) (o x : Nat) : x ∈ (after p).refs o ↔ Refers p o x := by
  rw [← kept_after]
  simp only [St.refs, List.mem_map, List.mem_filter, decide_eq_true_eq]
  constructor
  · rintro ⟨⟨a, b⟩, ⟨h, rfl⟩, rfl⟩
    exact h
  · exact fun h => ⟨(o, x), ⟨h, rfl⟩, rfl⟩

theorem built_after (p : List Ev) (o : Nat) : o ∈ (after p).built ↔ .build o ∈ p := by
  induction p using snoc_ind with
  | h0 => simp [after]
  | h1 p e ih =>
    rw [after_snoc, List.mem_append, ← ih]
    cases e with
    | create ob st =>
      simp only [St.next]
      split
      · simp
      · split <;> simp
    | _ => simp [St.next]

theorem tests_after (p : List Ev) (t : Nat) (outs : List Nat) :
    (t, outs) ∈ (after p).tests ↔ .test t outs ∈ p := by
  induction p using snoc_ind with
  | h0 => simp [after]
  | h1 p e ih =>
    rw [after_snoc, List.mem_append, ← ih]
    cases e with
    | create ob st =>
      simp only [St.next]
      split
      · simp
      · split <;> simp
    | _ => simp [St.next]

theorem ready_after (p : List Ev) (o : Nat) : o ∈ (after p).ready ↔ ∃ deep, .prepare o deep ∈ p := by
  induction p using snoc_ind with
  | h0 => simp [after]
  | h1 p e ih =>
    rw [after_snoc]
    simp only [List.mem_append, exists_or, ← ih]
    cases e with
    | create ob st =>
      simp only [St.next]
      split
      · simp
      · split <;> simp
    | prepare o' d => simp [St.next]
    | _ => simp [St.next]

theorem uses_after (p : List Ev) (e : Ev) (x : Nat) : x ∈ (after p).uses e ↔ Uses p e x := by
  cases e with
  | create o st => exact reads_iff
  | call o deep args =>
    simp only [St.uses, Uses]
    cases deep <;> simp [refs_after, or_assoc]
  | prepare o deep =>
    simp only [St.uses, Uses]
    cases deep <;> simp [refs_after]
  | run plugins =>
    have hr : ∀ o, x ∈ (if (after p).ready.contains o then (after p).refs o else []) ↔
        (∃ deep, .prepare o deep ∈ p) ∧ Refers p o x := by
      intro o
      rw [← refs_after, ← ready_after, ← List.contains_iff_mem (as := (after p).ready)]
      split <;> simp_all
    simp only [St.uses, Uses, List.mem_append, List.mem_flatMap, List.mem_cons, hr, refs_after, built_after,
      or_assoc]
    constructor
    · rintro (h | h | ⟨⟨t, outs⟩, h, hx⟩)
      · exact .inl h
      · exact .inr (.inl h)
      · exact .inr (.inr ⟨t, outs, (tests_after _ _ _).1 h, hx⟩)
    · rintro (h | h | ⟨t, outs, h, hx⟩)
      · exact .inl h
      · exact .inr (.inl h)
      · exact .inr (.inr ⟨(t, outs), (tests_after _ _ _).2 h, hx⟩)
  | _ => simp [St.uses, Uses]

end Verif.Life
