import Verif.Env.Util

/-! # Specification and proofs for `split` (C51) and `trim` (C52) -/

namespace Verif.Env
open Verif

/-! ## Splitting -/

/-- The items with the delimiter between them. -/
def joinWith (delim : UInt8) : List Str → Str
  | [] => []
  | [x] => x
  | x :: y :: l => x ++ delim :: joinWith delim (y :: l)

theorem takeWhile_item {delim : UInt8} {x : Str} (h : delim ∉ x) (r : Str) :
    (x ++ delim :: r).takeWhile (· ≠ delim) = x ∧
    ((x ++ delim :: r).dropWhile (· ≠ delim)).drop 1 = r := by
  induction x with
  | nil => simp
  | cons c x ih =>
    simp only [List.mem_cons, not_or] at h
    have hc : (c ≠ delim) := fun e => h.1 e.symm
    simpa [hc] using ih h.2

theorem takeWhile_last {delim : UInt8} {x : Str} (h : delim ∉ x) :
    x.takeWhile (· ≠ delim) = x ∧ (x.dropWhile (· ≠ delim)).drop 1 = [] := by
  induction x with
  | nil => simp
  | cons c x ih =>
    simp only [List.mem_cons, not_or] at h
    have hc : (c ≠ delim) := fun e => h.1 e.symm
    simpa [hc] using ih h.2

theorem splitLoop_more {delim : UInt8} (n m : Nat) (s : Str) (hn : s.length ≤ n)
    (hm : s.length ≤ m) : splitLoop delim n s = splitLoop delim m s := by
  induction n generalizing m s with
  | zero =>
    have : s = [] := by simpa using hn
    subst this
    cases m <;> simp [splitLoop, getline]
  | succ n ih =>
    cases m with
    | zero =>
      have : s = [] := by simpa using hm
      subst this
      simp [splitLoop, getline]
    | succ m =>
      simp only [splitLoop, getline]
      by_cases hs : s = []
      · simp [hs]
      · simp only [hs, if_false]
        congr 1
        have hl : ((s.dropWhile (· ≠ delim)).drop 1).length ≤ s.length - 1 := by
          rw [List.length_drop]
          have := (List.dropWhile_sublist (fun x => decide (x ≠ delim)) (l := s)).length_le
          omega
        exact ih m _ (by omega) (by omega)

theorem split_eq (delim : UInt8) (s : Str) (hs : s ≠ []) :
    split s delim = s.takeWhile (· ≠ delim) ::
      split ((s.dropWhile (· ≠ delim)).drop 1) delim := by
  obtain ⟨c, s', rfl⟩ := List.exists_cons_of_ne_nil hs
  show splitLoop delim (s'.length + 1) (c :: s') = _
  simp only [splitLoop, getline, hs, if_false]
  congr 1
  refine splitLoop_more _ _ _ ?_ (Nat.le_refl _)
  rw [List.length_drop]
  have := (List.dropWhile_sublist (fun x => decide (x ≠ delim)) (l := c :: s')).length_le
  simp only [List.length_cons] at this
  omega

/-- C51: splitting the items that were joined gives back the items.  The items do not
contain the delimiter, and the last one is not empty; the others may be. -/
theorem C51_split (delim : UInt8) (items : List Str) (h : ∀ i ∈ items, delim ∉ i)
    (hl : items.getLast? ≠ some []) : split (joinWith delim items) delim = items := by
  induction items with
  | nil => rfl
  | cons x xs ih =>
    have hx : delim ∉ x := h x (by simp)
    cases xs with
    | nil =>
      have hne : x ≠ [] := fun e => hl (by simp [e])
      show split x delim = [x]
      rw [split_eq delim x hne, (takeWhile_last hx).1, (takeWhile_last hx).2]
      rfl
    | cons y ys =>
      show split (x ++ delim :: joinWith delim (y :: ys)) delim = _
      rw [split_eq delim _ (by simp), (takeWhile_item hx _).1, (takeWhile_item hx _).2,
        ih (fun i hi => h i (by simp [hi])) (by simpa [List.getLast?_cons_cons] using hl)]

/-- C51: a delimiter at the end is ignored: with an empty last item, that item is lost. -/
theorem C51_split_trailing (delim : UInt8) (items : List Str) (h : ∀ i ∈ items, delim ∉ i) :
    split (joinWith delim (items ++ [[]])) delim = items := by
  induction items with
  | nil => rfl
  | cons x xs ih =>
    have hx : delim ∉ x := h x (by simp)
    have hj : joinWith delim (x :: xs ++ [[]]) = x ++ delim :: joinWith delim (xs ++ [[]]) := by
      cases xs <;> rfl
    rw [hj, split_eq delim _ (by simp), (takeWhile_item hx _).1, (takeWhile_item hx _).2,
      ih (fun i hi => h i (by simp [hi]))]

/-- C51: every string is a join of items without the delimiter, so the two theorems above
describe `split` on every string. -/
theorem C51_split_every (delim : UInt8) (s : Str) :
    ∃ items : List Str, (∀ i ∈ items, delim ∉ i) ∧ joinWith delim items = s ∧
      (split s delim = items ∧ items.getLast? ≠ some [] ∨
       ∃ init, items = init ++ [[]] ∧ split s delim = init) := by
  have hex : ∀ s : Str, ∃ items : List Str, items ≠ [] ∧ (∀ i ∈ items, delim ∉ i) ∧
      joinWith delim items = s := by
    intro s
    induction s with
    | nil => exact ⟨[[]], by simp, by simp, rfl⟩
    | cons c s ih =>
      obtain ⟨items, h0, h1, h2⟩ := ih
      obtain ⟨x, xs, rfl⟩ := List.exists_cons_of_ne_nil h0
      by_cases hc : c = delim
      · refine ⟨[] :: x :: xs, by simp, ?_, ?_⟩
        · intro i hi
          rcases List.mem_cons.1 hi with rfl | hi
          · simp
          · exact h1 i hi
        · show [] ++ delim :: joinWith delim (x :: xs) = _
          rw [h2, hc]; rfl
      · refine ⟨(c :: x) :: xs, by simp, ?_, ?_⟩
        · intro i hi
          rcases List.mem_cons.1 hi with rfl | hi
          · simp only [List.mem_cons, not_or]
            exact ⟨fun e => hc e.symm, h1 x (by simp)⟩
          · exact h1 i (by simp [hi])
        · cases xs with
          | nil => show c :: x = c :: s; rw [← h2]; rfl
          | cons y ys => show c :: x ++ delim :: _ = _; rw [← h2]; rfl
  obtain ⟨items, h0, h1, h2⟩ := hex s
  refine ⟨items, h1, h2, ?_⟩
  by_cases hl : items.getLast? = some []
  · right
    obtain ⟨init, hi⟩ := List.getLast?_eq_some_iff.1 hl
    refine ⟨init, hi, ?_⟩
    rw [← h2, hi]
    exact C51_split_trailing delim init fun i hm => h1 i (by simp [hi, hm])
  · left
    rw [← h2]
    exact ⟨C51_split delim items h1 hl, hl⟩

example : split b!"/usr/bin::/opt/a b" c!":" = [b!"/usr/bin", b!"", b!"/opt/a b"] := by decide
example : split b!"/usr/bin:" c!":" = [b!"/usr/bin"] := by decide
example : split (joinWith c!":" [b!"/usr/bin", b!"", b!"/opt"]) c!":" =
    [b!"/usr/bin", b!"", b!"/opt"] := C51_split _ _ (by decide) (by decide)

/-! ## Trimming -/

/-- The white space of the "C" locale: space, `\t`, `\n`, `\v`, `\f`, `\r`. -/
def White (c : UInt8) : Prop := c ∈ [(32 : UInt8), 9, 10, 11, 12, 13]

/-- The bytes for which `std::isspace` is undefined when `char` is signed. -/
def Bad (c : UInt8) : Prop := 128 ≤ c ∧ c ≠ 255

instance (c : UInt8) : Decidable (White c) := inferInstanceAs (Decidable (c ∈ _))
instance (c : UInt8) : Decidable (Bad c) := inferInstanceAs (Decidable (_ ∧ _))

theorem isspace_true {c : UInt8} : isspace c = some true ↔ White c := by
  simp only [isspace, White, List.mem_cons, List.not_mem_nil, or_false]
  by_cases h : c < 128
  · rw [if_pos h]
    simp only [Option.some.injEq, Bool.or_eq_true, decide_eq_true_eq, Bool.and_eq_true,
      UInt8.le_iff_toNat_le, ← UInt8.toNat_inj, UInt8.reduceToNat]
    omega
  · rw [if_neg h]
    simp only [UInt8.lt_iff_toNat_lt, ← UInt8.toNat_inj, UInt8.reduceToNat] at h ⊢
    constructor
    · intro h'
      split at h' <;> simp at h'
    · omega

theorem isspace_none {c : UInt8} : isspace c = none ↔ Bad c := by
  simp only [isspace, Bad]
  grind

theorem isspace_false {c : UInt8} : isspace c = some false ↔ ¬ White c ∧ ¬ Bad c := by
  rw [← isspace_true, ← isspace_none]
  cases isspace c with
  | none => simp
  | some b => cases b <;> simp

theorem ltrim_some {s r : Str} (h : ltrim s = some r) :
    ∃ a, s = a ++ r ∧ (∀ c ∈ a, White c) ∧ ∀ c, r.head? = some c → ¬ White c ∧ ¬ Bad c := by
  induction s with
  | nil =>
    simp only [ltrim, Option.some.injEq] at h
    subst h
    exact ⟨[], rfl, by simp, by simp⟩
  | cons c s ih =>
    rw [ltrim] at h
    split at h
    · simp at h
    · rename_i hc
      obtain ⟨a, rfl, h1, h2⟩ := ih h
      refine ⟨c :: a, rfl, ?_, h2⟩
      intro x hx
      rcases List.mem_cons.1 hx with rfl | hx
      · exact isspace_true.1 hc
      · exact h1 x hx
    · rename_i hc
      simp only [Option.some.injEq] at h
      subst h
      refine ⟨[], rfl, by simp, ?_⟩
      simp only [List.head?_cons, Option.some.injEq]
      rintro x rfl
      exact isspace_false.1 hc

theorem ltrim_white {a r : Str} (h : ∀ c ∈ a, White c) : ltrim (a ++ r) = ltrim r := by
  induction a with
  | nil => rfl
  | cons c a ih =>
    rw [List.cons_append, ltrim, isspace_true.2 (h c (by simp))]
    exact ih fun x hx => h x (by simp [hx])

theorem ltrim_id {r : Str} (h : ∀ c, r.head? = some c → ¬ White c ∧ ¬ Bad c) :
    ltrim r = some r := by
  cases r with
  | nil => rfl
  | cons c r => rw [ltrim, isspace_false.2 (h c rfl)]

theorem ltrim_none {s : Str} (h : ltrim s = none) :
    ∃ a c b, s = a ++ c :: b ∧ (∀ x ∈ a, White x) ∧ Bad c := by
  induction s with
  | nil => simp [ltrim] at h
  | cons c s ih =>
    rw [ltrim] at h
    split at h
    · rename_i hc
      exact ⟨[], c, s, rfl, by simp, isspace_none.1 hc⟩
    · rename_i hc
      obtain ⟨a, x, b, rfl, h1, h2⟩ := ih h
      refine ⟨c :: a, x, b, rfl, ?_, h2⟩
      intro y hy
      rcases List.mem_cons.1 hy with rfl | hy
      · exact isspace_true.1 hc
      · exact h1 y hy
    · simp at h

/-- `r` is `s` without the white space around it. -/
def Trimmed (s r : Str) : Prop :=
  ∃ a b, s = a ++ r ++ b ∧ (∀ c ∈ a, White c) ∧ (∀ c ∈ b, White c) ∧
    (∀ c, r.head? = some c → ¬ White c) ∧ (∀ c, r.getLast? = some c → ¬ White c)

theorem not_white_bad {c : UInt8} (h : Bad c) : ¬ White c := by
  simp only [White, Bad, List.mem_cons, List.not_mem_nil, or_false] at *
  grind

theorem trim_some_iff {s r : Str} : trim s = some r ↔
    Trimmed s r ∧ (∀ c, r.head? = some c → ¬ Bad c) ∧ (∀ c, r.getLast? = some c → ¬ Bad c) := by
  constructor
  · intro h
    simp only [trim] at h
    split at h
    · simp at h
    · rename_i l hl
      simp only [rtrim, Option.map_eq_some_iff] at h
      obtain ⟨q, hq, rfl⟩ := h
      obtain ⟨a, rfl, ha, hh⟩ := ltrim_some hl
      obtain ⟨b, hb, hbw, hbh⟩ := ltrim_some hq
      have hl2 : l = q.reverse ++ b.reverse := by
        rw [← List.reverse_append, ← hb, List.reverse_reverse]
      have hhead : ∀ c, q.reverse.head? = some c → ¬ White c ∧ ¬ Bad c := by
        intro c hc
        refine hh c ?_
        rw [hl2]
        cases hq2 : q.reverse with
        | nil => rw [hq2] at hc; simp at hc
        | cons y ys => rw [hq2] at hc; simpa using hc
      have hlast : ∀ c, q.reverse.getLast? = some c → ¬ White c ∧ ¬ Bad c := by
        intro c hc
        rw [List.getLast?_reverse] at hc
        exact hbh c hc
      refine ⟨⟨a, b.reverse, by rw [hl2, List.append_assoc], ha, ?_, fun c hc => (hhead c hc).1,
        fun c hc => (hlast c hc).1⟩, fun c hc => (hhead c hc).2, fun c hc => (hlast c hc).2⟩
      intro c hc
      exact hbw c (by simpa using hc)
  · rintro ⟨⟨a, b, rfl, ha, hb, h1, h2⟩, h3, h4⟩
    cases hr : r with
    | nil =>
      have : ltrim (a ++ [] ++ b) = some [] := by
        rw [List.append_assoc, ltrim_white ha, List.nil_append]
        have := ltrim_white (r := []) hb
        rw [List.append_nil] at this
        rw [this]; rfl
      simp only [trim, this]
      rfl
    | cons y ys =>
      rw [hr] at h1 h2 h3 h4
      have hl : ltrim (a ++ (y :: ys) ++ b) = some (y :: ys ++ b) := by
        rw [List.append_assoc, ltrim_white ha]
        refine ltrim_id ?_
        intro c hc
        rw [List.cons_append, List.head?_cons] at hc
        exact ⟨h1 c hc, h3 c hc⟩
      have hr2 : ltrim ((y :: ys ++ b).reverse) = some (y :: ys).reverse := by
        rw [List.reverse_append, ltrim_white (by simpa using hb)]
        refine ltrim_id ?_
        intro c hc
        rw [List.head?_reverse] at hc
        exact ⟨h2 c hc, h4 c hc⟩
      simp only [trim, hl, rtrim, hr2, Option.map_some, List.reverse_reverse]

/-- C52: where the behaviour of `trim` is defined, it returns a contiguous part of the string
with only white space around it and without white space at its ends.

Missing: strings in which the first or the last character that is not white space is not
ASCII; see `C52_undefined`. -/
theorem C52_trim_partial {s r : Str} (h : trim s = some r) : Trimmed s r :=
  (trim_some_iff.1 h).1

/-- C52: it is defined on strings of ASCII characters. -/
theorem C52_trim_defined {s : Str} (h : ∀ c ∈ s, c < 128) : ∃ r, trim s = some r := by
  have hb : ∀ c ∈ s, ¬ Bad c := fun c hc hbad => by
    have := h c hc; simp only [Bad] at hbad; grind
  cases hl : ltrim s with
  | none =>
    obtain ⟨a, c, b, rfl, -, hbad⟩ := ltrim_none hl
    exact absurd hbad (hb c (by simp))
  | some l =>
    obtain ⟨a, rfl, -, -⟩ := ltrim_some hl
    simp only [trim, hl, rtrim]
    cases hr : ltrim l.reverse with
    | none =>
      obtain ⟨a', c, b, he, -, hbad⟩ := ltrim_none hr
      refine absurd hbad (hb c (List.mem_append_right _ ?_))
      rw [← List.mem_reverse, he]; simp
    | some q => exact ⟨q.reverse, rfl⟩

theorem head_append {r b : Str} (h : r ≠ []) : (r ++ b).head? = r.head? := by
  cases r with
  | nil => exact absurd rfl h
  | cons c r => rfl

theorem trimmed_unique {s r r' : Str} (h : Trimmed s r) (h' : Trimmed s r') : r = r' := by
  -- the ends of `r'` are ends of `r`
  obtain ⟨a, b, hs, ha, hb, h1, h2⟩ := h
  obtain ⟨a', b', hs', ha', hb', h1', h2'⟩ := h'
  have cut : ∀ (a x a' x' : Str), (∀ c ∈ a, White c) → (∀ c ∈ a', White c) →
      (∀ c, x.head? = some c → ¬ White c) → (∀ c, x'.head? = some c → ¬ White c) →
      a ++ x = a' ++ x' → x = x' := by
    intro a x
    induction a with
    | nil =>
      intro a' x' _ ha' hx _ he
      cases a' with
      | nil => exact he
      | cons c a' =>
        rw [List.nil_append] at he
        exact absurd (ha' c (by simp)) (hx c (by rw [he]; rfl))
    | cons c a ih =>
      intro a' x' ha ha' hx hx' he
      cases a' with
      | nil =>
        rw [List.nil_append] at he
        exact absurd (ha c (by simp)) (hx' c (by rw [← he]; rfl))
      | cons c' a' =>
        rw [List.cons_append, List.cons_append, List.cons.injEq] at he
        exact ih a' x' (fun y hy => ha y (by simp [hy])) (fun y hy => ha' y (by simp [hy]))
          hx hx' he.2
  by_cases hr : r = []
  · by_cases hr' : r' = []
    · rw [hr, hr']
    · exfalso
      obtain ⟨c, q, hq⟩ := List.exists_cons_of_ne_nil hr'
      refine h1' c (by rw [hq]; rfl) ?_
      have hm : c ∈ s := by rw [hs', hq]; simp
      rw [hs, hr] at hm
      rcases List.mem_append.1 hm with hm | hm
      · exact ha c (by simpa using hm)
      · exact hb c hm
  · by_cases hr' : r' = []
    · exfalso
      obtain ⟨c, q, hq⟩ := List.exists_cons_of_ne_nil hr
      refine h1 c (by rw [hq]; rfl) ?_
      have hm : c ∈ s := by rw [hs, hq]; simp
      rw [hs', hr'] at hm
      rcases List.mem_append.1 hm with hm | hm
      · exact ha' c (by simpa using hm)
      · exact hb' c hm
    · have e1 : r ++ b = r' ++ b' := by
        refine cut a _ a' _ ha ha' ?_ ?_ (by rw [← List.append_assoc, ← hs, hs', List.append_assoc])
        · intro c hc; exact h1 c (by rwa [head_append hr] at hc)
        · intro c hc; exact h1' c (by rwa [head_append hr'] at hc)
      have e2 : b.reverse ++ r.reverse = b'.reverse ++ r'.reverse := by
        rw [← List.reverse_append, e1, List.reverse_append]
      have := cut b.reverse r.reverse b'.reverse r'.reverse (by simpa using hb) (by simpa using hb')
        (fun c hc => h2 c (by rwa [List.head?_reverse] at hc))
        (fun c hc => h2' c (by rwa [List.head?_reverse] at hc)) e2
      simpa using congrArg List.reverse this

/-- C52: the part without white space around it is unique, so `trim` can return nothing
else. -/
theorem C52_trim_unique {s r r' : Str} (h : trim s = some r) (h' : Trimmed s r') : r = r' :=
  trimmed_unique (trim_some_iff.1 h).1 h'

theorem trimmed_exists (s : Str) : ∃ r, Trimmed s r := by
  have first : ∀ t : Str, ∀ c, (t.dropWhile fun c => decide (White c)).head? = some c → ¬ White c := by
    intro t c hc
    have := List.head?_dropWhile_not (fun c => decide (White c)) t
    rw [hc] at this
    simpa using this
  have white : ∀ t : Str, ∀ c ∈ t.takeWhile fun c => decide (White c), White c := by
    intro t c hc
    induction t with
    | nil => cases hc
    | cons x t ih =>
      rw [List.takeWhile_cons] at hc
      split at hc
      · rename_i hx
        rcases List.mem_cons.1 hc with rfl | hc
        · simpa using hx
        · exact ih hc
      · cases hc
  let t := s.dropWhile fun c => decide (White c)
  have e1 : s = (s.takeWhile fun c => decide (White c)) ++ t := List.takeWhile_append_dropWhile.symm
  have e2 : t = (t.reverse.dropWhile fun c => decide (White c)).reverse ++
      (t.reverse.takeWhile fun c => decide (White c)).reverse := by
    rw [← List.reverse_append, List.takeWhile_append_dropWhile, List.reverse_reverse]
  refine ⟨(t.reverse.dropWhile fun c => decide (White c)).reverse, _,
    (t.reverse.takeWhile fun c => decide (White c)).reverse, ?_, white s, ?_, ?_, ?_⟩
  · rw [List.append_assoc, ← e2]; exact e1
  · intro c hc; exact white _ c (List.mem_reverse.1 hc)
  · intro c hc
    refine first s c ?_
    show t.head? = some c
    rw [e2, List.head?_append, hc]
    rfl
  · intro c hc
    rw [List.getLast?_reverse] at hc
    exact first _ c hc

/-- C52: trimming twice is trimming once. -/
theorem C52_trim_idem {s r : Str} (h : trim s = some r) : trim r = some r := by
  obtain ⟨⟨a, b, hs, ha, hb, h1, h2⟩, h3, h4⟩ := trim_some_iff.1 h
  exact trim_some_iff.2 ⟨⟨[], [], by simp, by simp, by simp, h1, h2⟩, h3, h4⟩

/-- C52, exactly: of every string there is one part without the white space around it, and `trim` returns it
unless it begins or ends with a byte from 128 to 254, when the behaviour is undefined. -/
theorem C52_exact (s : Str) : ∃ r, Trimmed s r ∧ (trim s = some r ∨ trim s = none) ∧
    (trim s = none ↔ (∃ c, r.head? = some c ∧ Bad c) ∨ ∃ c, r.getLast? = some c ∧ Bad c) := by
  obtain ⟨r, hr⟩ := trimmed_exists s
  refine ⟨r, hr, ?_, ?_⟩
  · cases h : trim s with
    | none => exact .inr rfl
    | some r' => exact .inl (by rw [trimmed_unique (trim_some_iff.1 h).1 hr])
  · constructor
    · intro h
      refine Classical.byContradiction fun hn => ?_
      rw [trim_some_iff.2 ⟨hr, fun c hc hb => hn (.inl ⟨c, hc, hb⟩), fun c hc hb => hn (.inr ⟨c, hc, hb⟩)⟩] at h
      cases h
    · intro h
      cases ht : trim s with
      | none => rfl
      | some r' =>
        obtain ⟨h1, h2, h3⟩ := trim_some_iff.1 ht
        rw [trimmed_unique h1 hr] at h2 h3
        rcases h with ⟨c, hc, hb⟩ | ⟨c, hc, hb⟩
        · exact absurd hb (h2 c hc)
        · exact absurd hb (h3 c hc)

/-- C52 is false for a string whose first character after the white space is not ASCII: the
call of `std::isspace` is undefined. -/
theorem C52_undefined (a s : Str) (c : UInt8) (ha : ∀ x ∈ a, White x) (hc : Bad c) :
    trim (a ++ c :: s) = none := by
  simp only [trim, ltrim_white ha, ltrim, isspace_none.2 hc]

/-- A string that ends with the byte 233 after a space. -/
example : trim [0x61, 0x20, 0xe9] = none ∧ Trimmed [0x61, 0x20, 0xe9] [0x61, 0x20, 0xe9] :=
  ⟨by decide, [], [], by decide, by decide, by decide, by decide, by decide⟩
example : trim b!" \t a b\n" = some b!"a b" := by decide
example : trim b!"  " = some b!"" := by decide
/-- The UTF-8 string `é`. -/
example : trim [0xc3, 0xa9] = none := C52_undefined [] _ _ (by simp) (by decide)

end Verif.Env
