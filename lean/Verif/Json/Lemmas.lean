import Verif.Json.Model

namespace Verif.Json
open Verif

/-! ## Strings -/

theorem hex_ctrl : ∀ n, n < 32 →
    hex4 48 48 (hexDigit (n / 16)) (hexDigit (n % 16)) = some n := by decide

theorem scanStr_ctrl (b : UInt8) (h : b < 0x20) (r : Str) :
    scanStr (b!"\\u00" ++ [hexDigit (b.toNat / 16), hexDigit (b.toNat % 16)] ++ r)
      = prep [b] (scanStr r) := by
  have hn : b.toNat < 32 := by
    have := UInt8.lt_iff_toNat_lt.mp h
    simpa using this
  have hh := hex_ctrl b.toNat hn
  simp only [List.cons_append, List.nil_append]
  rw [scanStr]
  simp only [hh]
  have h1 : ¬ (55296 ≤ b.toNat ∧ b.toNat ≤ 56319) := by omega
  have h2 : ¬ (56320 ≤ b.toNat ∧ b.toNat ≤ 57343) := by omega
  have h3 : b.toNat < 128 := by omega
  simp [h1, h2, encodeCp, h3]

theorem scanStr_escByte_ascii (b : UInt8) (h : b < 0x80) (r : Str) :
    scanStr (escByte b ++ r) = prep [b] (scanStr r) := by
  unfold escByte
  split
  · rename_i hb; subst hb; rw [scanStr.eq_def]; simp [simpleEsc]
  split
  · rename_i hb; subst hb; rw [scanStr.eq_def]; simp [simpleEsc]
  split
  · rename_i hb; subst hb; rw [scanStr.eq_def]; simp [simpleEsc]
  split
  · rename_i hb; subst hb; rw [scanStr.eq_def]; simp [simpleEsc]
  split
  · rename_i hb; subst hb; rw [scanStr.eq_def]; simp [simpleEsc]
  split
  · rename_i hb; subst hb; rw [scanStr.eq_def]; simp [simpleEsc]
  split
  · rename_i hb; subst hb; rw [scanStr.eq_def]; simp [simpleEsc]
  split
  · exact scanStr_ctrl b ‹_› r
  · rename_i h1 h2 h3
    rw [List.singleton_append, scanStr.eq_def]
    simp [h1, h2, h3, h]

theorem escByte_high (b : UInt8) (h : ¬ b < 0x80) : escByte b = [b] := by
  unfold escByte
  have h1 : b ≠ 0x08 := by grind
  have h2 : b ≠ 0x09 := by grind
  have h3 : b ≠ 0x0A := by grind
  have h4 : b ≠ 0x0C := by grind
  have h5 : b ≠ 0x0D := by grind
  have h6 : b ≠ 0x22 := by grind
  have h7 : b ≠ 0x5C := by grind
  have h8 : ¬ b < 0x20 := by grind
  simp [*]

theorem inRange_iff (lo hi b : UInt8) : inRange lo hi b = true ↔ lo ≤ b ∧ b ≤ hi := by
  simp [inRange]

theorem isCont_high {b : UInt8} (h : isCont b = true) : ¬ b < 0x80 := by
  simp only [isCont, inRange_iff] at h; grind

theorem inRange_high {lo hi b : UInt8} (h : inRange lo hi b = true) (hl : ¬ lo < 0x80) :
    ¬ b < 0x80 := by
  simp only [inRange_iff] at h; grind

@[simp] theorem prep_some (p s r : Str) : prep p (some (s, r)) = some (p ++ s, r) := rfl
@[simp] theorem prep_none (p : Str) : prep p none = none := rfl

theorem high_ne {b : UInt8} (h : ¬ b < 0x80) : b ≠ 34 ∧ b ≠ 92 ∧ ¬ b < 32 := by
  refine ⟨?_, ?_, ?_⟩ <;> grind

theorem scanStr_escape (s r : Str) (h : validUtf8 s = true) :
    scanStr (s.flatMap escByte ++ (c!"\"" :: r)) = some (s, r) := by
  fun_induction validUtf8 s with
  | case1 => simp [scanStr.eq_def]
  | case2 b t hb ih =>
    simp only [List.flatMap_cons, List.append_assoc]
    rw [scanStr_escByte_ascii b hb, ih h]; simp
  | case3 b hb h2 c1 t ih =>
    simp only [Bool.and_eq_true] at h
    obtain ⟨h3, h4, h5⟩ := high_ne hb
    simp only [List.flatMap_cons, escByte_high _ hb, escByte_high _ (isCont_high h.1),
      List.cons_append, List.nil_append]
    rw [scanStr.eq_def]
    simp [*]
  | case5 c1 c2 t hb h2 ih =>
    simp only [Bool.and_eq_true] at h
    simp only [List.flatMap_cons, escByte_high _ hb, escByte_high _ (isCont_high h.1.2),
      escByte_high _ (inRange_high h.1.1 (by decide)), List.cons_append, List.nil_append]
    rw [scanStr.eq_def]
    simp [*]
  | case7 b hb h2 h3 h4 c1 c2 t ih =>
    simp only [Bool.and_eq_true] at h
    obtain ⟨h6, h7, h5⟩ := high_ne hb
    simp only [List.flatMap_cons, escByte_high _ hb, escByte_high _ (isCont_high h.1.2),
      escByte_high _ (isCont_high h.1.1), List.cons_append, List.nil_append]
    rw [scanStr.eq_def]
    simp [*]
  | case9 c1 c2 t hb h2 h3 h4 ih =>
    simp only [Bool.and_eq_true] at h
    simp only [List.flatMap_cons, escByte_high _ hb, escByte_high _ (isCont_high h.1.2),
      escByte_high _ (inRange_high h.1.1 (by decide)), List.cons_append, List.nil_append]
    rw [scanStr.eq_def]
    simp [*]
  | case11 c1 c2 c3 t hb h2 h3 h4 h5 ih =>
    simp only [Bool.and_eq_true] at h
    simp only [List.flatMap_cons, escByte_high _ hb, escByte_high _ (isCont_high h.1.2),
      escByte_high _ (isCont_high h.1.1.2),
      escByte_high _ (inRange_high h.1.1.1 (by decide)), List.cons_append, List.nil_append]
    rw [scanStr.eq_def]
    simp [*]
  | case13 b hb h2 h3 h4 h5 h6 h7 c1 c2 c3 t ih =>
    simp only [Bool.and_eq_true] at h
    obtain ⟨h8, h9, h10⟩ := high_ne hb
    simp only [List.flatMap_cons, escByte_high _ hb, escByte_high _ (isCont_high h.1.2),
      escByte_high _ (isCont_high h.1.1.2),
      escByte_high _ (isCont_high h.1.1.1), List.cons_append, List.nil_append]
    rw [scanStr.eq_def]
    simp [*]
  | case15 c1 c2 c3 t hb h2 h3 h4 h5 h6 h7 ih =>
    simp only [Bool.and_eq_true] at h
    simp only [List.flatMap_cons, escByte_high _ hb, escByte_high _ (isCont_high h.1.2),
      escByte_high _ (isCont_high h.1.1.2),
      escByte_high _ (inRange_high h.1.1.1 (by decide)), List.cons_append, List.nil_append]
    rw [scanStr.eq_def]
    simp [*]
  | case4 | case6 | case8 | case10 | case12 | case14 | case16 | case17 =>
    exact absurd h Bool.false_ne_true

/-! ## Numbers -/

theorem digit_ofNat (k : Nat) (h : k < 10) :
    isDigit (UInt8.ofNat (48 + k)) = true ∧ (UInt8.ofNat (48 + k)).toNat = 48 + k := by
  have : ∀ k, k < 10 → isDigit (UInt8.ofNat (48 + k)) = true ∧
    (UInt8.ofNat (48 + k)).toNat = 48 + k := by decide
  exact this k h

theorem digitsAux_isDigit (f n : Nat) : ∀ b ∈ digitsAux f n, isDigit b = true := by
  induction f generalizing n with
  | zero => simp [digitsAux]
  | succ f ih =>
    intro b hb
    rw [digitsAux] at hb
    split at hb
    · rw [List.mem_singleton] at hb; subst hb; exact (digit_ofNat n ‹_›).1
    · rw [List.mem_append, List.mem_singleton] at hb
      rcases hb with hb | hb
      · exact ih _ _ hb
      · subst hb; exact (digit_ofNat _ (by omega)).1

theorem digits_isDigit (n : Nat) : ∀ b ∈ digits n, isDigit b = true :=
  digitsAux_isDigit _ _

theorem digitsAux_val (f n : Nat) (h : n < f) : digitsVal (digitsAux f n) = n := by
  induction f generalizing n with
  | zero => omega
  | succ f ih =>
    rw [digitsAux]
    split
    · simp only [digitsVal, List.foldl_cons, List.foldl_nil, (digit_ofNat n ‹_›).2]
      omega
    · have := ih (n / 10) (by omega)
      simp only [digitsVal] at this
      simp only [digitsVal, List.foldl_append, this, List.foldl_cons, List.foldl_nil,
        (digit_ofNat (n % 10) (by omega)).2]
      omega

theorem digitsVal_digits (n : Nat) : digitsVal (digits n) = n :=
  digitsAux_val _ _ (by omega)

/-- `std::to_string` is injective. -/
theorem digits_inj {m n : Nat} (h : digits m = digits n) : m = n := by
  rw [← digitsVal_digits m, h, digitsVal_digits]

theorem digitsAux_head (f n : Nat) (h : n < f) :
    ∃ b t, digitsAux f n = b :: t ∧ (b = 48 → t = []) := by
  induction f generalizing n with
  | zero => omega
  | succ f ih =>
    rw [digitsAux]
    split
    · exact ⟨_, _, rfl, fun _ => rfl⟩
    · rename_i hn
      obtain ⟨b, t, hb, ht⟩ := ih (n / 10) (by omega)
      refine ⟨b, t ++ [UInt8.ofNat (48 + n % 10)], by rw [hb]; rfl, fun h0 => ?_⟩
      exfalso
      have ht := ht h0
      have hv := digitsAux_val f (n / 10) (by omega)
      rw [hb, ht, h0] at hv
      simp [digitsVal] at hv
      omega

theorem spanDigits_append (d r : Str) (hd : ∀ b ∈ d, isDigit b = true)
    (hr : ∀ b t, r = b :: t → isDigit b = false) : spanDigits (d ++ r) = (d, r) := by
  induction d with
  | nil =>
    cases r with
    | nil => rfl
    | cons b t => simp [spanDigits, hr b t rfl]
  | cons b d ih =>
    have := ih (fun x hx => hd x (by simp [hx]))
    simp [spanDigits, hd b (by simp), this]

/-- Text that may follow a number in a dump. -/
def NumEnd (r : Str) : Prop :=
  ∀ b t, r = b :: t → isDigit b = false ∧ b ≠ c!"." ∧ b ≠ c!"e" ∧ b ≠ c!"E"

theorem isDigit_ne {b : UInt8} (h : isDigit b = true) :
    b ≠ 45 ∧ b ≠ 46 ∧ b ≠ 101 ∧ b ≠ 69 := by
  simp only [isDigit, inRange_iff] at h; grind

theorem scanInt_digits (n : Nat) (r : Str) (hr : NumEnd r) :
    scanInt (digits n ++ r) = some (digits n, r) := by
  obtain ⟨b, t, hb, h0⟩ := digitsAux_head (n + 1) n (by omega)
  have hd := digits_isDigit n
  change digits n = b :: t at hb
  rw [hb] at hd ⊢
  have hbd := hd b (by simp)
  have hsp := spanDigits_append (b :: t) r hd (fun b t h => (hr b t h).1)
  rw [List.cons_append] at hsp ⊢
  unfold scanInt
  simp only
  split
  · rename_i h; rw [h0 h]; simp
  · simp [hbd, hsp]

theorem scanFrac_end (r : Str) (hr : NumEnd r) : scanFrac r = some ([], r) := by
  unfold scanFrac
  split
  · rfl
  · rename_i b t
    have := (hr b t rfl).2.1
    simp [this]

theorem scanExp_end (r : Str) (hr : NumEnd r) : scanExp r = some ([], r) := by
  unfold scanExp
  split
  · rfl
  · rename_i b t
    have := (hr b t rfl).2.2
    simp [this.1, this.2]

theorem scanNum_uint (n : Nat) (r : Str) (hn : n < 2 ^ 64) (hr : NumEnd r) :
    scanNum (digits n ++ r) = some (.uint n, r) := by
  obtain ⟨b, t, hb, _⟩ := digitsAux_head (n + 1) n (by omega)
  change digits n = b :: t at hb
  have hbd := digits_isDigit n b (by simp [hb])
  have hne := (isDigit_ne hbd).1
  have h1 := scanInt_digits n r hr
  have hv := digitsVal_digits n
  rw [hb, List.cons_append] at h1 ⊢
  rw [hb] at hv
  unfold scanNum
  simp [hne, h1, scanFrac_end r hr, scanExp_end r hr, hv]
  omega

theorem scanNum_nint (n : Nat) (r : Str) (hn : n ≤ 2 ^ 63) (hr : NumEnd r) :
    scanNum (c!"-" :: (digits n ++ r)) = some (.nint n, r) := by
  have h1 := scanInt_digits n r hr
  have hv := digitsVal_digits n
  unfold scanNum
  simp [h1, scanFrac_end r hr, scanExp_end r hr, hv]
  omega

end Verif.Json
