import Verif.Json.Utf8
import Verif.Json.Prefix

/-! # Strings, numbers and objects: the lexer of the model against the grammar -/

namespace Verif.Json
open Verif Verif.Json.Grammar

/-! ## Hexadecimal digits -/

theorem hexVal_sound {b : UInt8} {n : Nat} (h : hexVal b = some n) : HexDigit b n := by
  have key : ∀ x, x < 256 → ∀ m, m < 16 → hexVal (UInt8.ofNat x) = some m →
      HexDigit (UInt8.ofNat x) m := by
    unfold HexDigit; decide +kernel
  have hb := key b.toNat (UInt8.toNat_lt b) n
  rw [UInt8.ofNat_toNat] at hb
  refine hb ?_ h
  unfold hexVal at h
  simp only [inRange_nat, UInt8.reduceToNat, decide_eq_true_eq] at h
  repeat' split at h
  all_goals first
    | contradiction
    | (simp only [Option.some.injEq] at h; omega)

theorem hexVal_complete {b : UInt8} {n : Nat} (h : HexDigit b n) : hexVal b = some n := by
  have key : ∀ m, m < 16 → (b!"0123456789abcdef"[m]?).bind hexVal = some m ∧
      (b!"0123456789ABCDEF"[m]?).bind hexVal = some m := by decide +kernel
  have hn : n < 16 := by
    rcases h with h | h <;> exact (List.getElem?_eq_some_iff.1 h).1
  have k := key n hn
  rcases h with h | h <;> rw [h] at k
  · exact k.1
  · exact k.2

theorem hex4_iff {a b c d : UInt8} {n : Nat} : hex4 a b c d = some n ↔ Hex4 [a, b, c, d] n := by
  constructor
  · intro h
    simp only [hex4, Option.bind_eq_bind, Option.bind_eq_some_iff, Option.pure_def,
      Option.some.injEq] at h
    obtain ⟨i, h1, j, h2, k, h3, l, h4, rfl⟩ := h
    have := Hex4.mk (hexVal_sound h1) (hexVal_sound h2) (hexVal_sound h3) (hexVal_sound h4)
    rwa [show i * 4096 + j * 256 + k * 16 + l = ((i * 16 + j) * 16 + k) * 16 + l by omega]
  · intro h
    cases h with
    | @mk _ _ _ _ i j k l h1 h2 h3 h4 =>
      simp only [hex4, hexVal_complete h1, hexVal_complete h2, hexVal_complete h3,
        hexVal_complete h4, Option.bind_eq_bind, Option.bind_some, Option.pure_def,
        Option.some.injEq]
      omega

theorem _root_.Verif.Json.Grammar.Hex4.shape {h : Str} {n : Nat} (hh : Hex4 h n) : ∃ a b c d, h = [a, b, c, d] := by
  cases hh; exact ⟨_, _, _, _, rfl⟩

theorem hexDigit_lt {b : UInt8} {n : Nat} (h : HexDigit b n) : n < 16 := by
  rcases h with h | h <;> exact (List.getElem?_eq_some_iff.1 h).1

theorem _root_.Verif.Json.Grammar.Hex4.lt {h : Str} {n : Nat} (hh : Hex4 h n) : n < 65536 := by
  cases hh with
  | mk h1 h2 h3 h4 =>
    have := hexDigit_lt h1
    have := hexDigit_lt h2
    have := hexDigit_lt h3
    have := hexDigit_lt h4
    omega

/-! ## Escapes -/

theorem simpleEsc_iff {e x : UInt8} : simpleEsc e = some x ↔ (e, x) ∈ escapes := by
  unfold simpleEsc escapes
  simp only [List.mem_cons, Prod.mk.injEq, List.not_mem_nil, or_false]
  constructor
  · intro h
    repeat' split at h
    all_goals simp_all
  · rintro (⟨rfl, rfl⟩ | ⟨rfl, rfl⟩ | ⟨rfl, rfl⟩ | ⟨rfl, rfl⟩ | ⟨rfl, rfl⟩ | ⟨rfl, rfl⟩ |
      ⟨rfl, rfl⟩ | ⟨rfl, rfl⟩) <;> rfl

theorem escape_ne_u {e x : UInt8} (h : (e, x) ∈ escapes) : e ≠ c!"u" := by
  unfold escapes at h
  simp only [List.mem_cons, Prod.mk.injEq, List.not_mem_nil, or_false] at h
  rcases h with ⟨rfl, rfl⟩ | ⟨rfl, rfl⟩ | ⟨rfl, rfl⟩ | ⟨rfl, rfl⟩ | ⟨rfl, rfl⟩ | ⟨rfl, rfl⟩ |
      ⟨rfl, rfl⟩ | ⟨rfl, rfl⟩ <;> decide

/-! ## Strings -/

theorem scanStr_head {b : UInt8} (r : Str) (h1 : b ≠ c!"\"") (h2 : b ≠ c!"\\")
    (h3 : ¬ b < 0x20) :
    scanStr (b :: r) =
      match utf8Head (b :: r) with
      | some (p, r') => prep p (scanStr r')
      | none => none := by
  rw [scanStr.eq_def]
  unfold utf8Head
  simp only [if_neg h1, if_neg h2, if_neg h3]
  repeat' split
  all_goals simp_all

/-- First byte of an encoded character. -/
theorem encode_cons (c : Char) : ∃ b t, String.utf8EncodeChar c = b :: t := by
  rw [encodeCp_char]
  unfold encodeCp
  repeat' split
  all_goals exact ⟨_, _, rfl⟩

theorem encode_head {c : Char} {b : UInt8} {t : Str} (h : String.utf8EncodeChar c = b :: t) :
    (b.toNat = c.toNat ∧ t = [] ∧ c.toNat < 0x80) ∨ (0x80 ≤ b.toNat ∧ 0x80 ≤ c.toNat) := by
  have hr := char_range c
  rw [encodeCp_char] at h
  generalize c.toNat = v at h hr ⊢
  unfold encodeCp at h
  have tn : ∀ n : Nat, n < 256 → (UInt8.ofNat n).toNat = n := fun n h =>
    UInt8.toNat_ofNat_of_lt' h
  split at h
  · simp only [List.cons.injEq] at h
    obtain ⟨rfl, rfl⟩ := h
    exact .inl ⟨tn _ (by omega), rfl, by omega⟩
  split at h
  · simp only [List.cons.injEq] at h
    obtain ⟨rfl, -⟩ := h
    rw [tn _ (by omega)]
    omega
  split at h
  · simp only [List.cons.injEq] at h
    obtain ⟨rfl, -⟩ := h
    rw [tn _ (by omega)]
    omega
  · simp only [List.cons.injEq] at h
    obtain ⟨rfl, -⟩ := h
    rw [tn _ (by omega)]
    omega

theorem char_ne {c d : Char} : c ≠ d ↔ c.toNat ≠ d.toNat := by
  constructor
  · intro h e
    exact h (Char.ext (UInt32.toNat_inj.1 e))
  · rintro h rfl; exact h rfl

theorem scanStr_sound (n : Nat) : ∀ {s k r : Str}, s.length ≤ n → scanStr s = some (k, r) →
    ∃ t, Chars k t ∧ s = t ++ c!"\"" :: r := by
  induction n with
  | zero =>
    intro s k r hn h
    cases s with
    | nil => rw [scanStr.eq_def] at h; contradiction
    | cons _ _ => simp at hn
  | succ n ih =>
    intro s k r hn h
    cases s with
    | nil => rw [scanStr.eq_def] at h; contradiction
    | cons b s =>
      simp only [List.length_cons] at hn
      by_cases h1 : b = c!"\""
      · subst h1
        rw [scanStr.eq_def] at h
        simp only [if_true, Option.some.injEq, Prod.mk.injEq] at h
        obtain ⟨rfl, rfl⟩ := h
        exact ⟨[], .nil, rfl⟩
      by_cases h2 : b = c!"\\"
      · subst h2
        rw [scanStr.eq_def] at h
        simp only [if_neg h1, if_true] at h
        split at h
        · contradiction
        rename_i e s
        split at h
        · rename_i he
          subst he
          split at h <;> try contradiction
          rename_i a1 a2 a3 a4 s
          split at h
          · contradiction
          rename_i cp hcp
          rw [hex4_iff] at hcp
          have hlt := hcp.lt
          split at h
          · rename_i hhi
            split at h <;> try contradiction
            rename_i bs u g1 g2 g3 g4 s
            split at h <;> try contradiction
            rename_i hbu
            obtain ⟨rfl, rfl⟩ := hbu
            split at h
            · contradiction
            rename_i cp2 hcp2
            rw [hex4_iff] at hcp2
            split at h <;> try contradiction
            rename_i hlo
            generalize hv : 0x10000 + (cp - 0xD800) * 0x400 + (cp2 - 0xDC00) = v at h
            obtain ⟨k', hk', rfl⟩ := prep_eq_some.1 h
            obtain ⟨t, ht, rfl⟩ := ih (by simp at hn ⊢; omega) hk'
            obtain ⟨c, hc⟩ := exists_char v (by omega)
            have := Chars.pair c hcp hcp2 (by omega) (by omega) (hc.trans hv.symm) ht
            rw [encodeCp_char, hc] at this
            exact ⟨_, this, by simp⟩
          · split at h
            · contradiction
            obtain ⟨k', hk', rfl⟩ := prep_eq_some.1 h
            obtain ⟨t, ht, rfl⟩ := ih (by simp at hn ⊢; omega) hk'
            obtain ⟨c, hc⟩ := exists_char cp (by omega)
            rw [← hc] at hcp
            have := Chars.unicode c hcp ht
            rw [encodeCp_char, hc] at this
            exact ⟨_, this, by simp⟩
        · split at h
          · rename_i x hx
            obtain ⟨k', hk', rfl⟩ := prep_eq_some.1 h
            obtain ⟨t, ht, rfl⟩ := ih (by simp at hn ⊢; omega) hk'
            exact ⟨_, Chars.escape (simpleEsc_iff.1 hx) ht, by simp⟩
          · contradiction
      by_cases h3 : b < 0x20
      · rw [scanStr.eq_def] at h
        simp only [if_neg h1, if_neg h2, if_pos h3] at h
        contradiction
      rw [scanStr_head s h1 h2 h3] at h
      split at h
      · rename_i p r' hp
        obtain ⟨c, rfl, hs⟩ := utf8Head_iff.1 hp
        obtain ⟨k', hk', rfl⟩ := prep_eq_some.1 h
        obtain ⟨b', t', hb'⟩ := encode_cons c
        have hl : s.length = t'.length + r'.length := by
          rw [hb', List.cons_append] at hs
          have := (List.cons.inj hs).2
          simp [this]
        obtain ⟨t, ht, rfl⟩ := ih (by omega) hk'
        have hbb : b' = b := by
          rw [hb', List.cons_append] at hs; exact (List.cons.inj hs).1.symm
        subst hbb
        have hh := encode_head hb'
        simp only [UInt8.lt_iff_toNat_lt, UInt8.reduceToNat] at h3
        refine ⟨_, Chars.char c (by omega) ?_ ?_ ht, by rw [hs]; simp⟩
        · rw [char_ne]
          intro e
          have e : c.toNat = 34 := e
          exact h1 (UInt8.toNat_inj.1 (show b'.toNat = 34 by omega))
        · rw [char_ne]
          intro e
          have e : c.toNat = 92 := e
          exact h2 (UInt8.toNat_inj.1 (show b'.toNat = 92 by omega))
      · contradiction

theorem scanStr_complete {k t : Str} (h : Chars k t) (r : Str) :
    scanStr (t ++ c!"\"" :: r) = some (k, r) := by
  induction h with
  | nil => rw [scanStr.eq_def]; rfl
  | @char s t c h0 h1 h2 ht ih =>
    obtain ⟨b, u, hb⟩ := encode_cons c
    have hh := encode_head hb
    rw [char_ne] at h1 h2
    have h1 : c.toNat ≠ 34 := h1
    have h2 : c.toNat ≠ 92 := h2
    have hd := utf8Head_complete c (t ++ c!"\"" :: r)
    rw [hb] at hd ⊢
    simp only [List.cons_append, List.append_assoc] at hd ⊢
    rw [scanStr_head]
    · rw [hd]; simp only [ih, prep_some]; rfl
    · rintro rfl; simp only [UInt8.reduceToNat] at hh; omega
    · rintro rfl; simp only [UInt8.reduceToNat] at hh; omega
    · simp only [UInt8.lt_iff_toNat_lt, UInt8.reduceToNat]; omega
  | @escape s t e x he ht ih =>
    have := escape_ne_u he
    rw [List.cons_append, List.cons_append, scanStr.eq_def]
    simp only [simpleEsc_iff.2 he, ih, if_neg this]
    simp
  | @unicode s t h c hh ht ih =>
    obtain ⟨a1, a2, a3, a4, rfl⟩ := hh.shape
    have hr := char_range c
    rw [← hex4_iff] at hh
    rw [show b!"\\u" ++ [a1, a2, a3, a4] ++ t ++ c!"\"" :: r =
      c!"\\" :: c!"u" :: a1 :: a2 :: a3 :: a4 :: (t ++ c!"\"" :: r) by simp, scanStr.eq_def]
    simp only [hh, ih]
    rw [if_neg (by decide), if_pos trivial, if_pos trivial, if_neg (by omega), if_neg (by omega),
      prep_some, encodeCp_char]
  | @pair s t h h' hi lo c hh hh' hb1 hb2 hc ht ih =>
    obtain ⟨a1, a2, a3, a4, rfl⟩ := hh.shape
    obtain ⟨g1, g2, g3, g4, rfl⟩ := hh'.shape
    rw [← hex4_iff] at hh hh'
    rw [show b!"\\u" ++ [a1, a2, a3, a4] ++ b!"\\u" ++ [g1, g2, g3, g4] ++ t ++ c!"\"" :: r =
      c!"\\" :: c!"u" :: a1 :: a2 :: a3 :: a4 :: c!"\\" :: c!"u" :: g1 :: g2 :: g3 :: g4 ::
        (t ++ c!"\"" :: r) by simp, scanStr.eq_def]
    simp only [hh, hh', ih]
    rw [if_neg (by decide), if_pos trivial, if_pos trivial, if_pos (by omega), if_pos ⟨trivial, trivial⟩,
      if_pos (by omega), prep_some, encodeCp_char, hc]

/-! ## Numbers -/

theorem digit_iff {b : UInt8} : Digit b ↔ isDigit b = true := by
  have key : ∀ x, x < 256 → (UInt8.ofNat x ∈ b!"0123456789" ↔ isDigit (UInt8.ofNat x) = true) := by
    decide +kernel
  have := key b.toNat (UInt8.toNat_lt b)
  rw [UInt8.ofNat_toNat] at this
  exact this

theorem value_eq (s : Str) (n : Nat) :
    value s n = s.foldl (fun n b => 10 * n + (b.toNat - 48)) n := by
  induction s generalizing n with
  | nil => rfl
  | cons b s ih => rw [value, ih]; rfl

theorem value_digitsVal (s : Str) : value s 0 = digitsVal s := value_eq s 0

theorem spanDigits_sound {s d r : Str} (h : spanDigits s = (d, r)) :
    (∀ x ∈ d, Digit x) ∧ s = d ++ r := by
  induction s generalizing d with
  | nil =>
    simp only [spanDigits, Prod.mk.injEq] at h
    obtain ⟨rfl, rfl⟩ := h
    simp
  | cons b s ih =>
    rw [spanDigits] at h
    split at h
    · rename_i hb
      cases hs : spanDigits s with
      | mk d' r' =>
        rw [hs] at h
        simp only [Prod.mk.injEq] at h
        obtain ⟨rfl, rfl⟩ := h
        obtain ⟨h1, h2⟩ := ih hs
        refine ⟨?_, by simp [h2]⟩
        intro x hx
        rcases List.mem_cons.1 hx with rfl | hx
        · exact digit_iff.2 hb
        · exact h1 x hx
    · simp only [Prod.mk.injEq] at h
      obtain ⟨rfl, rfl⟩ := h
      simp

/-- The rest does not start with a digit. -/
def NoDigit (r : Str) : Prop := ∀ b t, r = b :: t → isDigit b = false

theorem spanDigits_complete {d r : Str} (hd : ∀ x ∈ d, Digit x) (hr : NoDigit r) :
    spanDigits (d ++ r) = (d, r) :=
  spanDigits_append d r (fun b hb => digit_iff.1 (hd b hb)) hr

theorem scanInt_sound {s i r : Str} (h : scanInt s = some (i, r)) : IntPart i ∧ s = i ++ r := by
  unfold scanInt at h
  split at h
  · contradiction
  rename_i b s
  split at h
  · rename_i hb
    simp only [Option.some.injEq, Prod.mk.injEq] at h
    obtain ⟨rfl, rfl⟩ := h
    subst hb
    exact ⟨.zero, rfl⟩
  · rename_i hb
    split at h
    · rename_i hd
      simp only [Option.some.injEq] at h
      obtain ⟨h1, h2⟩ := spanDigits_sound h
      rw [spanDigits, if_pos hd] at h
      simp only [Prod.mk.injEq] at h
      obtain ⟨hi, hr⟩ := h
      subst hi
      refine ⟨.pos (digit_iff.2 hd) hb (fun x hx => h1 x (by simp [hx])), h2⟩
    · contradiction

theorem scanInt_complete {i r : Str} (h : IntPart i) (hr : NoDigit r) :
    scanInt (i ++ r) = some (i, r) := by
  cases h with
  | zero => rfl
  | @pos b l hb h0 hl =>
    have hs := spanDigits_complete (d := b :: l) (r := r)
      (by intro x hx
          rcases List.mem_cons.1 hx with rfl | hx
          · exact hb
          · exact hl x hx) hr
    unfold scanInt
    simp only [List.cons_append] at hs ⊢
    rw [if_neg h0, if_pos (digit_iff.1 hb), hs]

end Verif.Json
