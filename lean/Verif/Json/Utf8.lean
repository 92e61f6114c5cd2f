import Verif.Json.Lemmas
import Verif.Json.Grammar

/-! # UTF-8: the byte classes of the model are the encodings of characters -/

namespace Verif.Json
open Verif

theorem exists_char (v : Nat) (h : v < 0xD800 ∨ 0xDFFF < v ∧ v < 0x110000) :
    ∃ c : Char, c.toNat = v :=
  ⟨Char.ofNatAux v h, rfl⟩

theorem char_range (c : Char) : c.toNat < 0xD800 ∨ 0xDFFF < c.toNat ∧ c.toNat < 0x110000 := c.valid

theorem encodeCp_char (c : Char) : String.utf8EncodeChar c = encodeCp c.toNat := by
  have h := char_range c
  unfold String.utf8EncodeChar encodeCp
  have hv : c.val.toNat = c.toNat := rfl
  rw [hv]
  simp only
  generalize c.toNat = v at h ⊢
  by_cases h1 : v ≤ 0x7f
  · rw [if_pos h1, if_pos (show v < 0x80 by omega)]
  rw [if_neg h1, if_neg (show ¬ v < 0x80 by omega)]
  by_cases h2 : v ≤ 0x7ff
  · rw [if_pos h2, if_pos h2]
    have e : v / 64 % 32 = v / 64 := Nat.mod_eq_of_lt (by omega)
    rw [e, Nat.add_comm, Nat.add_comm (v % 64)]
  rw [if_neg h2, if_neg h2]
  by_cases h3 : v ≤ 0xffff
  · rw [if_pos h3, if_pos h3]
    have e : v / 4096 % 16 = v / 4096 := Nat.mod_eq_of_lt (by omega)
    rw [e, Nat.add_comm, Nat.add_comm (v % 64), Nat.add_comm (v / 64 % 64)]
  rw [if_neg h3, if_neg h3]
  have e : v / 262144 % 8 = v / 262144 := Nat.mod_eq_of_lt (by omega)
  rw [e, Nat.add_comm, Nat.add_comm (v % 64), Nat.add_comm (v / 64 % 64), Nat.add_comm (v / 4096 % 64)]

/-- One character split off, as both `scan_string` and `dump_escaped` do. -/
def utf8Head : Str → Option (Str × Str)
  | [] => none
  | b :: r =>
    if b < 0x80 then some ([b], r)
    else if inRange 0xC2 0xDF b then
      match r with
      | c1 :: r => if isCont c1 then some ([b, c1], r) else none
      | _ => none
    else if b = 0xE0 then
      match r with
      | c1 :: c2 :: r =>
        if inRange 0xA0 0xBF c1 && isCont c2 then some ([b, c1, c2], r) else none
      | _ => none
    else if inRange 0xE1 0xEC b || inRange 0xEE 0xEF b then
      match r with
      | c1 :: c2 :: r =>
        if isCont c1 && isCont c2 then some ([b, c1, c2], r) else none
      | _ => none
    else if b = 0xED then
      match r with
      | c1 :: c2 :: r =>
        if inRange 0x80 0x9F c1 && isCont c2 then some ([b, c1, c2], r) else none
      | _ => none
    else if b = 0xF0 then
      match r with
      | c1 :: c2 :: c3 :: r =>
        if inRange 0x90 0xBF c1 && isCont c2 && isCont c3 then
          some ([b, c1, c2, c3], r) else none
      | _ => none
    else if inRange 0xF1 0xF3 b then
      match r with
      | c1 :: c2 :: c3 :: r =>
        if isCont c1 && isCont c2 && isCont c3 then
          some ([b, c1, c2, c3], r) else none
      | _ => none
    else if b = 0xF4 then
      match r with
      | c1 :: c2 :: c3 :: r =>
        if inRange 0x80 0x8F c1 && isCont c2 && isCont c3 then
          some ([b, c1, c2, c3], r) else none
      | _ => none
    else none

theorem u8_eq {b : UInt8} {n : Nat} (h : b.toNat = n) : UInt8.ofNat n = b := by
  subst h; exact UInt8.ofNat_toNat

theorem enc2 {b c1 : UInt8} (h : inRange 0xC2 0xDF b = true) (h1 : isCont c1 = true) :
    ∃ c : Char, String.utf8EncodeChar c = [b, c1] := by
  simp only [isCont, inRange_iff, UInt8.le_iff_toNat_le] at h h1
  simp only [UInt8.reduceToNat] at h h1
  obtain ⟨c, hc⟩ := exists_char ((b.toNat - 0xC0) * 64 + (c1.toNat - 0x80)) (by omega)
  refine ⟨c, ?_⟩
  rw [encodeCp_char, hc, encodeCp, if_neg (by omega), if_pos (by omega)]
  rw [u8_eq (b := b) (by omega), u8_eq (b := c1) (by omega)]

theorem enc3 {b c1 c2 : UInt8} (hb : 0xE0 ≤ b.toNat ∧ b.toNat ≤ 0xEF)
    (h : 0x80 ≤ c1.toNat ∧ c1.toNat ≤ 0xBF) (h1 : isCont c2 = true)
    (hlo : b.toNat = 0xE0 → 0xA0 ≤ c1.toNat) (hhi : b.toNat = 0xED → c1.toNat ≤ 0x9F) :
    ∃ c : Char, String.utf8EncodeChar c = [b, c1, c2] := by
  simp only [isCont, inRange_iff, UInt8.le_iff_toNat_le] at h1
  simp only [UInt8.reduceToNat] at h1
  obtain ⟨c, hc⟩ := exists_char
    ((b.toNat - 0xE0) * 4096 + (c1.toNat - 0x80) * 64 + (c2.toNat - 0x80)) (by omega)
  refine ⟨c, ?_⟩
  rw [encodeCp_char, hc, encodeCp, if_neg (by omega), if_neg (by omega), if_pos (by omega)]
  rw [u8_eq (b := b) (by omega), u8_eq (b := c1) (by omega), u8_eq (b := c2) (by omega)]

theorem enc4 {b c1 c2 c3 : UInt8} (hb : 0xF0 ≤ b.toNat ∧ b.toNat ≤ 0xF4)
    (h : 0x80 ≤ c1.toNat ∧ c1.toNat ≤ 0xBF) (h1 : isCont c2 = true) (h2 : isCont c3 = true)
    (hlo : b.toNat = 0xF0 → 0x90 ≤ c1.toNat) (hhi : b.toNat = 0xF4 → c1.toNat ≤ 0x8F) :
    ∃ c : Char, String.utf8EncodeChar c = [b, c1, c2, c3] := by
  simp only [isCont, inRange_iff, UInt8.le_iff_toNat_le] at h1 h2
  simp only [UInt8.reduceToNat] at h1 h2
  obtain ⟨c, hc⟩ := exists_char
    ((b.toNat - 0xF0) * 262144 + (c1.toNat - 0x80) * 4096 + (c2.toNat - 0x80) * 64 +
      (c3.toNat - 0x80)) (by omega)
  refine ⟨c, ?_⟩
  rw [encodeCp_char, hc, encodeCp, if_neg (by omega), if_neg (by omega), if_neg (by omega)]
  rw [u8_eq (b := b) (by omega), u8_eq (b := c1) (by omega), u8_eq (b := c2) (by omega),
    u8_eq (b := c3) (by omega)]

theorem enc1 {b : UInt8} (h : b < 0x80) :
    ∃ c : Char, String.utf8EncodeChar c = [b] ∧ c.toNat = b.toNat := by
  simp only [UInt8.lt_iff_toNat_lt, UInt8.reduceToNat] at h
  obtain ⟨c, hc⟩ := exists_char b.toNat (by omega)
  refine ⟨c, ?_, hc⟩
  rw [encodeCp_char, hc, encodeCp, if_pos h, u8_eq rfl]

theorem utf8Head_sound {s p r : Str} (h : utf8Head s = some (p, r)) :
    ∃ c : Char, p = String.utf8EncodeChar c ∧ s = p ++ r := by
  unfold utf8Head at h
  split at h
  · simp at h
  rename_i b r0
  split at h
  · rename_i hb
    simp only [Option.some.injEq, Prod.mk.injEq] at h
    obtain ⟨rfl, rfl⟩ := h
    obtain ⟨c, hc, -⟩ := enc1 hb
    exact ⟨c, hc.symm, rfl⟩
  split at h
  · rename_i hb
    split at h <;> try contradiction
    split at h <;> try contradiction
    rename_i c1 hc1
    simp only [Option.some.injEq, Prod.mk.injEq] at h
    obtain ⟨rfl, rfl⟩ := h
    obtain ⟨c, hc⟩ := enc2 hb hc1
    exact ⟨c, hc.symm, rfl⟩
  have key3 : ∀ {lo hi : UInt8} {c1 c2 : UInt8} {r1 : Str}, 0xE0 ≤ b.toNat ∧ b.toNat ≤ 0xEF →
      (inRange lo hi c1 && isCont c2) = true → 0x80 ≤ lo.toNat → hi.toNat ≤ 0xBF →
      (b.toNat = 0xE0 → 0xA0 ≤ lo.toNat) → (b.toNat = 0xED → hi.toNat ≤ 0x9F) →
      ∃ c : Char, [b, c1, c2] = String.utf8EncodeChar c ∧ b :: c1 :: c2 :: r1 = [b, c1, c2] ++ r1 := by
    intro lo hi c1 c2 r1 hb hc hl hh h1 h2
    simp only [Bool.and_eq_true, inRange_iff, UInt8.le_iff_toNat_le] at hc
    obtain ⟨c, hc⟩ := enc3 (b := b) (c1 := c1) (c2 := c2) hb (by omega) hc.2 (by omega) (by omega)
    exact ⟨c, hc.symm, rfl⟩
  have key4 : ∀ {lo hi : UInt8} {c1 c2 c3 : UInt8} {r1 : Str}, 0xF0 ≤ b.toNat ∧ b.toNat ≤ 0xF4 →
      (inRange lo hi c1 && isCont c2 && isCont c3) = true → 0x80 ≤ lo.toNat → hi.toNat ≤ 0xBF →
      (b.toNat = 0xF0 → 0x90 ≤ lo.toNat) → (b.toNat = 0xF4 → hi.toNat ≤ 0x8F) →
      ∃ c : Char, [b, c1, c2, c3] = String.utf8EncodeChar c ∧
        b :: c1 :: c2 :: c3 :: r1 = [b, c1, c2, c3] ++ r1 := by
    intro lo hi c1 c2 c3 r1 hb hc hl hh h1 h2
    simp only [Bool.and_eq_true, inRange_iff, UInt8.le_iff_toNat_le] at hc
    obtain ⟨c, hc⟩ := enc4 (b := b) (c1 := c1) (c2 := c2) (c3 := c3) hb (by omega) hc.1.2 hc.2
      (by omega) (by omega)
    exact ⟨c, hc.symm, rfl⟩
  have nat : ∀ (n : UInt8), b = n → b.toNat = n.toNat := fun n h => by rw [h]
  split at h
  · rename_i hb
    have hb := nat _ hb
    simp only [UInt8.reduceToNat] at hb
    split at h <;> try contradiction
    split at h <;> try contradiction
    rename_i hc
    simp only [Option.some.injEq, Prod.mk.injEq] at h
    obtain ⟨rfl, rfl⟩ := h
    exact key3 (by omega) hc (by decide) (by decide) (fun _ => by decide) (fun h => by omega)
  split at h
  · rename_i hb
    simp only [Bool.or_eq_true, inRange_iff, UInt8.le_iff_toNat_le, UInt8.reduceToNat] at hb
    split at h <;> try contradiction
    split at h <;> try contradiction
    rename_i hc
    simp only [Option.some.injEq, Prod.mk.injEq] at h
    obtain ⟨rfl, rfl⟩ := h
    exact key3 (by omega) hc (by decide) (by decide) (fun _ => by omega) (fun h => by omega)
  split at h
  · rename_i hb
    have hb := nat _ hb
    simp only [UInt8.reduceToNat] at hb
    split at h <;> try contradiction
    split at h <;> try contradiction
    rename_i hc
    simp only [Option.some.injEq, Prod.mk.injEq] at h
    obtain ⟨rfl, rfl⟩ := h
    exact key3 (by omega) hc (by decide) (by decide) (fun _ => by omega) (fun h => by decide)
  split at h
  · rename_i hb
    have hb := nat _ hb
    simp only [UInt8.reduceToNat] at hb
    split at h <;> try contradiction
    split at h <;> try contradiction
    rename_i hc
    simp only [Option.some.injEq, Prod.mk.injEq] at h
    obtain ⟨rfl, rfl⟩ := h
    exact key4 (by omega) hc (by decide) (by decide) (fun _ => by decide) (fun h => by omega)
  split at h
  · rename_i hb
    simp only [inRange_iff, UInt8.le_iff_toNat_le, UInt8.reduceToNat] at hb
    split at h <;> try contradiction
    split at h <;> try contradiction
    rename_i hc
    simp only [Option.some.injEq, Prod.mk.injEq] at h
    obtain ⟨rfl, rfl⟩ := h
    exact key4 (by omega) hc (by decide) (by decide) (fun _ => by omega) (fun h => by omega)
  split at h
  · rename_i hb
    have hb := nat _ hb
    simp only [UInt8.reduceToNat] at hb
    split at h <;> try contradiction
    split at h <;> try contradiction
    rename_i hc
    simp only [Option.some.injEq, Prod.mk.injEq] at h
    obtain ⟨rfl, rfl⟩ := h
    exact key4 (by omega) hc (by decide) (by decide) (fun _ => by omega) (fun h => by decide)
  · simp at h

theorem inRange_nat (lo hi b : UInt8) :
    inRange lo hi b = decide (lo.toNat ≤ b.toNat ∧ b.toNat ≤ hi.toNat) := by
  rw [Bool.eq_iff_iff, inRange_iff, UInt8.le_iff_toNat_le, UInt8.le_iff_toNat_le,
    decide_eq_true_iff]

theorem isCont_nat (b : UInt8) : isCont b = decide (0x80 ≤ b.toNat ∧ b.toNat ≤ 0xBF) :=
  inRange_nat _ _ _

theorem head2 {b c1 : UInt8} (r : Str) (hb : 0xC2 ≤ b.toNat ∧ b.toNat ≤ 0xDF)
    (h1 : 0x80 ≤ c1.toNat ∧ c1.toNat ≤ 0xBF) :
    utf8Head (b :: c1 :: r) = some ([b, c1], r) := by
  simp only [utf8Head, inRange_nat, isCont_nat, UInt8.lt_iff_toNat_lt, ← UInt8.toNat_inj,
    UInt8.reduceToNat, decide_eq_true_eq, Bool.and_eq_true, Bool.or_eq_true]
  rw [if_neg (by omega), if_pos hb, if_pos h1]

theorem head3 {b c1 c2 : UInt8} (r : Str) (hb : 0xE0 ≤ b.toNat ∧ b.toNat ≤ 0xEF)
    (h1 : 0x80 ≤ c1.toNat ∧ c1.toNat ≤ 0xBF) (h2 : 0x80 ≤ c2.toNat ∧ c2.toNat ≤ 0xBF)
    (hlo : b.toNat = 0xE0 → 0xA0 ≤ c1.toNat) (hhi : b.toNat = 0xED → c1.toNat ≤ 0x9F) :
    utf8Head (b :: c1 :: c2 :: r) = some ([b, c1, c2], r) := by
  simp only [utf8Head, inRange_nat, isCont_nat, UInt8.lt_iff_toNat_lt, ← UInt8.toNat_inj,
    UInt8.reduceToNat, decide_eq_true_eq, Bool.and_eq_true, Bool.or_eq_true]
  rw [if_neg (by omega), if_neg (by omega)]
  by_cases e0 : b.toNat = 0xE0
  · rw [if_pos e0, if_pos (by omega)]
  rw [if_neg e0]
  by_cases e1 : b.toNat = 0xED
  · rw [if_neg (by omega), if_pos e1, if_pos (by omega)]
  · rw [if_pos (by omega), if_pos (by omega)]

theorem head4 {b c1 c2 c3 : UInt8} (r : Str) (hb : 0xF0 ≤ b.toNat ∧ b.toNat ≤ 0xF4)
    (h1 : 0x80 ≤ c1.toNat ∧ c1.toNat ≤ 0xBF) (h2 : 0x80 ≤ c2.toNat ∧ c2.toNat ≤ 0xBF)
    (h3 : 0x80 ≤ c3.toNat ∧ c3.toNat ≤ 0xBF)
    (hlo : b.toNat = 0xF0 → 0x90 ≤ c1.toNat) (hhi : b.toNat = 0xF4 → c1.toNat ≤ 0x8F) :
    utf8Head (b :: c1 :: c2 :: c3 :: r) = some ([b, c1, c2, c3], r) := by
  simp only [utf8Head, inRange_nat, isCont_nat, UInt8.lt_iff_toNat_lt, ← UInt8.toNat_inj,
    UInt8.reduceToNat, decide_eq_true_eq, Bool.and_eq_true, Bool.or_eq_true]
  rw [if_neg (by omega), if_neg (by omega), if_neg (by omega), if_neg (by omega),
    if_neg (by omega)]
  by_cases e0 : b.toNat = 0xF0
  · rw [if_pos e0, if_pos (by omega)]
  rw [if_neg e0]
  by_cases e1 : b.toNat = 0xF4
  · rw [if_neg (by omega), if_pos e1, if_pos (by omega)]
  · rw [if_pos (by omega), if_pos (by omega)]

theorem utf8Head_complete (c : Char) (r : Str) :
    utf8Head (String.utf8EncodeChar c ++ r) = some (String.utf8EncodeChar c, r) := by
  have hr := char_range c
  rw [encodeCp_char]
  generalize c.toNat = v at hr ⊢
  have tn : ∀ n : Nat, n < 256 → (UInt8.ofNat n).toNat = n := fun n h =>
    UInt8.toNat_ofNat_of_lt' h
  unfold encodeCp
  by_cases h1 : v < 0x80
  · rw [if_pos h1]
    simp only [List.cons_append, List.nil_append, utf8Head]
    rw [if_pos (by rw [UInt8.lt_iff_toNat_lt, tn _ (by omega)]; exact h1)]
  rw [if_neg h1]
  by_cases h2 : v ≤ 0x7FF
  · rw [if_pos h2]
    refine head2 r ?_ ?_ <;> rw [tn _ (by omega)] <;> omega
  rw [if_neg h2]
  by_cases h3 : v ≤ 0xFFFF
  · rw [if_pos h3]
    have e0 := tn (0xE0 + v / 4096) (by omega)
    have e1 := tn (0x80 + v / 64 % 64) (by omega)
    have e2 := tn (0x80 + v % 64) (by omega)
    refine head3 r ?_ ?_ ?_ ?_ ?_ <;> omega
  rw [if_neg h3]
  have e0 := tn (0xF0 + v / 262144) (by omega)
  have e1 := tn (0x80 + v / 4096 % 64) (by omega)
  have e2 := tn (0x80 + v / 64 % 64) (by omega)
  have e3 := tn (0x80 + v % 64) (by omega)
  refine head4 r ?_ ?_ ?_ ?_ ?_ ?_ <;> omega

theorem utf8Head_iff {s p r : Str} :
    utf8Head s = some (p, r) ↔ ∃ c : Char, p = String.utf8EncodeChar c ∧ s = p ++ r := by
  constructor
  · exact utf8Head_sound
  · rintro ⟨c, rfl, rfl⟩; exact utf8Head_complete c r

theorem validUtf8_head (b : UInt8) (r : Str) :
    validUtf8 (b :: r) =
      match utf8Head (b :: r) with
      | some (_, r') => validUtf8 r'
      | none => false := by
  rw [validUtf8.eq_def]
  unfold utf8Head
  simp only
  repeat' split
  all_goals simp_all

theorem utf8EncodeChar_ne_nil (c : Char) : String.utf8EncodeChar c ≠ [] := by
  rw [encodeCp_char]
  unfold encodeCp
  repeat' split
  all_goals simp

/-- The strings the serializer accepts are exactly the encodings of character sequences. -/
theorem validUtf8_iff (s : Str) :
    validUtf8 s = true ↔ ∃ cs : List Char, s = cs.flatMap String.utf8EncodeChar := by
  constructor
  · suffices h : ∀ n, ∀ s : Str, s.length ≤ n → validUtf8 s = true →
        ∃ cs : List Char, s = cs.flatMap String.utf8EncodeChar from h _ s (Nat.le_refl _)
    intro n
    induction n with
    | zero =>
      intro s hs _
      have := List.length_eq_zero_iff.1 (Nat.le_zero.1 hs)
      exact ⟨[], this⟩
    | succ n ih =>
      intro s hs h
      cases s with
      | nil => exact ⟨[], rfl⟩
      | cons b s =>
        rw [validUtf8_head] at h
        split at h
        · rename_i p r' hp
          obtain ⟨c, rfl, e⟩ := utf8Head_iff.1 hp
          have hl : 0 < (String.utf8EncodeChar c).length :=
            List.length_pos_iff.2 (utf8EncodeChar_ne_nil c)
          have hlen := congrArg List.length e
          rw [List.length_append] at hlen
          obtain ⟨cs, rfl⟩ := ih r' (by omega) h
          exact ⟨c :: cs, e⟩
        · contradiction
  · rintro ⟨cs, rfl⟩
    induction cs with
    | nil => rw [validUtf8.eq_def]; rfl
    | cons c cs ih =>
      rw [List.flatMap_cons]
      have h := utf8Head_complete c (cs.flatMap String.utf8EncodeChar)
      cases he : String.utf8EncodeChar c with
      | nil => exact absurd he (utf8EncodeChar_ne_nil c)
      | cons b t =>
        rw [he, List.cons_append] at h
        rw [List.cons_append, validUtf8_head, h]
        exact ih

end Verif.Json
