import Verif.Generator.MsgpackLemmas

/-!
# The MessagePack format, and which blobs are accepted (C36)

The tables and rules are those of the MessagePack specification (formats), written without
reference to the decoder.
-/

namespace Verif.Generator
open Verif

/-- The number `n` in `k` bytes, most significant first. -/
def Len (k n : Nat) (w : Blob) : Prop := w.length = k ∧ beNat w = n

/-- The formats of strings. -/
inductive StrFormat : Blob → Str → Prop where
  | fixstr {b s} (h : b.toNat = 0xA0 + s.length) (small : s.length < 32) : StrFormat (b :: s) s
  | str8 {w s} (h : Len 1 s.length w) : StrFormat (0xD9 :: (w ++ s)) s
  | str16 {w s} (h : Len 2 s.length w) : StrFormat (0xDA :: (w ++ s)) s
  | str32 {w s} (h : Len 4 s.length w) : StrFormat (0xDB :: (w ++ s)) s

/-- The heads of arrays. -/
inductive ArrayHead : Blob → Nat → Prop where
  | fixarray {b n} (h : b.toNat = 0x90 + n) (small : n < 16) : ArrayHead [b] n
  | array16 {w n} (h : Len 2 n w) : ArrayHead (0xDC :: w) n
  | array32 {w n} (h : Len 4 n w) : ArrayHead (0xDD :: w) n

/-- The heads of maps. -/
inductive MapHead : Blob → Nat → Prop where
  | fixmap {b n} (h : b.toNat = 0x80 + n) (small : n < 16) : MapHead [b] n
  | map16 {w n} (h : Len 2 n w) : MapHead (0xDE :: w) n
  | map32 {w n} (h : Len 4 n w) : MapHead (0xDF :: w) n

/-- Formats with a fixed number of bytes after the first one: nil, false, true, float 32 and 64,
uint 8 to 64, int 8 to 64, fixext 1 to 16 (with the byte for the type). -/
def fixedFormats : List (UInt8 × Nat) :=
  [(0xC0, 0), (0xC2, 0), (0xC3, 0), (0xCA, 4), (0xCB, 8),
   (0xCC, 1), (0xCD, 2), (0xCE, 4), (0xCF, 8), (0xD0, 1), (0xD1, 2), (0xD2, 4), (0xD3, 8),
   (0xD4, 2), (0xD5, 3), (0xD6, 5), (0xD7, 9), (0xD8, 17)]

/-- Formats with a length of so many bytes, so many further bytes and data: bin 8, 16, 32 and
ext 8, 16, 32. -/
def sizedFormats : List (UInt8 × Nat × Nat) :=
  [(0xC4, 1, 0), (0xC5, 2, 0), (0xC6, 4, 0), (0xC7, 1, 1), (0xC8, 2, 1), (0xC9, 4, 1)]

mutual

/-- The bytes of a value. -/
inductive Value : Blob → Msg → Prop where
  | positive {b} (h : b.toNat < 0x80) : Value [b] .other
  | negative {b} (h : 0xE0 ≤ b.toNat) : Value [b] .other
  | fixed {b n d} (h : (b, n) ∈ fixedFormats) (len : d.length = n) : Value (b :: d) .other
  | sized {b k e n w d} (h : (b, k, e) ∈ sizedFormats) (hl : Len k n w) (len : d.length = n + e) :
      Value (b :: (w ++ d)) .other
  | str {w s} (h : StrFormat w s) : Value w (.str s)
  | array {w n v l} (h : ArrayHead w n) (hi : Items n v l) : Value (w ++ v) (.arr l)
  | map {w n v} (h : MapHead w n) (hf : Fields n v) : Value (w ++ v) .other

/-- The bytes of so many values; the list is there when all are strings. -/
inductive Items : Nat → Blob → Option (List Str) → Prop where
  | nil : Items 0 [] (some [])
  | cons {n w v m l} (h : Value w m) (t : Items n v l) : Items (n + 1) (w ++ v) (m.cons l)

/-- The bytes of so many pairs of a string and a value. -/
inductive Fields : Nat → Blob → Prop where
  | nil : Fields 0 []
  | cons {n k s w m v} (hk : StrFormat k s) (h : Value w m) (t : Fields n v) :
      Fields (n + 1) (k ++ (w ++ v))

end

/-! ## What is decoded is in the format -/

theorem takeN_iff {n : Nat} {l a r : Blob} : takeN n l = .done a r ↔ l = a ++ r ∧ a.length = n := by
  constructor
  · intro h
    simp only [takeN] at h
    split at h
    · rename_i hn
      simp only [Res.done.injEq] at h
      obtain ⟨rfl, rfl⟩ := h
      exact ⟨(List.take_append_drop n l).symm, by simp [hn]⟩
    · cases h
  · rintro ⟨rfl, rfl⟩
    exact takeN_append a r

theorem takeLen_iff {k n : Nat} {l r : Blob} :
    takeLen k l = .done n r ↔ ∃ w, l = w ++ r ∧ Len k n w := by
  constructor
  · intro h
    simp only [takeLen] at h
    split at h
    · rename_i w r' e
      simp only [Res.done.injEq] at h
      obtain ⟨rfl, rfl⟩ := h
      obtain ⟨e1, e2⟩ := takeN_iff.1 e
      exact ⟨w, e1, e2, rfl⟩
    · cases h
  · rintro ⟨w, rfl, rfl, rfl⟩
    rw [takeLen, takeN_append]

theorem takeStr_iff {k : Nat} {l r : Blob} {s : Str} :
    takeStr k l = .done s r ↔ ∃ w, l = w ++ (s ++ r) ∧ Len k s.length w := by
  constructor
  · intro h
    simp only [takeStr] at h
    split at h
    · rename_i n r' e
      obtain ⟨w, rfl, hw⟩ := takeLen_iff.1 e
      obtain ⟨rfl, rfl⟩ := takeN_iff.1 h
      exact ⟨w, rfl, hw⟩
    · cases h
  · rintro ⟨w, rfl, hw⟩
    rw [takeStr, takeLen_iff.2 ⟨w, rfl, hw⟩]
    exact takeN_append s r

theorem skip_iff {n : Nat} {l r : Blob} {m : Msg} :
    skip n l = .done m r ↔ m = .other ∧ ∃ d, l = d ++ r ∧ d.length = n := by
  constructor
  · intro h
    simp only [skip] at h
    split at h
    · rename_i d r' e
      simp only [Res.done.injEq] at h
      obtain ⟨rfl, rfl⟩ := h
      exact ⟨rfl, d, takeN_iff.1 e⟩
    · cases h
  · rintro ⟨rfl, d, h⟩
    rw [skip, takeN_iff.2 h]

theorem skipLen_iff {k e : Nat} {l r : Blob} {m : Msg} :
    skipLen k e l = .done m r ↔
      m = .other ∧ ∃ w n d, l = w ++ (d ++ r) ∧ Len k n w ∧ d.length = n + e := by
  constructor
  · intro h
    simp only [skipLen] at h
    split at h
    · rename_i n r' e'
      obtain ⟨w, rfl, hw⟩ := takeLen_iff.1 e'
      obtain ⟨h1, d, rfl, h2⟩ := skip_iff.1 h
      exact ⟨h1, w, n, d, rfl, hw, h2⟩
    · cases h
  · rintro ⟨rfl, w, n, d, rfl, hw, h2⟩
    rw [skipLen, takeLen_iff.2 ⟨w, rfl, hw⟩]
    exact skip_iff.2 ⟨rfl, d, rfl, h2⟩

theorem key_iff {l r : Blob} {s : Str} :
    key l = .done s r ↔ ∃ w, l = w ++ r ∧ StrFormat w s := by
  constructor
  · intro h
    cases l with
    | nil => cases h
    | cons b l =>
      simp only [key] at h
      split at h
      · rename_i hb
        obtain ⟨rfl, hs⟩ := takeN_iff.1 h
        simp only [UInt8.le_iff_toNat_le] at hb
        have e1 : (0xA0 : UInt8).toNat = 0xA0 := rfl
        have e2 : (0xBF : UInt8).toNat = 0xBF := rfl
        exact ⟨b :: s, rfl, .fixstr (by omega) (by omega)⟩
      · split at h
        · rename_i hb; subst hb
          obtain ⟨w, rfl, hw⟩ := takeStr_iff.1 h
          exact ⟨0xD9 :: (w ++ s), by simp, .str8 hw⟩
        · split at h
          · rename_i hb; subst hb
            obtain ⟨w, rfl, hw⟩ := takeStr_iff.1 h
            exact ⟨0xDA :: (w ++ s), by simp, .str16 hw⟩
          · split at h
            · rename_i hb; subst hb
              obtain ⟨w, rfl, hw⟩ := takeStr_iff.1 h
              exact ⟨0xDB :: (w ++ s), by simp, .str32 hw⟩
            · cases h
  · rintro ⟨w, rfl, hw⟩
    cases hw with
    | fixstr h small =>
      rename_i b
      have h1 : (0xA0 : UInt8) ≤ b ∧ b ≤ 0xBF := by
        simp only [UInt8.le_iff_toNat_le]
        have e1 : (0xA0 : UInt8).toNat = 0xA0 := rfl
        have e2 : (0xBF : UInt8).toNat = 0xBF := rfl
        omega
      simp only [List.cons_append, key, if_pos h1]
      exact takeN_iff.2 ⟨rfl, by omega⟩
    | str8 h =>
      simp only [List.cons_append, key]
      rw [if_neg (by decide), if_true]
      exact takeStr_iff.2 ⟨_, by simp, h⟩
    | str16 h =>
      simp only [List.cons_append, key]
      rw [if_neg (by decide), if_neg (by decide), if_true]
      exact takeStr_iff.2 ⟨_, by simp, h⟩
    | str32 h =>
      simp only [List.cons_append, key]
      rw [if_neg (by decide), if_neg (by decide), if_neg (by decide), if_true]
      exact takeStr_iff.2 ⟨_, by simp, h⟩

theorem value_skip {b : UInt8} {n : Nat} {l r : Blob} {m : Msg} (h : skip n l = .done m r)
    (hb : (b, n) ∈ fixedFormats) : ∃ w, b :: l = w ++ r ∧ Value w m := by
  obtain ⟨rfl, d, rfl, hd⟩ := skip_iff.1 h
  exact ⟨b :: d, rfl, .fixed hb hd⟩

theorem value_skipLen {b : UInt8} {k e : Nat} {l r : Blob} {m : Msg} (h : skipLen k e l = .done m r)
    (hb : (b, k, e) ∈ sizedFormats) : ∃ w, b :: l = w ++ r ∧ Value w m := by
  obtain ⟨rfl, w, n, d, rfl, hw, hd⟩ := skipLen_iff.1 h
  exact ⟨b :: (w ++ d), by simp, .sized hb hw hd⟩

theorem ite_cases {α : Sort _} {p : Prop} [Decidable p] {x y z : α} (h : (if p then x else y) = z) :
    (p ∧ x = z) ∨ (¬ p ∧ y = z) := by
  split at h
  · rename_i hp; exact .inl ⟨hp, h⟩
  · rename_i hp; exact .inr ⟨hp, h⟩

theorem decoded : ∀ f : Nat,
    (∀ bs m r, decode f bs = .done m r → ∃ w, bs = w ++ r ∧ Value w m) ∧
    (∀ n bs l r, items f n bs = .done l r → ∃ w, bs = w ++ r ∧ Items n w l) ∧
    (∀ n bs m r, fields f n bs = .done m r → m = .other ∧ ∃ w, bs = w ++ r ∧ Fields n w) := by
  intro f
  induction f with
  | zero =>
    refine ⟨?_, ?_, ?_⟩ <;> intros <;> simp_all [decode, items, fields]
  | succ f ih =>
    obtain ⟨ihd, ihi, ihf⟩ := ih
    refine ⟨?_, ?_, ?_⟩
    · intro bs m r h
      cases bs with
      | nil => cases h
      | cons b bs =>
        have harr : ∀ {w : Blob} {n : Nat} {r' : Blob}, arrOf (items f n r') = .done m r →
            ArrayHead w n → ∃ w', w ++ r' = w' ++ r ∧ Value w' m := by
          intro w n r' h hw
          obtain ⟨l, hl⟩ := arrOf_done h
          rw [hl] at h
          cases h
          obtain ⟨v, rfl, hv⟩ := ihi _ _ _ _ hl
          exact ⟨w ++ v, by simp, .array hw hv⟩
        have hmap : ∀ {w : Blob} {n : Nat} {r' : Blob}, fields f n r' = .done m r →
            MapHead w n → ∃ w', w ++ r' = w' ++ r ∧ Value w' m := by
          intro w n r' h hw
          obtain ⟨rfl, v, rfl, hv⟩ := ihf _ _ _ _ h
          exact ⟨w ++ v, by simp, .map hw hv⟩
        have e7F : (0x7F : UInt8).toNat = 0x7F := rfl
        have e8F : (0x8F : UInt8).toNat = 0x8F := rfl
        have e9F : (0x9F : UInt8).toNat = 0x9F := rfl
        have eBF : (0xBF : UInt8).toNat = 0xBF := rfl
        rw [decode] at h
        by_cases c1 : b ≤ 0x7F
        · rw [if_pos c1] at h
          cases h
          rw [UInt8.le_iff_toNat_le] at c1
          exact ⟨[b], rfl, .positive (by omega)⟩
        rw [if_neg c1, UInt8.le_iff_toNat_le] at *
        by_cases c2 : b ≤ 0x8F
        · rw [if_pos c2] at h
          rw [UInt8.le_iff_toNat_le] at c2
          exact hmap (w := [b]) h (.fixmap (by omega) (by omega))
        rw [if_neg c2, UInt8.le_iff_toNat_le] at *
        by_cases c3 : b ≤ 0x9F
        · rw [if_pos c3] at h
          rw [UInt8.le_iff_toNat_le] at c3
          exact harr (w := [b]) h (.fixarray (by omega) (by omega))
        rw [if_neg c3, UInt8.le_iff_toNat_le] at *
        by_cases c4 : b ≤ 0xBF ∨ b = 0xD9 ∨ b = 0xDA ∨ b = 0xDB
        · rw [if_pos c4] at h
          split at h
          · rename_i s r' e
            cases h
            obtain ⟨w, e, hw⟩ := key_iff.1 e
            exact ⟨w, e, .str hw⟩
          · cases h
        rw [if_neg c4] at h
        rcases ite_cases h with ⟨c, h⟩ | ⟨d1, h⟩
        · rcases c with rfl | rfl | rfl <;> cases h <;> exact ⟨[_], rfl, .fixed (d := []) (by decide) rfl⟩
        rcases ite_cases h with ⟨c, h⟩ | ⟨d2, h⟩
        · cases h
        rcases ite_cases h with ⟨c, h⟩ | ⟨d3, h⟩
        · subst c; exact value_skipLen h (by decide)
        rcases ite_cases h with ⟨c, h⟩ | ⟨d4, h⟩
        · subst c; exact value_skipLen h (by decide)
        rcases ite_cases h with ⟨c, h⟩ | ⟨d5, h⟩
        · subst c; exact value_skipLen h (by decide)
        rcases ite_cases h with ⟨c, h⟩ | ⟨d6, h⟩
        · subst c; exact value_skipLen h (by decide)
        rcases ite_cases h with ⟨c, h⟩ | ⟨d7, h⟩
        · subst c; exact value_skipLen h (by decide)
        rcases ite_cases h with ⟨c, h⟩ | ⟨d8, h⟩
        · subst c; exact value_skipLen h (by decide)
        rcases ite_cases h with ⟨c, h⟩ | ⟨d9, h⟩
        · subst c; exact value_skip h (by decide)
        rcases ite_cases h with ⟨c, h⟩ | ⟨d10, h⟩
        · subst c; exact value_skip h (by decide)
        rcases ite_cases h with ⟨c, h⟩ | ⟨d11, h⟩
        · rcases c with rfl | rfl <;> exact value_skip h (by decide)
        rcases ite_cases h with ⟨c, h⟩ | ⟨d12, h⟩
        · rcases c with rfl | rfl <;> exact value_skip h (by decide)
        rcases ite_cases h with ⟨c, h⟩ | ⟨d13, h⟩
        · rcases c with rfl | rfl <;> exact value_skip h (by decide)
        rcases ite_cases h with ⟨c, h⟩ | ⟨d14, h⟩
        · rcases c with rfl | rfl <;> exact value_skip h (by decide)
        rcases ite_cases h with ⟨c, h⟩ | ⟨d15, h⟩
        · subst c; exact value_skip h (by decide)
        rcases ite_cases h with ⟨c, h⟩ | ⟨d16, h⟩
        · subst c; exact value_skip h (by decide)
        rcases ite_cases h with ⟨c, h⟩ | ⟨d17, h⟩
        · subst c; exact value_skip h (by decide)
        rcases ite_cases h with ⟨c, h⟩ | ⟨d18, h⟩
        · subst c; exact value_skip h (by decide)
        rcases ite_cases h with ⟨c, h⟩ | ⟨d19, h⟩
        · subst c; exact value_skip h (by decide)
        rcases ite_cases h with ⟨c, h⟩ | ⟨d20, h⟩
        · subst c
          cases e : takeLen 2 bs with
          | bad => rw [e] at h; cases h
          | fuel => rw [e] at h; cases h
          | done n r' =>
            rw [e] at h
            obtain ⟨w, rfl, hw⟩ := takeLen_iff.1 e
            exact harr (w := 0xDC :: w) h (.array16 hw)
        rcases ite_cases h with ⟨c, h⟩ | ⟨d21, h⟩
        · subst c
          cases e : takeLen 4 bs with
          | bad => rw [e] at h; cases h
          | fuel => rw [e] at h; cases h
          | done n r' =>
            rw [e] at h
            obtain ⟨w, rfl, hw⟩ := takeLen_iff.1 e
            exact harr (w := 0xDD :: w) h (.array32 hw)
        rcases ite_cases h with ⟨c, h⟩ | ⟨d22, h⟩
        · subst c
          cases e : takeLen 2 bs with
          | bad => rw [e] at h; cases h
          | fuel => rw [e] at h; cases h
          | done n r' =>
            rw [e] at h
            obtain ⟨w, rfl, hw⟩ := takeLen_iff.1 e
            exact hmap (w := 0xDE :: w) h (.map16 hw)
        rcases ite_cases h with ⟨c, h⟩ | ⟨d23, h⟩
        · subst c
          cases e : takeLen 4 bs with
          | bad => rw [e] at h; cases h
          | fuel => rw [e] at h; cases h
          | done n r' =>
            rw [e] at h
            obtain ⟨w, rfl, hw⟩ := takeLen_iff.1 e
            exact hmap (w := 0xDF :: w) h (.map32 hw)
        cases h
        refine ⟨[b], rfl, .negative ?_⟩
        simp only [← UInt8.toNat_inj, not_or, UInt8.le_iff_toNat_le, Nat.not_le, eBF] at c4 d1 d2 d3 d4 d5 d6 d7 d8 d9 d10 d11 d12 d13 d14 d15 d16 d17 d18 d19 d20 d21 d22 d23
        simp only [UInt8.reduceToNat] at *
        omega
    · intro n bs l r h
      cases n with
      | zero => cases h; exact ⟨[], rfl, .nil⟩
      | succ n =>
        simp only [items] at h
        split at h
        · cases h
        · cases h
        · rename_i m r' hm
          split at h
          · cases h
          · cases h
          · rename_i l' r'' hl
            cases h
            obtain ⟨w, rfl, hw⟩ := ihd _ _ _ hm
            obtain ⟨v, rfl, hv⟩ := ihi _ _ _ _ hl
            exact ⟨w ++ v, by simp, .cons hw hv⟩
    · intro n bs m r h
      cases n with
      | zero => cases h; exact ⟨rfl, [], rfl, .nil⟩
      | succ n =>
        simp only [fields] at h
        split at h
        · cases h
        · cases h
        · rename_i s r' hs
          split at h
          · cases h
          · cases h
          · rename_i m' r'' hm
            obtain ⟨k, rfl, hk⟩ := key_iff.1 hs
            obtain ⟨w, rfl, hw⟩ := ihd _ _ _ hm
            obtain ⟨rfl, v, rfl, hv⟩ := ihf _ _ _ _ h
            exact ⟨rfl, k ++ (w ++ v), by simp, .cons hk hw hv⟩

/-! ## What is in the format is decoded -/

theorem StrFormat.length {w : Blob} {s : Str} (h : StrFormat w s) : 0 < w.length := by
  cases h <;> simp

theorem ArrayHead.length {w : Blob} {n : Nat} (h : ArrayHead w n) : 0 < w.length := by
  cases h <;> simp

theorem MapHead.length {w : Blob} {n : Nat} (h : MapHead w n) : 0 < w.length := by
  cases h <;> simp

theorem Value.length {w : Blob} {m : Msg} (h : Value w m) : 0 < w.length := by
  cases h with
  | str h => exact h.length
  | array h _ => have := h.length; simp only [List.length_append]; omega
  | map h _ => have := h.length; simp only [List.length_append]; omega
  | _ => simp

theorem decode_arrayHead {w : Blob} {n : Nat} (h : ArrayHead w n) (f : Nat) (r : Blob) :
    decode (f + 1) (w ++ r) = arrOf (items f n r) := by
  cases h with
  | fixarray h small =>
    rename_i b
    have g1 : ¬ b ≤ 0x7F := by rw [UInt8.le_iff_toNat_le, h]; simp; omega
    have g2 : ¬ b ≤ 0x8F := by rw [UInt8.le_iff_toNat_le, h]; simp; omega
    have g3 : b ≤ 0x9F := by rw [UInt8.le_iff_toNat_le, h]; simp; omega
    simp only [List.cons_append, List.nil_append, decode, g1, g2, g3, if_false, if_true, h]
    rw [show 0x90 + n - 0x90 = n by omega]
  | array16 h =>
    rw [List.cons_append, decode, takeLen_iff.2 ⟨_, rfl, h⟩]
    simp
  | array32 h =>
    rw [List.cons_append, decode, takeLen_iff.2 ⟨_, rfl, h⟩]
    simp

theorem decode_mapHead {w : Blob} {n : Nat} (h : MapHead w n) (f : Nat) (r : Blob) :
    decode (f + 1) (w ++ r) = fields f n r := by
  cases h with
  | fixmap h small =>
    rename_i b
    have g1 : ¬ b ≤ 0x7F := by rw [UInt8.le_iff_toNat_le, h]; simp; omega
    have g2 : b ≤ 0x8F := by rw [UInt8.le_iff_toNat_le, h]; simp; omega
    simp only [List.cons_append, List.nil_append, decode, g1, g2, if_false, if_true, h]
    rw [show 0x80 + n - 0x80 = n by omega]
  | map16 h =>
    rw [List.cons_append, decode, takeLen_iff.2 ⟨_, rfl, h⟩]
    simp
  | map32 h =>
    rw [List.cons_append, decode, takeLen_iff.2 ⟨_, rfl, h⟩]
    simp

theorem decode_strFormat {w : Blob} {s : Str} (h : StrFormat w s) (f : Nat) (r : Blob) :
    decode (f + 1) (w ++ r) = .done (.str s) r := by
  have hk : key (w ++ r) = .done s r := key_iff.2 ⟨w, rfl, h⟩
  cases h with
  | fixstr h small =>
    rename_i b
    have g1 : ¬ b ≤ 0x7F := by rw [UInt8.le_iff_toNat_le, h]; simp; omega
    have g2 : ¬ b ≤ 0x8F := by rw [UInt8.le_iff_toNat_le, h]; simp; omega
    have g3 : ¬ b ≤ 0x9F := by rw [UInt8.le_iff_toNat_le, h]; simp; omega
    have g4 : b ≤ 0xBF := by rw [UInt8.le_iff_toNat_le, h]; simp; omega
    rw [List.cons_append] at hk ⊢
    simp only [decode, g1, g2, g3, g4, if_false, if_true, true_or, hk]
  | str8 h => rw [List.cons_append] at hk ⊢; rw [List.append_assoc] at hk; simp [decode, hk]
  | str16 h => rw [List.cons_append] at hk ⊢; rw [List.append_assoc] at hk; simp [decode, hk]
  | str32 h => rw [List.cons_append] at hk ⊢; rw [List.append_assoc] at hk; simp [decode, hk]

theorem decode_fixed {b : UInt8} {n : Nat} {d : Blob} (h : (b, n) ∈ fixedFormats)
    (len : d.length = n) (f : Nat) (r : Blob) : decode (f + 1) (b :: d ++ r) = .done .other r := by
  have hs : skip n (d ++ r) = .done .other r := skip_iff.2 ⟨rfl, d, rfl, len⟩
  simp only [fixedFormats, List.mem_cons, Prod.mk.injEq, List.not_mem_nil, or_false] at h
  rcases h with ⟨rfl, rfl⟩ | ⟨rfl, rfl⟩ | ⟨rfl, rfl⟩ | ⟨rfl, rfl⟩ | ⟨rfl, rfl⟩ | ⟨rfl, rfl⟩ |
    ⟨rfl, rfl⟩ | ⟨rfl, rfl⟩ | ⟨rfl, rfl⟩ | ⟨rfl, rfl⟩ | ⟨rfl, rfl⟩ | ⟨rfl, rfl⟩ | ⟨rfl, rfl⟩ |
    ⟨rfl, rfl⟩ | ⟨rfl, rfl⟩ | ⟨rfl, rfl⟩ | ⟨rfl, rfl⟩ | ⟨rfl, rfl⟩
  case inl | inr.inl | inr.inr.inl =>
    rw [List.length_eq_zero_iff] at len
    subst len
    simp [decode]
  all_goals
    rw [List.cons_append, decode]
    simpa using hs

theorem decode_sized {b : UInt8} {k e n : Nat} {w d : Blob} (h : (b, k, e) ∈ sizedFormats)
    (hl : Len k n w) (len : d.length = n + e) (f : Nat) (r : Blob) :
    decode (f + 1) (b :: (w ++ d) ++ r) = .done .other r := by
  have hs : skipLen k e (w ++ d ++ r) = .done .other r :=
    skipLen_iff.2 ⟨rfl, w, n, d, by simp, hl, len⟩
  simp only [sizedFormats, List.mem_cons, Prod.mk.injEq, List.not_mem_nil, or_false] at h
  rcases h with ⟨rfl, rfl, rfl⟩ | ⟨rfl, rfl, rfl⟩ | ⟨rfl, rfl, rfl⟩ | ⟨rfl, rfl, rfl⟩ |
    ⟨rfl, rfl, rfl⟩ | ⟨rfl, rfl, rfl⟩
  all_goals
    rw [List.cons_append, decode]
    simp only [List.append_assoc] at hs ⊢
    simpa using hs

theorem decode_negative {b : UInt8} (h : 0xE0 ≤ b.toNat) (f : Nat) (r : Blob) :
    decode (f + 1) (b :: r) = .done .other r := by
  have ne : ∀ n : UInt8, n.toNat < 0xE0 → ¬ b = n := by rintro n hn rfl; omega
  have le : ∀ n : UInt8, n.toNat < 0xE0 → ¬ b ≤ n := by
    intro n hn; rw [UInt8.le_iff_toNat_le]; omega
  rw [decode]
  simp [ne, le]

mutual

theorem value_decoded : ∀ {w : Blob} {m : Msg}, Value w m → ∀ (f : Nat) (r : Blob),
    2 * w.length + 1 ≤ f → decode f (w ++ r) = .done m r
  | _, _, .positive (b := b) h, f + 1, r, _ => by
    have : b ≤ 0x7F := by rw [UInt8.le_iff_toNat_le]; simp; omega
    simp [decode, this]
  | _, _, .negative h, f + 1, r, _ => decode_negative h f r
  | _, _, .fixed h len, f + 1, r, _ => decode_fixed h len f r
  | _, _, .sized h hl len, f + 1, r, _ => decode_sized h hl len f r
  | _, _, .str h, f + 1, r, _ => decode_strFormat h f r
  | _, _, .array (w := w) (v := v) h hi, f + 1, r, hf => by
    have := h.length
    simp only [List.length_append] at hf
    rw [List.append_assoc, decode_arrayHead h, items_decoded hi f r (by omega)]
    rfl
  | _, _, .map (w := w) (v := v) h hm, f + 1, r, hf => by
    have := h.length
    simp only [List.length_append] at hf
    rw [List.append_assoc, decode_mapHead h, fields_decoded hm f r (by omega)]

theorem items_decoded : ∀ {n : Nat} {w : Blob} {l : Option (List Str)}, Items n w l →
    ∀ (f : Nat) (r : Blob), 2 * w.length + 2 ≤ f → items f n (w ++ r) = .done l r
  | _, _, _, .nil, f + 1, r, _ => by simp [items]
  | _, _, _, .cons (w := w) (v := v) h t, f + 1, r, hf => by
    have := h.length
    simp only [List.length_append] at hf
    rw [List.append_assoc, items, value_decoded h f _ (by omega)]
    simp only
    rw [items_decoded t f r (by omega)]

theorem fields_decoded : ∀ {n : Nat} {w : Blob}, Fields n w →
    ∀ (f : Nat) (r : Blob), 2 * w.length + 2 ≤ f → fields f n (w ++ r) = .done .other r
  | _, _, .nil, f + 1, r, _ => by simp [fields]
  | _, _, .cons (k := k) (w := w) (v := v) hk h t, f + 1, r, hf => by
    have := hk.length
    have := h.length
    simp only [List.length_append] at hf
    rw [List.append_assoc, fields, key_iff.2 ⟨_, rfl, hk⟩]
    simp only
    rw [List.append_assoc, value_decoded h f _ (by omega)]
    simp only
    rw [fields_decoded t f r (by omega)]

end

/-! ## The property -/

/-- C36: a blob is accepted exactly if it is one value in the MessagePack format and nothing
else; the value is unique. -/
theorem C36_accepted (b : Blob) (m : Msg) : parse b = some m ↔ Value b m := by
  constructor
  · intro h
    rw [parse] at h
    split at h
    · rename_i m' e
      cases h
      obtain ⟨w, e, hw⟩ := (decoded _).1 _ _ _ e
      rw [List.append_nil] at e
      rw [e]
      exact hw
    · cases h
  · intro h
    have := value_decoded h (2 * b.length + 1) [] (Nat.le_refl _)
    rw [List.append_nil] at this
    rw [parse, this]

/-- C36: verification passes exactly for the MessagePack format, and the data are those of an
array of strings. -/
theorem C36_verify (data : List Str) (b : Blob) :
    ((typedHandler data).verify b = true ↔ ∃ m, Value b m) ∧
    ∀ l, deserialize b = some l ↔ Value b (.arr (some l)) := by
  constructor
  · simp only [typedHandler, Option.isSome_iff_exists, C36_accepted]
  · intro l
    rw [← C36_accepted, deserialize]
    constructor
    · intro h
      split at h
      · rename_i e; cases h; exact e
      · cases h
    · intro h; rw [h]

/-- An array with a map in it, which is not a list of strings, and a list of two strings. -/
example : Value [0x92, 0xA1, 0x61, 0x81, 0xA1, 0x62, 0xC3] (.arr none) ∧
    Value [0xDC, 0, 2, 0xD9, 1, 0x61, 0xA0] (.arr (some [b!"a", b!""])) := by
  simp only [← C36_accepted]
  decide +kernel

end Verif.Generator
