import Verif.Generator.Msgpack

/-! # Lemmas about MessagePack blobs -/

namespace Verif.Generator
open Verif

/-! ## The fuel suffices -/

theorem takeN_rest {n : Nat} {l a r : Blob} (h : takeN n l = .done a r) : r.length ≤ l.length := by
  simp only [takeN] at h
  split at h
  · simp only [Res.done.injEq] at h
    rw [← h.2]; simp
  · simp at h

theorem takeLen_rest {k n : Nat} {l r : Blob} (h : takeLen k l = .done n r) :
    r.length ≤ l.length := by
  simp only [takeLen] at h
  split at h
  · rename_i b r' e
    simp only [Res.done.injEq] at h
    rw [← h.2]; exact takeN_rest e
  · simp at h

theorem takeStr_rest {k : Nat} {s : Str} {l r : Blob} (h : takeStr k l = .done s r) :
    r.length ≤ l.length := by
  simp only [takeStr] at h
  split at h
  · rename_i n r' e
    exact Nat.le_trans (takeN_rest h) (takeLen_rest e)
  · simp at h

theorem key_rest {s : Str} {l r : Blob} (h : key l = .done s r) : r.length < l.length := by
  cases l with
  | nil => simp [key] at h
  | cons b l =>
    simp only [key] at h
    simp only [List.length_cons]
    split at h
    · have := takeN_rest h; omega
    · split at h
      · have := takeStr_rest h; omega
      · split at h
        · have := takeStr_rest h; omega
        · split at h
          · have := takeStr_rest h; omega
          · simp at h

theorem skip_rest {n : Nat} {m : Msg} {l r : Blob} (h : skip n l = .done m r) :
    r.length ≤ l.length := by
  simp only [skip] at h
  split at h
  · rename_i a r' e
    simp only [Res.done.injEq] at h
    rw [← h.2]; exact takeN_rest e
  · simp at h

theorem skipLen_rest {k e : Nat} {m : Msg} {l r : Blob} (h : skipLen k e l = .done m r) :
    r.length ≤ l.length := by
  simp only [skipLen] at h
  split at h
  · rename_i n r' e
    exact Nat.le_trans (skip_rest h) (takeLen_rest e)
  · simp at h

theorem takeN_fuel (n : Nat) (l : Blob) : takeN n l ≠ .fuel := by
  simp only [takeN]; split <;> simp
theorem takeStr_fuel (n : Nat) (l : Blob) : takeStr n l ≠ .fuel := by
  simp only [takeStr]; split
  · exact takeN_fuel _ _
  · simp
theorem skip_fuel (n : Nat) (l : Blob) : skip n l ≠ .fuel := by
  simp only [skip]; split <;> simp
theorem skipLen_fuel (n e : Nat) (l : Blob) : skipLen n e l ≠ .fuel := by
  simp only [skipLen]; split
  · exact skip_fuel _ _
  · simp
theorem key_fuel (l : Blob) : key l ≠ .fuel := by
  cases l with
  | nil => simp [key]
  | cons b l =>
    simp only [key]
    split
    · exact takeN_fuel _ _
    · split
      · exact takeStr_fuel _ _
      · split
        · exact takeStr_fuel _ _
        · split
          · exact takeStr_fuel _ _
          · simp

theorem arrOf_done {x : Res (Option (List Str))} {m : Msg} {r : Blob} (h : arrOf x = .done m r) :
    ∃ l, x = .done l r := by
  cases x <;> simp [arrOf] at h
  exact ⟨_, by rw [h.2]⟩

theorem arrOf_fuel {x : Res (Option (List Str))} (h : arrOf x = .fuel) : x = .fuel := by
  cases x <;> simp [arrOf] at h
  rfl

/-- Every value takes at least one byte, and the fuel that `parse` gives is enough. -/
theorem fuel_enough : ∀ f : Nat,
    (∀ bs, (2 * bs.length + 1 ≤ f → decode f bs ≠ .fuel) ∧
      ∀ m r, decode f bs = .done m r → r.length < bs.length) ∧
    (∀ n bs, (2 * bs.length + 2 ≤ f → items f n bs ≠ .fuel) ∧
      ∀ m r, items f n bs = .done m r → r.length ≤ bs.length) ∧
    (∀ n bs, (2 * bs.length + 2 ≤ f → fields f n bs ≠ .fuel) ∧
      ∀ m r, fields f n bs = .done m r → r.length ≤ bs.length) := by
  intro f
  induction f with
  | zero =>
    refine ⟨fun bs => ⟨by omega, ?_⟩, fun n bs => ⟨by omega, ?_⟩, fun n bs => ⟨by omega, ?_⟩⟩ <;>
      simp [decode, items, fields]
  | succ f ih =>
    obtain ⟨ihd, ihi, ihf⟩ := ih
    refine ⟨?_, ?_, ?_⟩
    · intro bs
      cases bs with
      | nil => simp [decode]
      | cons b r =>
        have hs : ∀ n, (skip n r ≠ .fuel) ∧
            ∀ m r', skip n r = .done m r' → r'.length < (b :: r).length := fun n =>
          ⟨skip_fuel _ _, fun m r' h => by have := skip_rest h; simp only [List.length_cons]; omega⟩
        have hl : ∀ n e, (skipLen n e r ≠ .fuel) ∧
            ∀ m r', skipLen n e r = .done m r' → r'.length < (b :: r).length := fun n e =>
          ⟨skipLen_fuel _ _ _, fun m r' h => by
            have := skipLen_rest h; simp only [List.length_cons]; omega⟩
        have hi : ∀ n r', r'.length ≤ r.length →
            (2 * (b :: r).length + 1 ≤ f + 1 → arrOf (items f n r') ≠ .fuel) ∧
            ∀ m r'', arrOf (items f n r') = .done m r'' → r''.length < (b :: r).length := by
          intro n r' hr'
          simp only [List.length_cons]
          refine ⟨fun hf h => (ihi n r').1 (by omega) (arrOf_fuel h), fun m r'' h => ?_⟩
          obtain ⟨l, hl⟩ := arrOf_done h
          have := (ihi n r').2 l r'' hl
          omega
        have hm : ∀ n r', r'.length ≤ r.length →
            (2 * (b :: r).length + 1 ≤ f + 1 → fields f n r' ≠ .fuel) ∧
            ∀ m r'', fields f n r' = .done m r'' → r''.length < (b :: r).length := by
          intro n r' hr'
          simp only [List.length_cons]
          refine ⟨fun hf h => (ihf n r').1 (by omega) h, fun m r'' h => ?_⟩
          have := (ihf n r').2 m r'' h
          omega
        have h1 : ∀ m, (2 * (b :: r).length + 1 ≤ f + 1 → (Res.done m r : Res Msg) ≠ .fuel) ∧
            ∀ m' r', (Res.done m r : Res Msg) = .done m' r' → r'.length < (b :: r).length := by
          intro m
          refine ⟨by simp, fun m' r' h => ?_⟩
          simp only [Res.done.injEq] at h
          rw [← h.2]; simp
        have hb : (2 * (b :: r).length + 1 ≤ f + 1 → (Res.bad : Res Msg) ≠ .fuel) ∧
            ∀ m' r', (Res.bad : Res Msg) = .done m' r' → r'.length < (b :: r).length := by simp
        have ite : ∀ {p : Prop} [Decidable p] (x y : Res Msg),
            ((2 * (b :: r).length + 1 ≤ f + 1 → x ≠ .fuel) ∧
              ∀ m r', x = .done m r' → r'.length < (b :: r).length) →
            ((2 * (b :: r).length + 1 ≤ f + 1 → y ≠ .fuel) ∧
              ∀ m r', y = .done m r' → r'.length < (b :: r).length) →
            ((2 * (b :: r).length + 1 ≤ f + 1 → (if p then x else y) ≠ .fuel) ∧
              ∀ m r', (if p then x else y) = .done m r' → r'.length < (b :: r).length) := by
          intro p _ x y hx hy
          split
          · exact hx
          · exact hy
        simp only [decode]
        repeat' apply ite
        all_goals first
          | exact h1 _
          | exact hb
          | exact ⟨fun _ => (hs _).1, (hs _).2⟩
          | exact ⟨fun _ => (hl _ _).1, (hl _ _).2⟩
          | exact hi _ _ (Nat.le_refl _)
          | exact hm _ _ (Nat.le_refl _)
          | skip
        · split
          · rename_i s r' e
            have := key_rest e
            refine ⟨by simp, fun m r'' h => ?_⟩
            simp only [Res.done.injEq] at h
            rw [← h.2]; exact this
          · exact hb
        · split
          · rename_i n r' e
            exact hi n r' (takeLen_rest e)
          · exact hb
        · split
          · rename_i n r' e
            exact hi n r' (takeLen_rest e)
          · exact hb
        · split
          · rename_i n r' e
            exact hm n r' (takeLen_rest e)
          · exact hb
        · split
          · rename_i n r' e
            exact hm n r' (takeLen_rest e)
          · exact hb
    · intro n bs
      cases n with
      | zero => simp +contextual [items]
      | succ n =>
        simp only [items]
        cases hd : decode f bs with
        | bad => simp
        | fuel => exact ⟨fun hf => absurd hd ((ihd bs).1 (by omega)), by simp⟩
        | done m r =>
          have hr := (ihd bs).2 m r hd
          simp only
          cases hi : items f n r with
          | bad => simp
          | fuel => exact ⟨fun hf => absurd hi ((ihi n r).1 (by omega)), by simp⟩
          | done l r' =>
            have := (ihi n r).2 l r' hi
            refine ⟨by simp, fun m' r'' h => ?_⟩
            simp only [Res.done.injEq] at h
            rw [← h.2]; omega
    · intro n bs
      cases n with
      | zero => simp +contextual [fields]
      | succ n =>
        simp only [fields]
        cases hk : key bs with
        | bad => simp
        | fuel => exact absurd hk (key_fuel bs)
        | done s r0 =>
          have hr0 := key_rest hk
          simp only
          cases hd : decode f r0 with
          | bad => simp
          | fuel => exact ⟨fun hf => absurd hd ((ihd r0).1 (by omega)), by simp⟩
          | done m r =>
            have hr := (ihd r0).2 m r hd
            simp only
            refine ⟨fun hf => (ihf n r).1 (by omega), fun m' r'' h => ?_⟩
            have := (ihf n r).2 m' r'' h
            omega

/-- The fuel of `parse` never runs out. -/
theorem parse_fuel (b : Blob) : decode (2 * b.length + 1) b ≠ .fuel :=
  ((fuel_enough _).1 b).1 (Nat.le_refl _)

/-! ## Round trip -/

theorem be_length (k n : Nat) : (be k n).length = k := by
  induction k generalizing n with
  | zero => rfl
  | succ k ih => simp [be, ih]

theorem beNat_append (a : Blob) (b : UInt8) : beNat (a ++ [b]) = beNat a * 256 + b.toNat := by
  simp [beNat]

theorem beNat_be (k n : Nat) : beNat (be k n) = n % 256 ^ k := by
  induction k generalizing n with
  | zero => simp [be, beNat, Nat.mod_one]
  | succ k ih =>
    rw [be, beNat_append, ih]
    have h1 : (UInt8.ofNat (n % 256)).toNat = n % 256 := by
      rw [UInt8.toNat_ofNat']; omega
    rw [h1, Nat.pow_succ, Nat.mul_comm (256 ^ k) 256, Nat.mod_mul]
    omega

theorem takeN_append (a r : Blob) : takeN a.length (a ++ r) = .done a r := by
  simp [takeN]

theorem takeLen_be (k n : Nat) (r : Blob) (h : n < 256 ^ k) :
    takeLen k (be k n ++ r) = .done n r := by
  have := takeN_append (be k n) r
  rw [be_length] at this
  simp only [takeLen, this, beNat_be, Nat.mod_eq_of_lt h]

theorem takeStr_be (k : Nat) (s r : Blob) (h : s.length < 256 ^ k) :
    takeStr k (be k s.length ++ (s ++ r)) = .done s r := by
  simp only [takeStr, takeLen_be k _ _ h, takeN_append]

/-- A string is decoded to itself. -/
theorem decode_str (f : Nat) (s r : Blob) (h : s.length < 2 ^ 32) :
    decode (f + 1) (strHead s.length ++ s ++ r) = .done (.str s) r := by
  simp only [strHead]
  split
  · rename_i hs
    have h1 : (UInt8.ofNat (0xA0 + s.length)).toNat = 0xA0 + s.length := by
      rw [UInt8.toNat_ofNat']; omega
    generalize UInt8.ofNat (0xA0 + s.length) = b at h1
    have g1 : ¬ b ≤ 0x7F := by rw [UInt8.le_iff_toNat_le, h1]; simp; omega
    have g2 : ¬ b ≤ 0x8F := by rw [UInt8.le_iff_toNat_le, h1]; simp; omega
    have g3 : ¬ b ≤ 0x9F := by rw [UInt8.le_iff_toNat_le, h1]; simp; omega
    have g4 : b ≤ 0xBF := by rw [UInt8.le_iff_toNat_le, h1]; simp; omega
    have g5 : 0xA0 ≤ b := by rw [UInt8.le_iff_toNat_le, h1]; simp
    simp only [List.cons_append, List.nil_append, decode, g1, g2, g3, g4, if_false, true_or, if_true,
      key, g5, and_self, h1]
    rw [show 160 + s.length - 160 = s.length by omega, takeN_append]
  · split
    · rename_i hs
      have := takeStr_be 1 s r (by omega)
      simp [decode, key, List.append_assoc, this]
    · split
      · rename_i hs
        have := takeStr_be 2 s r (by omega)
        simp [decode, key, List.append_assoc, this]
      · have := takeStr_be 4 s r (by omega)
        have h' : s.length < 2 ^ 32 := h
        simp [decode, key, List.append_assoc, this, h]

theorem strHead_ne (n : Nat) (h : n < 2 ^ 32) : strHead n ≠ [] := by
  simp only [strHead]
  repeat' split
  all_goals simp

theorem items_strs : ∀ (l : List Str) (f : Nat) (r : Blob), (∀ s ∈ l, s.length < 2 ^ 32) →
    l.length + 2 ≤ f →
    items f l.length ((l.flatMap fun s => strHead s.length ++ s) ++ r) = .done (some l) r := by
  intro l
  induction l with
  | nil =>
    intro f r _ hf
    cases f with
    | zero => omega
    | succ f => simp [items]
  | cons s l ih =>
    intro f r hl hf
    cases f with
    | zero => omega
    | succ f =>
      simp only [List.length_cons] at hf
      cases f with
      | zero => omega
      | succ f =>
        simp only [List.length_cons, items, List.flatMap_cons]
        rw [List.append_assoc (strHead s.length ++ s), decode_str f s _ (hl s (by simp))]
        simp only
        rw [ih (f + 1) r (fun t ht => hl t (by simp [ht])) (by omega)]
        rfl

theorem flat_length (l : List Str) (hl : ∀ s ∈ l, s.length < 2 ^ 32) :
    l.length ≤ (l.flatMap fun s => strHead s.length ++ s).length := by
  induction l with
  | nil => simp
  | cons s l ih =>
    have := ih fun t ht => hl t (by simp [ht])
    have h := List.length_pos_iff.2 (strHead_ne _ (hl s (by simp)))
    simp only [List.length_cons, List.flatMap_cons, List.length_append]
    omega

/-- The sizes fit into the format. -/
def Fits (l : List Str) : Prop := l.length < 2 ^ 32 ∧ ∀ s ∈ l, s.length < 2 ^ 32

theorem parse_encode {l : List Str} (h : Fits l) : parse (encode l) = some (.arr (some l)) := by
  obtain ⟨h1, h2⟩ := h
  have key : ∀ f, l.length + 3 ≤ f → decode f (encode l) = .done (.arr (some l)) [] := by
    intro f hf
    obtain ⟨g, rfl⟩ : ∃ g, f = g + 1 := ⟨f - 1, by omega⟩
    have hi := items_strs l g [] h2 (by omega)
    rw [List.append_nil] at hi
    simp only [encode, arrHead]
    split
    · rename_i hs
      have e1 : (UInt8.ofNat (0x90 + l.length)).toNat = 0x90 + l.length := by
        rw [UInt8.toNat_ofNat']; omega
      generalize UInt8.ofNat (0x90 + l.length) = b at e1
      have g1 : ¬ b ≤ 0x7F := by rw [UInt8.le_iff_toNat_le, e1]; simp; omega
      have g2 : ¬ b ≤ 0x8F := by rw [UInt8.le_iff_toNat_le, e1]; simp; omega
      have g3 : b ≤ 0x9F := by rw [UInt8.le_iff_toNat_le, e1]; simp; omega
      simp only [List.cons_append, List.nil_append, decode, g1, g2, g3, if_false, if_true, e1]
      rw [show 144 + l.length - 144 = l.length by omega, hi]; rfl
    · split
      · have := takeLen_be 2 l.length (l.flatMap fun s => strHead s.length ++ s) (by omega)
        simp only [List.cons_append, decode, this, hi]
        simp [arrOf]
      · have := takeLen_be 4 l.length (l.flatMap fun s => strHead s.length ++ s) (by omega)
        simp only [List.cons_append, decode, this, hi]
        simp [arrOf]
  have hlen : l.length + 1 ≤ (encode l).length := by
    have := flat_length l h2
    have hh : arrHead l.length ≠ [] := by
      simp only [arrHead]
      repeat' split
      all_goals simp
    have hp := List.length_pos_iff.2 hh
    simp only [encode, List.length_append]
    omega
  simp only [parse]
  by_cases hl : l = []
  · subst hl; decide
  · have : 0 < l.length := List.length_pos_iff.2 hl
    rw [key _ (by omega)]

theorem deserialize_encode {l : List Str} (h : Fits l) : deserialize (encode l) = some l := by
  simp only [deserialize, parse_encode h]

end Verif.Generator
