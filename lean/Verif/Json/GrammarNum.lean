import Verif.Json.GrammarStr

/-! # Numbers and objects against the grammar -/

namespace Verif.Json
open Verif Verif.Json.Grammar

theorem overflows_iff (m : Nat) (k : Int) : overflows m k = false ↔ Finite m k := by
  unfold overflows Finite
  generalize (2 ^ 54 - 1) * 2 ^ 970 = C
  constructor
  · intro h
    split at h
    · rename_i hk
      refine ⟨k.toNat, 0, by omega, ?_⟩
      simp only [decide_eq_false_iff_not] at h
      rw [Nat.pow_zero, Nat.mul_one]
      omega
    · rename_i hk
      refine ⟨0, (-k).toNat, by omega, ?_⟩
      simp only [decide_eq_false_iff_not] at h
      rw [Nat.pow_zero, Nat.mul_one]
      omega
  · rintro ⟨a, b, rfl, h⟩
    split
    · rename_i hk
      have e : ((a : Int) - (b : Int)).toNat + b = a := by omega
      generalize ((a : Int) - (b : Int)).toNat = n at e ⊢
      subst e
      rw [Nat.pow_add, ← Nat.mul_assoc] at h
      have := Nat.lt_of_mul_lt_mul_right h
      simp only [decide_eq_false_iff_not]
      omega
    · rename_i hk
      have e : (-((a : Int) - (b : Int))).toNat + a = b := by omega
      generalize (-((a : Int) - (b : Int))).toNat = n at e ⊢
      subst e
      rw [Nat.pow_add, ← Nat.mul_assoc] at h
      have := Nat.lt_of_mul_lt_mul_right h
      simp only [decide_eq_false_iff_not]
      omega

theorem scanFrac_sound {s f r : Str} (h : scanFrac s = some (f, r)) :
    Frac (f.drop 1) f ∧ s = f ++ r := by
  unfold scanFrac at h
  split at h
  · simp only [Option.some.injEq, Prod.mk.injEq] at h
    obtain ⟨rfl, rfl⟩ := h
    exact ⟨.none, rfl⟩
  rename_i b s
  split at h
  · rename_i hb
    subst hb
    split at h
    · contradiction
    · rename_i d r' hne hs
      simp only [Option.some.injEq, Prod.mk.injEq] at h
      obtain ⟨rfl, rfl⟩ := h
      obtain ⟨h1, rfl⟩ := spanDigits_sound hs
      exact ⟨.some (fun e => hne e) h1, rfl⟩
  · simp only [Option.some.injEq, Prod.mk.injEq] at h
    obtain ⟨rfl, rfl⟩ := h
    exact ⟨.none, rfl⟩

theorem scanFrac_complete {d f r : Str} (h : Frac d f) (hr : NoDigit r)
    (hdot : ∀ t, r ≠ c!"." :: t) : scanFrac (f ++ r) = some (f, r) ∧ f.drop 1 = d := by
  cases h with
  | none =>
    refine ⟨?_, rfl⟩
    unfold scanFrac
    cases r with
    | nil => rfl
    | cons b t =>
      simp only [List.nil_append]
      rw [if_neg (fun e => hdot t (by rw [e]))]
  | @some l hne hl =>
    refine ⟨?_, rfl⟩
    have hs := spanDigits_complete hl hr
    unfold scanFrac
    simp only [List.cons_append, hs, if_true]

theorem digit_ne_sign {b : UInt8} (h : Digit b) : b ≠ c!"+" ∧ b ≠ c!"-" := by
  rw [digit_iff] at h
  simp only [isDigit, inRange_nat, UInt8.reduceToNat, decide_eq_true_eq] at h
  constructor <;> (rintro rfl; simp at h)

theorem scanExp_sound {s e r : Str} (h : scanExp s = some (e, r)) :
    Exp (expVal e) e ∧ s = e ++ r := by
  unfold scanExp at h
  split at h
  · simp only [Option.some.injEq, Prod.mk.injEq] at h
    obtain ⟨rfl, rfl⟩ := h
    exact ⟨.none, rfl⟩
  rename_i b s
  split at h
  · rename_i hb
    simp only [Bool.or_eq_true, decide_eq_true_eq] at hb
    split at h
    · contradiction
    rename_i sg s
    split at h
    · rename_i hsg
      simp only [Bool.or_eq_true, decide_eq_true_eq] at hsg
      split at h
      · contradiction
      · rename_i d r' hne hs
        simp only [Option.some.injEq, Prod.mk.injEq] at h
        obtain ⟨rfl, rfl⟩ := h
        obtain ⟨h1, rfl⟩ := spanDigits_sound hs
        refine ⟨?_, rfl⟩
        have hd : d ≠ [] := fun e => hne e
        rcases hsg with rfl | rfl
        · have := Exp.plus hb hd h1
          rw [value_digitsVal] at this
          exact this
        · have := Exp.minus hb hd h1
          rw [value_digitsVal] at this
          exact this
    · split at h
      · contradiction
      · rename_i hsg d r' hne hs
        simp only [Option.some.injEq, Prod.mk.injEq] at h
        obtain ⟨rfl, rfl⟩ := h
        obtain ⟨h1, h2⟩ := spanDigits_sound hs
        rw [h2]
        refine ⟨?_, rfl⟩
        have hd : d ≠ [] := fun e => hne e
        have := Exp.plain hb hd h1
        rw [value_digitsVal] at this
        cases d with
        | nil => exact absurd rfl hd
        | cons x d =>
          have hx := digit_ne_sign (h1 x (by simp))
          rw [show expVal (b :: x :: d) = (digitsVal (x :: d) : Int) by
            rw [expVal, if_neg hx.2, if_neg hx.1]]
          exact this
  · simp only [Option.some.injEq, Prod.mk.injEq] at h
    obtain ⟨rfl, rfl⟩ := h
    exact ⟨.none, rfl⟩

theorem scanExp_complete {x : Int} {e r : Str} (h : Exp x e) (hr : NumEnd r) :
    scanExp (e ++ r) = some (e, r) ∧ expVal e = x := by
  have hnd : NoDigit r := fun b t hb => (hr b t hb).1
  cases h with
  | none => exact ⟨scanExp_end r hr, rfl⟩
  | @plain e l he hne hl =>
    have hs := spanDigits_complete hl hnd
    cases l with
    | nil => exact absurd rfl hne
    | cons b l =>
      have hb := digit_ne_sign (hl b (by simp))
      constructor
      · unfold scanExp
        simp only [List.cons_append] at hs ⊢
        rw [if_pos (by simpa using he), if_neg (by simp [hb.1, hb.2]), hs]
      · rw [expVal, if_neg hb.2, if_neg hb.1, value_digitsVal]
  | @plus e l he hne hl =>
    have hs := spanDigits_complete hl hnd
    constructor
    · unfold scanExp
      simp only [List.cons_append] at hs ⊢
      rw [if_pos (by simpa using he), if_pos (by simp), hs]
      cases l with
      | nil => exact absurd rfl hne
      | cons b l => rfl
    · rw [expVal, if_neg (by decide), if_pos rfl, value_digitsVal]
  | @minus e l he hne hl =>
    have hs := spanDigits_complete hl hnd
    constructor
    · unfold scanExp
      simp only [List.cons_append] at hs ⊢
      rw [if_pos (by simpa using he), if_pos (by simp), hs]
      cases l with
      | nil => exact absurd rfl hne
      | cons b l => rfl
    · rw [expVal, if_pos rfl, value_digitsVal]

theorem mkFloat_some {sign i f e r : Str} {x : JNum × Str} :
    mkFloat sign i f e r = some x ↔
      Finite (value (i ++ f.drop 1) 0) (expVal e - ((f.drop 1).length : Int)) ∧
        x = (.flt (sign ++ i ++ f ++ e), r) := by
  unfold mkFloat
  rw [← overflows_iff, value_digitsVal]
  generalize digitsVal (i ++ f.drop 1) = m
  generalize expVal e - ((f.drop 1).length : Int) = k
  split
  · rename_i h; simp [h]
  · rename_i h; simp [h, eq_comm]

theorem scanNum_sound {s r : Str} {n : JNum} (h : scanNum s = some (n, r)) :
    ∃ t, Number n t ∧ s = t ++ r := by
  unfold scanNum at h
  split at h
  · contradiction
  rename_i b s
  simp only [Option.bind_eq_bind, Option.bind_eq_some_iff] at h
  obtain ⟨⟨i, r1⟩, h1, ⟨f, r2⟩, h2, ⟨e, r3⟩, h3, h4⟩ := h
  obtain ⟨hi, e1⟩ := scanInt_sound h1
  obtain ⟨hf, rfl⟩ := scanFrac_sound h2
  obtain ⟨he, rfl⟩ := scanExp_sound h3
  simp only at h4
  split at h4
  · rename_i hfe
    obtain ⟨rfl, rfl⟩ := hfe
    split at h4
    · rename_i hb
      subst hb
      rw [if_pos rfl] at e1
      subst e1
      split at h4
      · rename_i hv
        simp only [Option.pure_def, Option.some.injEq, Prod.mk.injEq] at h4
        obtain ⟨rfl, rfl⟩ := h4
        rw [← value_digitsVal] at hv ⊢
        exact ⟨_, .nint hi hv, rfl⟩
      · rename_i hv
        obtain ⟨hfin, hx⟩ := mkFloat_some.1 h4
        simp only [Prod.mk.injEq] at hx
        obtain ⟨rfl, rfl⟩ := hx
        rw [← value_digitsVal] at hv
        simp only [List.drop_nil, List.append_nil, List.length_nil, expVal] at hfin
        exact ⟨_, by simpa using Number.small hi (by omega) hfin, by simp⟩
    · rename_i hb
      rw [if_neg hb] at e1
      rw [e1]
      split at h4
      · rename_i hv
        simp only [Option.pure_def, Option.some.injEq, Prod.mk.injEq] at h4
        obtain ⟨rfl, rfl⟩ := h4
        rw [← value_digitsVal] at hv ⊢
        exact ⟨_, .uint hi hv, rfl⟩
      · rename_i hv
        obtain ⟨hfin, hx⟩ := mkFloat_some.1 h4
        simp only [Prod.mk.injEq] at hx
        obtain ⟨rfl, rfl⟩ := hx
        rw [← value_digitsVal] at hv
        simp only [List.drop_nil, List.append_nil, List.length_nil, expVal] at hfin
        exact ⟨_, by simpa using Number.big hi (by omega) hfin, by simp⟩
  · rename_i hfe
    obtain ⟨hfin, hx⟩ := mkFloat_some.1 h4
    simp only [Prod.mk.injEq] at hx
    obtain ⟨rfl, rfl⟩ := hx
    have hne : f ≠ [] ∨ e ≠ [] := by
      by_cases hf0 : f = []
      · exact .inr (fun he0 => hfe ⟨hf0, he0⟩)
      · exact .inl hf0
    by_cases hb : b = c!"-"
    · subst hb
      rw [if_pos rfl] at e1 ⊢
      subst e1
      exact ⟨_, .float (.inr rfl) hi hf he hne hfin, by simp⟩
    · rw [if_neg hb] at e1 ⊢
      rw [e1]
      exact ⟨_, .float (.inl rfl) hi hf he hne hfin, by simp⟩

theorem intPart_head {i : Str} (h : IntPart i) : ∃ b t, i = b :: t ∧ isDigit b = true := by
  cases h with
  | zero => exact ⟨_, _, rfl, by decide⟩
  | pos hb => exact ⟨_, _, rfl, digit_iff.1 hb⟩

theorem noDigit_frac {d f e r : Str} {x : Int} (hf : Frac d f) (he : Exp x e) (hr : NumEnd r) :
    NoDigit (f ++ (e ++ r)) ∧ NoDigit (e ++ r) ∧ ∀ t, e ++ r ≠ c!"." :: t := by
  have h1 : NoDigit (e ++ r) ∧ ∀ t, e ++ r ≠ c!"." :: t := by
    cases he with
    | none => exact ⟨fun b t hb => (hr b t hb).1, fun t hb => (hr _ t hb).2.1 rfl⟩
    | plain h _ _ | plus h _ _ | minus h _ _ =>
      constructor
      · intro b t hb
        have := (List.cons.inj hb).1
        subst this
        rcases h with rfl | rfl <;> decide
      · intro t hb
        have := (List.cons.inj hb).1
        rcases h with rfl | rfl <;> exact absurd this (by decide)
  refine ⟨?_, h1⟩
  cases hf with
  | none => exact h1.1
  | some _ _ =>
    intro b t hb
    have := (List.cons.inj hb).1
    subst this
    decide

/-- Scanning the parts of a number. -/
theorem scanNum_parts {sign i d f e r : Str} {x : Int} (hs : sign = [] ∨ sign = b!"-")
    (hi : IntPart i) (hf : Frac d f) (he : Exp x e) (hr : NumEnd r) :
    scanNum (sign ++ i ++ f ++ e ++ r) =
      if f = [] ∧ e = [] then
        if sign = b!"-" then
          if value i 0 ≤ 2 ^ 63 then some (.nint (value i 0), r) else mkFloat sign i f e r
        else
          if value i 0 < 2 ^ 64 then some (.uint (value i 0), r) else mkFloat sign i f e r
      else mkFloat sign i f e r := by
  obtain ⟨n1, n2, n3⟩ := noDigit_frac hf he hr
  have s1 := scanInt_complete hi n1
  have s2 := (scanFrac_complete hf n2 n3).1
  have s3 := (scanExp_complete he hr).1
  obtain ⟨b, t, rfl, hb⟩ := intPart_head hi
  have hne := (isDigit_ne hb).1
  rw [value_digitsVal]
  rcases hs with rfl | rfl
  · rw [show [] ++ (b :: t) ++ f ++ e ++ r = b :: (t ++ (f ++ (e ++ r))) by simp]
    rw [show (b :: t) ++ (f ++ (e ++ r)) = b :: (t ++ (f ++ (e ++ r))) by simp] at s1
    rw [scanNum]
    simp only [if_neg hne, s1, s2, s3, Option.bind_eq_bind, Option.bind_some, Option.pure_def]
    rw [if_neg (show ¬ ([] : Str) = b!"-" by decide)]
  · rw [show b!"-" ++ (b :: t) ++ f ++ e ++ r = c!"-" :: (b :: (t ++ (f ++ (e ++ r)))) by simp]
    rw [show (b :: t) ++ (f ++ (e ++ r)) = b :: (t ++ (f ++ (e ++ r))) by simp] at s1
    rw [scanNum]
    simp only [if_true, s1, s2, s3, Option.bind_eq_bind, Option.bind_some, Option.pure_def]

theorem scanNum_complete {n : JNum} {t r : Str} (h : Number n t) (hr : NumEnd r) :
    scanNum (t ++ r) = some (n, r) := by
  cases h with
  | uint hi hv =>
    have := scanNum_parts (sign := []) (.inl rfl) hi .none .none hr
    rw [if_pos ⟨rfl, rfl⟩, if_neg (by decide), if_pos hv] at this
    simpa using this
  | nint hi hv =>
    have := scanNum_parts (sign := b!"-") (.inr rfl) hi .none .none hr
    rw [if_pos ⟨rfl, rfl⟩, if_pos rfl, if_pos hv] at this
    simpa using this
  | big hi hv hfin =>
    have := scanNum_parts (sign := []) (.inl rfl) hi .none .none hr
    rw [if_pos ⟨rfl, rfl⟩, if_neg (by decide), if_neg (by omega),
      mkFloat_some.2 ⟨by simpa [expVal] using hfin, rfl⟩] at this
    simpa using this
  | small hi hv hfin =>
    have := scanNum_parts (sign := b!"-") (.inr rfl) hi .none .none hr
    rw [if_pos ⟨rfl, rfl⟩, if_pos rfl, if_neg (by omega),
      mkFloat_some.2 ⟨by simpa [expVal] using hfin, rfl⟩] at this
    simpa using this
  | @float sign i d f e x hs hi hf he hne hfin =>
    have h := scanNum_parts hs hi hf he hr
    obtain ⟨n1, n2, n3⟩ := noDigit_frac hf he hr
    have s2 := (scanFrac_complete hf n2 n3).2
    have s3 := (scanExp_complete he hr).2
    rw [if_neg (by rintro ⟨rfl, rfl⟩; simp at hne),
      mkFloat_some.2 ⟨by rw [s2, s3]; exact hfin, rfl⟩] at h
    exact h

theorem number_head {n : JNum} {t : Str} (h : Number n t) :
    ∃ b u, t = b :: u ∧ (b = c!"-" ∨ isDigit b = true) := by
  cases h with
  | uint hi _ => obtain ⟨b, u, rfl, hb⟩ := intPart_head hi; exact ⟨_, _, rfl, .inr hb⟩
  | nint _ _ => exact ⟨_, _, rfl, .inl rfl⟩
  | big hi _ _ => obtain ⟨b, u, rfl, hb⟩ := intPart_head hi; exact ⟨_, _, rfl, .inr hb⟩
  | small _ _ _ => exact ⟨_, _, rfl, .inl rfl⟩
  | float hs hi _ _ _ _ =>
    rcases hs with rfl | rfl
    · obtain ⟨b, u, rfl, hb⟩ := intPart_head hi
      exact ⟨_, _, rfl, .inr hb⟩
    · exact ⟨_, _, rfl, .inl rfl⟩

/-! ## Objects -/

theorem firstKeys_snoc (l : List (Str × JVal)) (k : Str) (v : JVal) :
    firstKeys (l ++ [(k, v)]) = if k ∈ firstKeys l then firstKeys l else firstKeys l ++ [k] := by
  induction l with
  | nil => simp [firstKeys]
  | cons p l ih =>
    obtain ⟨k', v'⟩ := p
    simp only [List.cons_append, firstKeys, ih, List.mem_cons, List.mem_filter]
    by_cases e : k = k'
    · subst e
      rw [if_pos (Or.inl rfl)]
      split
      · rfl
      · rw [List.filter_append]; simp
    · by_cases hk : k ∈ firstKeys l
      · rw [if_pos hk, if_pos (Or.inr ⟨hk, by simpa using e⟩)]
      · rw [if_neg hk, if_neg (by rintro (h | h); exact e h; exact hk h.1), List.filter_append]
        simp [e]

theorem firstKeys_nodup (l : List (Str × JVal)) : (firstKeys l).Nodup := by
  induction l with
  | nil => simp [firstKeys]
  | cons p l ih =>
    simp only [firstKeys, List.nodup_cons, List.mem_filter]
    exact ⟨by simp, ih.filter _⟩

theorem setKey_keys (k : Str) (v : JVal) (o : List (Str × JVal)) :
    (setKey k v o).map Prod.fst =
      if k ∈ o.map Prod.fst then o.map Prod.fst else o.map Prod.fst ++ [k] := by
  induction o with
  | nil => simp [setKey]
  | cons p o ih =>
    obtain ⟨k', v'⟩ := p
    simp only [setKey]
    by_cases e : k' = k
    · rw [if_pos e]; simp [e]
    · rw [if_neg e]
      have e' : ¬ k = k' := fun h => e h.symm
      simp only [List.map_cons, ih, List.mem_cons, e', false_or]
      split <;> rfl

theorem mem_setKey {k k' : Str} {v v' : JVal} {o : List (Str × JVal)}
    (hn : (o.map Prod.fst).Nodup) (h : (k', v') ∈ setKey k v o) :
    (k' = k ∧ v' = v) ∨ (k' ≠ k ∧ (k', v') ∈ o) := by
  induction o with
  | nil => simp [setKey] at h; exact .inl h
  | cons p o ih =>
    obtain ⟨a, b⟩ := p
    simp only [List.map_cons, List.nodup_cons] at hn
    simp only [setKey] at h
    split at h
    · rename_i e
      subst e
      rcases List.mem_cons.1 h with h | h
      · simp only [Prod.mk.injEq] at h; exact .inl h
      · refine .inr ⟨?_, List.mem_cons_of_mem _ h⟩
        intro e
        have := List.mem_map_of_mem (f := Prod.fst) h
        rw [e] at this
        exact hn.1 this
    · rename_i e
      rcases List.mem_cons.1 h with h | h
      · simp only [Prod.mk.injEq] at h
        obtain ⟨rfl, rfl⟩ := h
        exact .inr ⟨e, by simp⟩
      · rcases ih hn.2 h with h | h
        · exact .inl h
        · exact .inr ⟨h.1, List.mem_cons_of_mem _ h.2⟩

theorem mkObj_snoc (l : List (Str × JVal)) (k : Str) (v : JVal) :
    mkObj (l ++ [(k, v)]) = setKey k v (mkObj l) := by
  simp [mkObj, List.foldl_append]

theorem mkObj_denotes (l : List (Str × JVal)) : Denotes l (mkObj l) := by
  suffices h : ∀ n, ∀ l : List (Str × JVal), l.length = n → Denotes l (mkObj l) from
    h _ l rfl
  intro n
  induction n with
  | zero =>
    intro l hl
    have := List.length_eq_zero_iff.1 hl
    subst this
    exact ⟨rfl, by simp [mkObj]⟩
  | succ n ih =>
    intro l hl
    rcases List.eq_nil_or_concat l with rfl | ⟨l', ⟨k, v⟩, rfl⟩
    · simp at hl
    obtain ⟨h1, h2⟩ := ih l' (by simpa using hl)
    rw [List.concat_eq_append, mkObj_snoc]
    constructor
    · rw [setKey_keys, h1, firstKeys_snoc]
    · intro k' v' hm
      rcases mem_setKey (by rw [h1]; exact firstKeys_nodup l') hm with ⟨rfl, rfl⟩ | ⟨hne, hm⟩
      · exact ⟨l', [], by simp, by simp⟩
      · obtain ⟨b, a, rfl, ha⟩ := h2 k' v' hm
        refine ⟨b, a ++ [(k, v)], by simp, ?_⟩
        intro m hm
        rcases List.mem_append.1 hm with hm | hm
        · exact ha m hm
        · rw [List.mem_singleton] at hm
          subst hm
          exact fun e => hne e.symm

theorem last_unique {k : Str} {v v' : JVal} {a b a' b' : List (Str × JVal)}
    (h : b ++ (k, v) :: a = b' ++ (k, v') :: a') (ha : ∀ m ∈ a, m.1 ≠ k)
    (ha' : ∀ m ∈ a', m.1 ≠ k) : v = v' := by
  rcases List.append_eq_append_iff.1 h with ⟨c, h1, h2⟩ | ⟨c, h1, h2⟩
  · cases c with
    | nil => simp at h2; exact h2.1
    | cons x c =>
      simp only [List.cons_append, List.cons.injEq] at h2
      exact absurd rfl (ha (k, v') (by rw [h2.2]; simp))
  · cases c with
    | nil => simp at h2; exact h2.1.symm
    | cons x c =>
      simp only [List.cons_append, List.cons.injEq] at h2
      exact absurd rfl (ha' (k, v) (by rw [h2.2]; simp))

theorem denotes_unique {l o o' : List (Str × JVal)} (h : Denotes l o) (h' : Denotes l o') :
    o = o' := by
  obtain ⟨h1, h2⟩ := h
  obtain ⟨h1', h2'⟩ := h'
  have hl : o.length = o'.length := by
    have := congrArg List.length (h1.trans h1'.symm)
    simpa using this
  apply List.ext_getElem hl
  intro i hi hi'
  have hk : (o[i]).1 = (o'[i]).1 := by
    have e := h1.trans h1'.symm
    have : (o.map Prod.fst)[i]? = (o'.map Prod.fst)[i]? := by rw [e]
    simp only [List.getElem?_map, List.getElem?_eq_getElem hi, List.getElem?_eq_getElem hi',
      Option.map_some, Option.some.injEq] at this
    exact this
  obtain ⟨b, a, e, ha⟩ := h2 (o[i]).1 (o[i]).2 (List.getElem_mem hi)
  obtain ⟨b', a', e', ha'⟩ := h2' (o'[i]).1 (o'[i]).2 (List.getElem_mem hi')
  rw [hk] at e ha
  exact Prod.ext hk (last_unique (e.symm.trans e') ha ha')

theorem denotes_iff {l o : List (Str × JVal)} : Denotes l o ↔ o = mkObj l :=
  ⟨fun h => denotes_unique h (mkObj_denotes l), fun h => h ▸ mkObj_denotes l⟩

end Verif.Json
