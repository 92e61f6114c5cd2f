import Verif.Json.RoundTrip

/-! Fuel monotonicity and the extension lemma of the parser, from which strict
prefixes of a dumped document are rejected. -/

namespace Verif.Json
open Verif

theorem prep_eq_some {p : Str} {o : Option (Str × Str)} {s r : Str} :
    prep p o = some (s, r) ↔ ∃ s', o = some (s', r) ∧ s = p ++ s' := by
  cases o with
  | none => simp [prep]
  | some x => obtain ⟨a, b⟩ := x; simp [prep]; grind

theorem scanStr_append (p q s r : Str) (h : scanStr p = some (s, r)) :
    scanStr (p ++ q) = some (s, r ++ q) := by
  fun_induction scanStr p generalizing s r with
  | _ => first
    | (cases h; done)
    | (rw [prep_eq_some] at h
       obtain ⟨s', h1, h3⟩ := h
       rw [h3]; clear h3
       rename_i ih
       have h2 := ih _ _ h1
       simp only [List.cons_append]
       rw [scanStr.eq_def]
       first
         | (simp_all [prep]; done)
         | (simp_all [prep]; grind)
         | (simp only [h2, *]; simp [prep]; done))
    | (simp only [Option.some.injEq, Prod.mk.injEq] at h
       obtain ⟨rfl, rfl⟩ := h
       rw [scanStr.eq_def]; simp_all; done)

theorem skipWs_append (p q : Str) (b : UInt8) (t : Str) (h : skipWs p = b :: t) :
    skipWs (p ++ q) = b :: (t ++ q) := by
  induction p with
  | nil => simp [skipWs] at h
  | cons c p ih =>
    simp only [List.cons_append, skipWs] at h ⊢
    split
    · rename_i hc; simp [hc] at h; exact ih h
    · rename_i hc; simp [hc] at h; simp [h]

theorem scanLit_append (l p q r : Str) (h : scanLit l p = some r) :
    scanLit l (p ++ q) = some (r ++ q) := by
  simp only [scanLit] at h ⊢
  split at h
  · rename_i hp
    rw [List.isPrefixOf_iff_prefix] at hp
    obtain ⟨t, rfl⟩ := hp
    have : l.isPrefixOf (l ++ t ++ q) = true := by
      rw [List.isPrefixOf_iff_prefix]; exact ⟨t ++ q, by simp⟩
    rw [if_pos this]
    simp at h ⊢; simp [h]
  · cases h

theorem spanDigits_ext (p q d r : Str) (h : spanDigits p = (d, r)) (hr : r ≠ []) :
    spanDigits (p ++ q) = (d, r ++ q) := by
  induction p generalizing d with
  | nil => simp [spanDigits] at h; exact absurd h.2.symm (by simpa using hr)
  | cons b p ih =>
    simp only [List.cons_append, spanDigits] at h ⊢
    split at h
    · rename_i hb
      cases hs : spanDigits p with
      | mk d' r' =>
        rw [hs] at h
        simp only [Prod.mk.injEq] at h
        obtain ⟨rfl, rfl⟩ := h
        rw [if_pos hb, ih d' hs]
    · rename_i hb; rw [if_neg hb]; simp at h; simp [← h.1, ← h.2]

theorem scanInt_ext (p q d r : Str) (h : scanInt p = some (d, r)) (hr : r ≠ []) :
    scanInt (p ++ q) = some (d, r ++ q) := by
  cases p with
  | nil => simp [scanInt] at h
  | cons b p =>
    simp only [scanInt, List.cons_append] at h ⊢
    split
    · rename_i hb; simp [hb] at h; simp [← h.1, ← h.2, hb]
    · rename_i hb
      rw [if_neg hb] at h
      split
      · rename_i hd
        rw [if_pos hd] at h
        have := spanDigits_ext (b :: p) q d r (by simpa using h) hr
        simpa using this
      · rename_i hd; rw [if_neg hd] at h; cases h

theorem scanFrac_ext (p q d r : Str) (h : scanFrac p = some (d, r)) (hr : r ≠ []) :
    scanFrac (p ++ q) = some (d, r ++ q) := by
  cases p with
  | nil => simp [scanFrac] at h; exact absurd h.2.symm (by simpa using hr)
  | cons b p =>
    simp only [scanFrac, List.cons_append] at h ⊢
    split
    · rename_i hb
      rw [if_pos hb] at h
      cases hs : spanDigits p with
      | mk d' r' =>
        rw [hs] at h
        cases d' with
        | nil => simp at h
        | cons x d' =>
          simp only [Option.some.injEq, Prod.mk.injEq] at h
          obtain ⟨rfl, rfl⟩ := h
          rw [spanDigits_ext p q _ _ hs hr]
    · rename_i hb; rw [if_neg hb] at h; simp at h; simp [← h.1, ← h.2]

theorem scanExp_ext (p q d r : Str) (h : scanExp p = some (d, r)) (hr : r ≠ []) :
    scanExp (p ++ q) = some (d, r ++ q) := by
  cases p with
  | nil => simp [scanExp] at h; exact absurd h.2.symm (by simpa using hr)
  | cons b p =>
    simp only [scanExp, List.cons_append] at h ⊢
    split
    · rename_i hb
      rw [if_pos hb] at h
      cases p with
      | nil => simp at h
      | cons sg p =>
        simp only [List.cons_append] at h ⊢
        split
        · rename_i hg
          rw [if_pos hg] at h
          cases hs : spanDigits p with
          | mk d' r' =>
            rw [hs] at h
            cases d' with
            | nil => simp at h
            | cons x d' =>
              simp only [Option.some.injEq, Prod.mk.injEq] at h
              obtain ⟨rfl, rfl⟩ := h
              rw [spanDigits_ext p q _ _ hs hr]
        · rename_i hg
          rw [if_neg hg] at h
          cases hs : spanDigits (sg :: p) with
          | mk d' r' =>
            rw [hs] at h
            cases d' with
            | nil => simp at h
            | cons x d' =>
              simp only [Option.some.injEq, Prod.mk.injEq] at h
              obtain ⟨rfl, rfl⟩ := h
              have := spanDigits_ext (sg :: p) q _ _ hs hr
              simp only [List.cons_append] at this
              rw [this]
    · rename_i hb; rw [if_neg hb] at h; simp at h; simp [← h.1, ← h.2]

theorem spanDigits_nil (r d : Str) (h : spanDigits [] = (d, r)) : r = [] := by
  simp [spanDigits] at h; exact h.2

theorem scanFrac_nil (d r : Str) (h : scanFrac [] = some (d, r)) : r = [] := by
  simp [scanFrac] at h; exact h.2
theorem scanExp_nil (d r : Str) (h : scanExp [] = some (d, r)) : r = [] := by
  simp [scanExp] at h; exact h.2

theorem mkFloat_rest {sign i f e r : Str} {x : JNum × Str} (h : mkFloat sign i f e r = some x) :
    x.2 = r ∧ ∀ r', mkFloat sign i f e r' = some (x.1, r') := by
  unfold mkFloat at h ⊢
  split at h
  · contradiction
  · rename_i hc
    simp only [Option.some.injEq] at h
    subst h
    exact ⟨rfl, fun r' => by rw [if_neg hc]⟩

theorem scanNum_ext (p q r : Str) (n : JNum) (h : scanNum p = some (n, r)) (hr : r ≠ []) :
    scanNum (p ++ q) = some (n, r ++ q) := by
  cases p with
  | nil => simp [scanNum] at h
  | cons b p =>
    simp only [scanNum, List.cons_append, Option.bind_eq_bind, Option.bind_eq_some_iff] at h ⊢
    obtain ⟨⟨i, r1⟩, h1, ⟨f, r2⟩, h2, ⟨e, r3⟩, h3, h4⟩ := h
    simp only at h2 h3 h4
    have hr3 : r3 = r := by
      repeat' split at h4
      all_goals first
        | exact (mkFloat_rest h4).1.symm
        | (simp at h4; exact h4.2)
    subst hr3
    have hr2 : r2 ≠ [] := by rintro rfl; exact hr (scanExp_nil _ _ h3)
    have hr1 : r1 ≠ [] := by rintro rfl; exact hr2 (scanFrac_nil _ _ h2)
    refine ⟨(i, r1 ++ q), ?_, (f, r2 ++ q), scanFrac_ext _ _ _ _ h2 hr2, (e, r3 ++ q),
      scanExp_ext _ _ _ _ h3 hr, ?_⟩
    · have := scanInt_ext _ q _ _ h1 hr1
      split at this
      · rename_i hb; simp only [hb, if_true]; exact this
      · rename_i hb; simp only [hb, if_false]; simpa using this
    · simp only
      split at h4
      · rename_i hc; rw [if_pos hc]
        split at h4
        · rename_i hn; rw [if_pos hn]
          split at h4
          · rename_i hc; rw [if_pos hc]; simp at h4 ⊢; exact h4
          · rename_i hc; rw [if_neg hc, if_pos hn]; exact (mkFloat_rest h4).2 _
        · rename_i hn; rw [if_neg hn]
          split at h4
          · rename_i hc; rw [if_pos hc]; simp at h4 ⊢; exact h4
          · rename_i hc; rw [if_neg hc, if_neg hn]; exact (mkFloat_rest h4).2 _
      · rename_i hc; rw [if_neg hc]; exact (mkFloat_rest h4).2 _

/-- Not a number: the parser stops by itself at the end of such a value. -/
def JVal.closed : JVal → Prop
  | .num _ => False
  | _ => True

/-- Appending text to the input of a successful parse appends it to the rest, and
more fuel does not change the result. -/
theorem parse_ext (f : Nat) :
    (∀ (g : Nat) (p q r : Str) (v : JVal), f ≤ g → parseV f p = some (v, r) →
      (q = [] ∨ r ≠ [] ∨ v.closed) → parseV g (p ++ q) = some (v, r ++ q)) ∧
    (∀ (g : Nat) (p q r : Str) (l : List JVal), f ≤ g → parseElems f p = some (l, r) →
      parseElems g (p ++ q) = some (l, r ++ q)) ∧
    (∀ (g : Nat) (p q r : Str) (l : List (Str × JVal)), f ≤ g → parseMembers f p = some (l, r) →
      parseMembers g (p ++ q) = some (l, r ++ q)) := by
  induction f with
  | zero => simp [parseV, parseElems, parseMembers]
  | succ f ih =>
    obtain ⟨ihV, ihE, ihM⟩ := ih
    refine ⟨?_, ?_, ?_⟩
    · intro g p q r v hg h hq
      obtain ⟨g, rfl⟩ : ∃ g', g = g' + 1 := ⟨g - 1, by omega⟩
      have hg' : f ≤ g := by omega
      rw [parseV] at h ⊢
      cases hs : skipWs p with
      | nil => rw [hs] at h; simp at h
      | cons b t =>
        rw [hs] at h
        rw [skipWs_append p q b t hs]
        simp only at h ⊢
        by_cases h1 : b = c!"{"
        · rw [if_pos h1] at h ⊢
          cases ht : skipWs t with
          | nil => rw [ht] at h; simp at h
          | cons b' t' =>
            rw [ht] at h
            rw [skipWs_append t q b' t' ht]
            simp only at h ⊢
            by_cases h2 : b' = c!"}"
            · rw [if_pos h2] at h ⊢; simp at h; simp [← h.1, ← h.2]
            · rw [if_neg h2] at h ⊢
              cases hm : parseMembers f (b' :: t') with
              | none => rw [hm] at h; simp at h
              | some x =>
                obtain ⟨l, r''⟩ := x
                rw [hm] at h; simp at h
                have := ihM g _ q _ _ hg' hm
                simp only [List.cons_append] at this
                rw [this]; simp [← h.1, ← h.2]
        rw [if_neg h1] at h ⊢
        by_cases h1 : b = c!"["
        · rw [if_pos h1] at h ⊢
          cases ht : skipWs t with
          | nil => rw [ht] at h; simp at h
          | cons b' t' =>
            rw [ht] at h
            rw [skipWs_append t q b' t' ht]
            simp only at h ⊢
            by_cases h2 : b' = c!"]"
            · rw [if_pos h2] at h ⊢; simp at h; simp [← h.1, ← h.2]
            · rw [if_neg h2] at h ⊢
              cases hm : parseElems f (b' :: t') with
              | none => rw [hm] at h; simp at h
              | some x =>
                obtain ⟨l, r''⟩ := x
                rw [hm] at h; simp at h
                have := ihE g _ q _ _ hg' hm
                simp only [List.cons_append] at this
                rw [this]; simp [← h.1, ← h.2]
        rw [if_neg h1] at h ⊢
        by_cases h1 : b = c!"\""
        · rw [if_pos h1] at h ⊢
          cases hm : scanStr t with
          | none => rw [hm] at h; simp at h
          | some x =>
            obtain ⟨l, r''⟩ := x
            rw [hm] at h; simp at h
            rw [scanStr_append _ q _ _ hm]; simp [← h.1, ← h.2]
        rw [if_neg h1] at h ⊢
        by_cases h1 : b = c!"t"
        · rw [if_pos h1] at h ⊢
          cases hm : scanLit b!"rue" t with
          | none => rw [hm] at h; simp at h
          | some x => rw [hm] at h; simp at h; rw [scanLit_append _ _ q _ hm]; simp [← h.1, ← h.2]
        rw [if_neg h1] at h ⊢
        by_cases h1 : b = c!"f"
        · rw [if_pos h1] at h ⊢
          cases hm : scanLit b!"alse" t with
          | none => rw [hm] at h; simp at h
          | some x => rw [hm] at h; simp at h; rw [scanLit_append _ _ q _ hm]; simp [← h.1, ← h.2]
        rw [if_neg h1] at h ⊢
        by_cases h1 : b = c!"n"
        · rw [if_pos h1] at h ⊢
          cases hm : scanLit b!"ull" t with
          | none => rw [hm] at h; simp at h
          | some x => rw [hm] at h; simp at h; rw [scanLit_append _ _ q _ hm]; simp [← h.1, ← h.2]
        rw [if_neg h1] at h ⊢
        by_cases h1 : (b = c!"-" || isDigit b) = true
        · rw [if_pos (by simpa using h1)] at h ⊢
          cases hm : scanNum (b :: t) with
          | none => rw [hm] at h; simp at h
          | some x =>
            obtain ⟨n, r''⟩ := x
            rw [hm] at h; simp at h
            obtain ⟨rfl, rfl⟩ := h
            rcases hq with rfl | hq | hq
            · simp [hm]
            · have := scanNum_ext _ q _ _ hm hq
              simp only [List.cons_append] at this
              rw [this]
            · simp [JVal.closed] at hq
        · rw [if_neg (by simpa using h1)] at h; cases h
    · intro g p q r l hg h
      obtain ⟨g, rfl⟩ : ∃ g', g = g' + 1 := ⟨g - 1, by omega⟩
      have hg' : f ≤ g := by omega
      rw [parseElems] at h ⊢
      cases hv : parseV f p with
      | none => rw [hv] at h; simp at h
      | some x =>
        obtain ⟨v, t⟩ := x
        rw [hv] at h
        simp only at h
        cases ht : skipWs t with
        | nil => rw [ht] at h; simp at h
        | cons b t' =>
          have hne : t ≠ [] := by rintro rfl; simp [skipWs] at ht
          rw [ihV g p q t v hg' hv (Or.inr (Or.inl hne))]
          rw [ht] at h
          simp only at h ⊢
          rw [skipWs_append t q b t' ht]
          simp only
          by_cases h1 : b = c!"]"
          · rw [if_pos h1] at h ⊢; simp at h; simp [← h.1, ← h.2]
          rw [if_neg h1] at h ⊢
          by_cases h1 : b = c!","
          · rw [if_pos h1] at h ⊢
            cases hm : parseElems f t' with
            | none => rw [hm] at h; simp at h
            | some x =>
              obtain ⟨l', r''⟩ := x
              rw [hm] at h; simp at h
              rw [ihE g _ q _ _ hg' hm]; simp [← h.1, ← h.2]
          · rw [if_neg h1] at h; cases h
    · intro g p q r l hg h
      obtain ⟨g, rfl⟩ : ∃ g', g = g' + 1 := ⟨g - 1, by omega⟩
      have hg' : f ≤ g := by omega
      rw [parseMembers] at h ⊢
      cases hs : skipWs p with
      | nil => rw [hs] at h; simp at h
      | cons c0 t0 =>
        rw [hs] at h
        rw [skipWs_append p q c0 t0 hs]
        simp only at h ⊢
        by_cases h1 : c0 = c!"\""
        case neg => rw [if_neg h1] at h; cases h
        rw [if_pos h1] at h ⊢
        cases hk : scanStr t0 with
        | none => rw [hk] at h; simp at h
        | some x =>
          obtain ⟨k, t1⟩ := x
          rw [hk] at h
          rw [scanStr_append _ q _ _ hk]
          simp only at h ⊢
          cases hc : skipWs t1 with
          | nil => rw [hc] at h; simp at h
          | cons c1 t2 =>
            rw [hc] at h
            rw [skipWs_append t1 q c1 t2 hc]
            simp only at h ⊢
            by_cases h1 : c1 = c!":"
            case neg => rw [if_neg h1] at h; cases h
            rw [if_pos h1] at h ⊢
            cases hv : parseV f t2 with
            | none => rw [hv] at h; simp at h
            | some x =>
              obtain ⟨v, t⟩ := x
              rw [hv] at h
              simp only at h
              cases ht : skipWs t with
              | nil => rw [ht] at h; simp at h
              | cons b t' =>
                have hne : t ≠ [] := by rintro rfl; simp [skipWs] at ht
                rw [ihV g t2 q t v hg' hv (Or.inr (Or.inl hne))]
                rw [ht] at h
                simp only at h ⊢
                rw [skipWs_append t q b t' ht]
                simp only
                by_cases h1 : b = c!"}"
                · rw [if_pos h1] at h ⊢; simp at h; simp [← h.1, ← h.2]
                rw [if_neg h1] at h ⊢
                by_cases h1 : b = c!","
                · rw [if_pos h1] at h ⊢
                  cases hm : parseMembers f t' with
                  | none => rw [hm] at h; simp at h
                  | some x =>
                    obtain ⟨l', r''⟩ := x
                    rw [hm] at h; simp at h
                    rw [ihM g _ q _ _ hg' hm]; simp [← h.1, ← h.2]
                · rw [if_neg h1] at h; cases h

theorem parseV_mono {f g : Nat} (h : f ≤ g) {p r : Str} {v : JVal}
    (hp : parseV f p = some (v, r)) : parseV g p = some (v, r) := by
  have := (parse_ext f).1 g p [] r v h hp (Or.inl rfl)
  simpa using this

/-! ### Fuel bound -/

theorem digits_length_pos (n : Nat) : 1 ≤ (digits n).length := by
  obtain ⟨b, t, h, _⟩ := digits_ne_nil n; rw [h]; simp

mutual
theorem need_le (v : JVal) (ind : Nat) (h : v.Wf) : need v ≤ (dumpV ind v).length := by
  match v with
  | .null => simp [need, dumpV]
  | .bool true => simp [need, dumpV]
  | .bool false => simp [need, dumpV]
  | .num (.uint n) => simpa [need, dumpV, dumpNum] using digits_length_pos n
  | .num (.nint n) => simp [need, dumpV, dumpNum]
  | .num (.flt _) => exact absurd h (by simp [JVal.Wf])
  | .str s => simp [need, dumpV, dumpStr]
  | .arr [] => simp [need, need.needL, dumpV]
  | .obj [] => simp [need, need.needM, dumpV]
  | .arr (v :: l) =>
    have h1 := need_le v (ind + 4) h.1
    have h2 := needL_le l (ind + 4) h.2
    simp only [need, need.needL, dumpV, List.length_append, List.length_cons, List.length_nil]
    omega
  | .obj ((k, v) :: l) =>
    have h1 := need_le v (ind + 4) h.2.2.1
    have h2 := needM_le l (ind + 4) h.2.2.2
    simp only [need, need.needM, dumpV, List.length_append, List.length_cons, List.length_nil]
    omega
theorem needL_le (l : List JVal) (ind : Nat) (h : JVal.Wf.WfL l) :
    need.needL l ≤ (dumpV.dumpRest ind l).length := by
  match l with
  | [] => simp [need.needL]
  | v :: l =>
    have h1 := need_le v ind h.1
    have h2 := needL_le l ind h.2
    simp only [need.needL, dumpV.dumpRest, List.length_append, List.length_cons, List.length_nil]
    omega
theorem needM_le (l : List (Str × JVal)) (ind : Nat) (h : JVal.Wf.WfM l) :
    need.needM l ≤ (dumpV.dumpRestM ind l).length := by
  match l with
  | [] => simp [need.needM]
  | (k, v) :: l =>
    have h1 := need_le v ind h.2.1
    have h2 := needM_le l ind h.2.2
    simp only [need.needM, dumpV.dumpRestM, List.length_append, List.length_cons, List.length_nil]
    omega
end

/-! ### Whole documents -/

theorem skipBom_ok {s : Str} {b : UInt8} {t : Str} (h : s = b :: t) (hb : b ≠ 0xEF) :
    skipBom s = some s := by subst h; simp [skipBom, hb]

theorem dumpV_head_ascii (ind : Nat) (v : JVal) (h : v.Wf) :
    ∃ b t, dumpV ind v = b :: t ∧ b ≠ 0xEF := by
  match v with
  | .null => exact ⟨_, _, rfl, by decide⟩
  | .bool true => exact ⟨_, _, rfl, by decide⟩
  | .bool false => exact ⟨_, _, rfl, by decide⟩
  | .num (.uint n) =>
    obtain ⟨b, t, hb, hd⟩ := digits_ne_nil n
    refine ⟨b, t, by simp [dumpV, dumpNum, hb], ?_⟩
    (simp only [isDigit, inRange_iff] at hd; grind)
  | .num (.nint n) => exact ⟨_, _, rfl, by decide⟩
  | .num (.flt _) => exact absurd h (by simp [JVal.Wf])
  | .str s => exact ⟨_, _, rfl, by decide⟩
  | .arr [] => exact ⟨_, _, rfl, by decide⟩
  | .arr (_ :: _) => exact ⟨_, _, rfl, by decide⟩
  | .obj [] => exact ⟨_, _, rfl, by decide⟩
  | .obj ((_, _) :: _) => exact ⟨_, _, rfl, by decide⟩

mutual
theorem Wf.valid (v : JVal) (h : v.Wf) : v.valid = true := by
  match v with
  | .null => rfl
  | .bool _ => rfl
  | .num _ => rfl
  | .str s => exact h
  | .arr l => exact WfL.valid l h
  | .obj l => exact WfM.valid l h.2
theorem WfL.valid (l : List JVal) (h : JVal.Wf.WfL l) : JVal.valid.validList l = true := by
  match l with
  | [] => rfl
  | v :: l => simp [JVal.valid.validList, Wf.valid v h.1, WfL.valid l h.2]
theorem WfM.valid (l : List (Str × JVal)) (h : JVal.Wf.WfM l) :
    JVal.valid.validMembers l = true := by
  match l with
  | [] => rfl
  | (k, v) :: l => simp [JVal.valid.validMembers, h.1, Wf.valid v h.2.1, WfM.valid l h.2.2]
end

/-- Dumping a well-formed value and parsing the text gives the value back. -/
theorem parse_dump (v : JVal) (h : v.Wf) (s : Str) (hs : dump v = some s) :
    parse s = some v := by
  simp only [dump, Wf.valid v h, if_true, Option.some.injEq] at hs
  subst hs
  obtain ⟨b, t, hb, hne⟩ := dumpV_head_ascii 0 v h
  have h1 := parseV_dump v 0 (2 * (dumpV 0 v).length + 2) [] h
    (by have := need_le v 0 h; omega) After.nil
  simp only [List.append_nil] at h1
  simp [parse, skipBom_ok hb hne, h1, atEnd, skipWs]

/-- No strict prefix of the text of a dumped object parses. -/
theorem parse_prefix (l : List (Str × JVal)) (h : (JVal.obj l).Wf) (p q : Str)
    (hs : dumpV 0 (.obj l) = p ++ q) (hq : q ≠ []) : parse p = none := by
  cases hp : parse p with
  | none => rfl
  | some w =>
    exfalso
    have h1 := parseV_dump (.obj l) 0 (2 * (dumpV 0 (.obj l)).length + 2) [] h
      (by have := need_le _ 0 h; omega) After.nil
    simp only [List.append_nil] at h1
    have hhead : ∃ t, dumpV 0 (.obj l) = c!"{" :: t := by
      match l with
      | [] => exact ⟨_, rfl⟩
      | (_, _) :: _ => exact ⟨_, rfl⟩
    obtain ⟨t, ht⟩ := hhead
    cases p with
    | nil => simp [parse, skipBom, parseV, skipWs] at hp
    | cons b p =>
      have hb : b = c!"{" := by
        rw [ht] at hs; simp at hs; exact hs.1.symm
      subst hb
      rw [parse, skipBom_ok rfl (by decide)] at hp
      simp only at hp
      split at hp
      · cases hp
      · rename_i v r hv
        have hcl : v.closed := by
          rw [parseV, skipWs_cons (by decide)] at hv
          simp only [if_true] at hv
          split at hv
          · cases hv
          · split at hv
            · simp at hv; rw [← hv.1]; trivial
            · split at hv
              · simp at hv; rw [← hv.1]; trivial
              · cases hv
        have h2 := (parse_ext _).1 (2 * (dumpV 0 (.obj l)).length + 2) _ q _ _
          (by rw [hs]; simp; omega) hv (Or.inr (Or.inr hcl))
        rw [← hs, h1] at h2
        simp at h2
        exact hq h2.2.2

end Verif.Json
