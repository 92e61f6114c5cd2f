import Verif.Json.GrammarNum

/-! # The parser of the model accepts exactly the grammar -/

namespace Verif.Json
open Verif Verif.Json.Grammar

theorem ws_iff {b : UInt8} :
    isWs b = true ↔ b = c!" " ∨ b = c!"\t" ∨ b = c!"\n" ∨ b = c!"\r" := by
  unfold isWs
  simp only [Bool.or_eq_true, decide_eq_true_eq, or_assoc]

theorem skipWs_split (s : Str) : ∃ w, Ws w ∧ s = w ++ skipWs s := by
  induction s with
  | nil => exact ⟨[], by simp [Ws], rfl⟩
  | cons b s ih =>
    rw [skipWs]
    split
    · rename_i hb
      obtain ⟨w, hw, e⟩ := ih
      refine ⟨b :: w, ?_, by rw [List.cons_append, ← e]⟩
      intro x hx
      rcases List.mem_cons.1 hx with rfl | hx
      · exact ws_iff.1 hb
      · exact hw x hx
    · exact ⟨[], by simp [Ws], rfl⟩

theorem skipWs_ws {w : Str} (hw : Ws w) (s : Str) : skipWs (w ++ s) = skipWs s := by
  induction w with
  | nil => rfl
  | cons b w ih =>
    rw [List.cons_append, skipWs, if_pos (ws_iff.2 (hw b (by simp)))]
    exact ih (fun x hx => hw x (by simp [hx]))

theorem scanLit_sound {lit s r : Str} (h : scanLit lit s = some r) : s = lit ++ r := by
  unfold scanLit at h
  split at h
  · rename_i hp
    rw [List.isPrefixOf_iff_prefix] at hp
    obtain ⟨t, rfl⟩ := hp
    simp only [List.drop_left, Option.some.injEq] at h
    rw [h]
  · contradiction

theorem scanLit_complete (lit r : Str) : scanLit lit (lit ++ r) = some r := by
  unfold scanLit
  rw [if_pos (by rw [List.isPrefixOf_iff_prefix]; exact ⟨r, rfl⟩), List.drop_left]

/-! ## Soundness -/

theorem parse_sound (f : Nat) :
    (∀ s v r, parseV f s = some (v, r) → ∃ w t, Ws w ∧ Text v t ∧ s = w ++ t ++ r) ∧
    (∀ s l r, parseElems f s = some (l, r) → ∃ t, Elems l t ∧ s = t ++ b!"]" ++ r) ∧
    (∀ s l r, parseMembers f s = some (l, r) → ∃ t, Members l t ∧ s = t ++ b!"}" ++ r) := by
  induction f with
  | zero =>
    refine ⟨?_, ?_, ?_⟩ <;> intro s v r h
    · rw [parseV] at h; contradiction
    · rw [parseElems] at h; contradiction
    · rw [parseMembers] at h; contradiction
  | succ f ih =>
    obtain ⟨ihV, ihE, ihM⟩ := ih
    refine ⟨?_, ?_, ?_⟩
    · intro s v r h
      rw [parseV] at h
      obtain ⟨w, hw, es⟩ := skipWs_split s
      split at h
      · contradiction
      rename_i b s1 hs1
      rw [hs1] at es
      refine ⟨w, ?_⟩
      suffices hh : ∃ t, Text v t ∧ b :: s1 = t ++ r by
        obtain ⟨t, ht, e⟩ := hh
        exact ⟨t, hw, ht, by rw [es, e, List.append_assoc]⟩
      clear es hs1 hw
      split at h
      · rename_i hb
        subst hb
        obtain ⟨w1, hw1, e1⟩ := skipWs_split s1
        split at h
        · contradiction
        rename_i b' s2 hs2
        rw [hs2] at e1
        split at h
        · rename_i hb'
          subst hb'
          simp only [Option.some.injEq, Prod.mk.injEq] at h
          obtain ⟨rfl, rfl⟩ := h
          exact ⟨_, .emptyObj hw1, by rw [e1]; simp⟩
        · split at h
          · rename_i l r' hm
            simp only [Option.some.injEq, Prod.mk.injEq] at h
            obtain ⟨rfl, rfl⟩ := h
            have hm' : parseMembers f s1 = some (l, r') := by
              rw [← parseMembers_skip, hs2]; exact hm
            obtain ⟨t, ht, rfl⟩ := ihM _ _ _ hm'
            exact ⟨_, .obj ht (mkObj_denotes l), by simp⟩
          · contradiction
      split at h
      · rename_i hb
        subst hb
        obtain ⟨w1, hw1, e1⟩ := skipWs_split s1
        split at h
        · contradiction
        rename_i b' s2 hs2
        rw [hs2] at e1
        split at h
        · rename_i hb'
          subst hb'
          simp only [Option.some.injEq, Prod.mk.injEq] at h
          obtain ⟨rfl, rfl⟩ := h
          exact ⟨_, .emptyArr hw1, by rw [e1]; simp⟩
        · split at h
          · rename_i l r' hm
            simp only [Option.some.injEq, Prod.mk.injEq] at h
            obtain ⟨rfl, rfl⟩ := h
            have hm' : parseElems f s1 = some (l, r') := by
              rw [← parseElems_skip, hs2]; exact hm
            obtain ⟨t, ht, rfl⟩ := ihE _ _ _ hm'
            exact ⟨_, .arr ht, by simp⟩
          · contradiction
      split at h
      · rename_i hb
        subst hb
        split at h
        · rename_i k r' hk
          simp only [Option.some.injEq, Prod.mk.injEq] at h
          obtain ⟨rfl, rfl⟩ := h
          obtain ⟨t, ht, rfl⟩ := scanStr_sound _ (Nat.le_refl _) hk
          exact ⟨_, .str ht, by simp⟩
        · contradiction
      split at h
      · rename_i hb
        subst hb
        split at h
        · rename_i r' hk
          simp only [Option.some.injEq, Prod.mk.injEq] at h
          obtain ⟨rfl, rfl⟩ := h
          exact ⟨_, .true, by rw [scanLit_sound hk]; rfl⟩
        · contradiction
      split at h
      · rename_i hb
        subst hb
        split at h
        · rename_i r' hk
          simp only [Option.some.injEq, Prod.mk.injEq] at h
          obtain ⟨rfl, rfl⟩ := h
          exact ⟨_, .false, by rw [scanLit_sound hk]; rfl⟩
        · contradiction
      split at h
      · rename_i hb
        subst hb
        split at h
        · rename_i r' hk
          simp only [Option.some.injEq, Prod.mk.injEq] at h
          obtain ⟨rfl, rfl⟩ := h
          exact ⟨_, .null, by rw [scanLit_sound hk]; rfl⟩
        · contradiction
      split at h
      · split at h
        · rename_i n r' hn
          simp only [Option.some.injEq, Prod.mk.injEq] at h
          obtain ⟨rfl, rfl⟩ := h
          obtain ⟨t, ht, e⟩ := scanNum_sound hn
          exact ⟨_, .num ht, e⟩
        · contradiction
      · contradiction
    · intro s l r h
      rw [parseElems] at h
      split at h
      · contradiction
      rename_i v r1 hv
      obtain ⟨w, t, hw, ht, rfl⟩ := ihV _ _ _ hv
      obtain ⟨w', hw', e'⟩ := skipWs_split r1
      split at h
      · contradiction
      rename_i b r2 hr2
      rw [hr2] at e'
      split at h
      · rename_i hb
        subst hb
        simp only [Option.some.injEq, Prod.mk.injEq] at h
        obtain ⟨rfl, rfl⟩ := h
        exact ⟨_, .one hw ht hw', by rw [e']; simp⟩
      split at h
      · rename_i hb
        subst hb
        split at h
        · rename_i l' r3 hl
          simp only [Option.some.injEq, Prod.mk.injEq] at h
          obtain ⟨rfl, rfl⟩ := h
          obtain ⟨t', ht', rfl⟩ := ihE _ _ _ hl
          exact ⟨_, .cons hw ht hw' ht', by rw [e']; simp⟩
        · contradiction
      · contradiction
    · intro s l r h
      rw [parseMembers] at h
      obtain ⟨w, hw, es⟩ := skipWs_split s
      split at h
      · contradiction
      rename_i q s1 hs1
      rw [hs1] at es
      split at h <;> try contradiction
      rename_i hq
      subst hq
      split at h
      · contradiction
      rename_i k s2 hk
      obtain ⟨tk, htk, rfl⟩ := scanStr_sound _ (Nat.le_refl _) hk
      obtain ⟨w1, hw1, e1⟩ := skipWs_split s2
      split at h
      · contradiction
      rename_i c s3 hs3
      rw [hs3] at e1
      split at h <;> try contradiction
      rename_i hc
      subst hc
      split at h
      · contradiction
      rename_i v s4 hv
      obtain ⟨w2, t, hw2, ht, rfl⟩ := ihV _ _ _ hv
      obtain ⟨w3, hw3, e3⟩ := skipWs_split s4
      split at h
      · contradiction
      rename_i b s5 hs5
      rw [hs5] at e3
      split at h
      · rename_i hb
        subst hb
        simp only [Option.some.injEq, Prod.mk.injEq] at h
        obtain ⟨rfl, rfl⟩ := h
        exact ⟨_, .one hw htk hw1 hw2 ht hw3, by rw [es, e1, e3]; simp⟩
      split at h
      · rename_i hb
        subst hb
        split at h
        · rename_i l' r3 hl
          simp only [Option.some.injEq, Prod.mk.injEq] at h
          obtain ⟨rfl, rfl⟩ := h
          obtain ⟨t', ht', rfl⟩ := ihM _ _ _ hl
          exact ⟨_, .cons hw htk hw1 hw2 ht hw3 ht', by rw [es, e1, e3]; simp⟩
        · contradiction
      · contradiction

/-! ## Completeness -/

theorem text_head {v : JVal} {t : Str} (h : Text v t) :
    ∃ b u, t = b :: u ∧ isWs b = false ∧ b ≠ c!"]" ∧ b ≠ c!"}" := by
  cases h with
  | null => exact ⟨_, _, rfl, by decide⟩
  | true => exact ⟨_, _, rfl, by decide⟩
  | false => exact ⟨_, _, rfl, by decide⟩
  | str _ => exact ⟨_, _, rfl, by decide⟩
  | num hn =>
    obtain ⟨b, u, rfl, hb⟩ := number_head hn
    refine ⟨b, u, rfl, ?_⟩
    rcases hb with rfl | hb
    · decide
    · refine ⟨(isDigit_start hb).1, ?_, ?_⟩ <;> (rintro rfl; exact absurd hb (by decide))
  | emptyArr _ => exact ⟨_, _, rfl, by decide⟩
  | arr _ => exact ⟨_, _, rfl, by decide⟩
  | emptyObj _ => exact ⟨_, _, rfl, by decide⟩
  | obj _ _ => exact ⟨_, _, rfl, by decide⟩

theorem skip_text {v : JVal} {t w : Str} (h : Text v t) (hw : Ws w) (r : Str) :
    skipWs (w ++ (t ++ r)) = t ++ r := by
  obtain ⟨b, u, rfl, hb, -⟩ := text_head h
  rw [skipWs_ws hw, List.cons_append, skipWs_cons hb]

theorem numEnd_ws {w r : Str} (hw : Ws w) (hr : NumEnd r) : NumEnd (w ++ r) := by
  cases w with
  | nil => exact hr
  | cons b w =>
    intro c t h
    rw [List.cons_append] at h
    obtain ⟨rfl, -⟩ := List.cons.inj h
    rcases hw b (by simp) with rfl | rfl | rfl | rfl <;> decide

theorem numEnd_cons {b : UInt8} (r : Str)
    (h : isDigit b = false ∧ b ≠ c!"." ∧ b ≠ c!"e" ∧ b ≠ c!"E") : NumEnd (b :: r) := by
  intro c t e
  obtain ⟨rfl, -⟩ := List.cons.inj e
  exact h

theorem elems_head {l : List JVal} {t : Str} (h : Elems l t) (r : Str) :
    ∃ b u, skipWs (t ++ r) = b :: u ∧ b ≠ c!"]" := by
  cases h with
  | @one v w t w' hw ht hw' =>
    rw [List.append_assoc, List.append_assoc, skip_text ht hw]
    obtain ⟨b, u, rfl, -, hb, -⟩ := text_head ht
    exact ⟨b, _, rfl, hb⟩
  | @cons v l w t w' r' hw ht hw' hr =>
    rw [show w ++ t ++ w' ++ b!"," ++ r' ++ r = w ++ (t ++ (w' ++ b!"," ++ r' ++ r)) by simp,
      skip_text ht hw]
    obtain ⟨b, u, rfl, -, hb, -⟩ := text_head ht
    exact ⟨b, _, rfl, hb⟩

theorem members_head {l : List (Str × JVal)} {t : Str} (h : Members l t) (r : Str) :
    ∃ u, skipWs (t ++ r) = c!"\"" :: u := by
  cases h with
  | @one k q w w1 w2 w3 t v hw _ _ _ _ _ =>
    simp only [List.append_assoc]
    rw [skipWs_ws hw]
    exact ⟨_, skipWs_cons (by decide) _⟩
  | @cons k q w w1 w2 w3 t r' v l hw _ _ _ _ _ _ =>
    simp only [List.append_assoc]
    rw [skipWs_ws hw]
    exact ⟨_, skipWs_cons (by decide) _⟩

mutual
theorem parseV_complete {v : JVal} {t : Str} (h : Text v t) (f : Nat) (w r : Str) (hw : Ws w)
    (hf : 2 * t.length ≤ f + 1) (hr : NumEnd r) : parseV f (w ++ (t ++ r)) = some (v, r) := by
  obtain ⟨f, rfl⟩ : ∃ g, f = g + 1 := by
    obtain ⟨b, u, rfl, -⟩ := text_head h
    simp only [List.length_cons] at hf
    exact ⟨f - 1, by omega⟩
  rw [parseV, skip_text h hw]
  match h with
  | .null => rfl
  | .true => rfl
  | .false => rfl
  | .str hc =>
    have := scanStr_complete hc r
    simp only [List.cons_append, List.nil_append, List.append_assoc, this]
    rfl
  | .num hn =>
    have := scanNum_complete hn hr
    obtain ⟨b, u, rfl, hb⟩ := number_head hn
    simp only [List.cons_append] at this ⊢
    rw [this]
    rcases hb with rfl | hb
    · rfl
    · obtain ⟨h2, h3, h4, h5, h6, h7, h8⟩ := isDigit_start hb
      rw [if_neg h3, if_neg h4, if_neg h5, if_neg h6, if_neg h7, if_neg h8,
        if_pos (by simp [hb])]
  | .emptyArr hw1 =>
    simp only [List.cons_append, List.nil_append, List.append_assoc, skipWs_ws hw1]
    rfl
  | .emptyObj hw1 =>
    simp only [List.cons_append, List.nil_append, List.append_assoc, skipWs_ws hw1]
    rfl
  | .arr (t := e) he =>
    have hl : (b!"[" ++ e ++ b!"]").length = e.length + 2 := by simp
    have h1 := parseElems_complete he f r (by omega)
    obtain ⟨b, u, hb, hne⟩ := elems_head he (b!"]" ++ r)
    simp only [List.cons_append, List.nil_append, List.append_assoc] at h1 hb ⊢
    rw [if_neg (by decide), if_pos trivial]
    rw [← parseElems_skip, hb] at h1
    rw [hb]
    simp only [if_neg hne, h1]
  | .obj (t := e) (l := l) he hd =>
    have hl : (b!"{" ++ e ++ b!"}").length = e.length + 2 := by simp
    have h1 := parseMembers_complete he f r (by omega)
    obtain ⟨u, hb⟩ := members_head he (b!"}" ++ r)
    simp only [List.cons_append, List.nil_append, List.append_assoc] at h1 hb ⊢
    rw [if_pos trivial]
    rw [← parseMembers_skip, hb] at h1
    rw [hb]
    simp only [h1, denotes_iff.1 hd]
    rfl
theorem parseElems_complete {l : List JVal} {e : Str} (h : Elems l e) (f : Nat) (r : Str)
    (hf : 2 * e.length ≤ f) : parseElems f (e ++ b!"]" ++ r) = some (l, r) := by
  match h with
  | .one (w := w) (t := t) (w' := w') hw ht hw' =>
    obtain ⟨f, rfl⟩ : ∃ g, f = g + 1 := by
      obtain ⟨b, u, rfl, -⟩ := text_head ht
      simp only [List.length_append, List.length_cons] at hf
      exact ⟨f - 1, by omega⟩
    simp only [List.length_append] at hf
    have h1 := parseV_complete ht f w (w' ++ (b!"]" ++ r)) hw (by omega)
      (numEnd_ws hw' (numEnd_cons _ (by decide)))
    rw [parseElems, show w ++ t ++ w' ++ b!"]" ++ r = w ++ (t ++ (w' ++ (b!"]" ++ r))) by simp, h1]
    simp only [skipWs_ws hw']
    rfl
  | .cons (w := w) (t := t) (w' := w') (r := r') hw ht hw' hr =>
    obtain ⟨f, rfl⟩ : ∃ g, f = g + 1 := by
      simp only [List.length_append, List.length_cons] at hf
      exact ⟨f - 1, by omega⟩
    simp only [List.length_append, List.length_cons, List.length_nil] at hf
    have h1 := parseV_complete ht f w (w' ++ (b!"," ++ (r' ++ b!"]" ++ r))) hw (by omega)
      (numEnd_ws hw' (numEnd_cons _ (by decide)))
    have h2 := parseElems_complete hr f r (by omega)
    rw [parseElems, show w ++ t ++ w' ++ b!"," ++ r' ++ b!"]" ++ r =
      w ++ (t ++ (w' ++ (b!"," ++ (r' ++ b!"]" ++ r)))) by simp, h1]
    simp only [skipWs_ws hw']
    rw [List.cons_append, List.nil_append, skipWs_cons (by decide)]
    simp only [h2]
    rfl
theorem parseMembers_complete {l : List (Str × JVal)} {e : Str} (h : Members l e) (f : Nat)
    (r : Str) (hf : 2 * e.length ≤ f) : parseMembers f (e ++ b!"}" ++ r) = some (l, r) := by
  match h with
  | .one (k := k) (q := q) (w := w) (w1 := w1) (w2 := w2) (w3 := w3) (t := t) hw hk hw1 hw2 ht hw3 =>
    obtain ⟨f, rfl⟩ : ∃ g, f = g + 1 := by
      simp only [List.length_append, List.length_cons] at hf
      exact ⟨f - 1, by omega⟩
    simp only [List.length_append, List.length_cons, List.length_nil] at hf
    have h1 := parseV_complete ht f w2 (w3 ++ (b!"}" ++ r)) hw2 (by omega)
      (numEnd_ws hw3 (numEnd_cons _ (by decide)))
    have hs := scanStr_complete hk (w1 ++ (c!":" :: (w2 ++ (t ++ (w3 ++ (b!"}" ++ r))))))
    rw [parseMembers, show w ++ b!"\"" ++ q ++ b!"\"" ++ w1 ++ b!":" ++ w2 ++ t ++ w3 ++ b!"}" ++ r =
      w ++ (c!"\"" :: (q ++ c!"\"" :: (w1 ++ (c!":" :: (w2 ++ (t ++ (w3 ++ (b!"}" ++ r))))))))
      by simp, skipWs_ws hw, skipWs_cons (by decide)]
    simp only [hs, skipWs_ws hw1, skipWs_cons (b := c!":") (by decide), h1, skipWs_ws hw3]
    rfl
  | .cons (k := k) (q := q) (w := w) (w1 := w1) (w2 := w2) (w3 := w3) (t := t) (r := r') hw hk hw1
      hw2 ht hw3 hr =>
    obtain ⟨f, rfl⟩ : ∃ g, f = g + 1 := by
      simp only [List.length_append, List.length_cons] at hf
      exact ⟨f - 1, by omega⟩
    simp only [List.length_append, List.length_cons, List.length_nil] at hf
    have h1 := parseV_complete ht f w2 (w3 ++ (c!"," :: (r' ++ b!"}" ++ r))) hw2 (by omega)
      (numEnd_ws hw3 (numEnd_cons _ (by decide)))
    have h2 := parseMembers_complete hr f r (by omega)
    have hs := scanStr_complete hk
      (w1 ++ (c!":" :: (w2 ++ (t ++ (w3 ++ (c!"," :: (r' ++ b!"}" ++ r)))))))
    rw [parseMembers, show w ++ b!"\"" ++ q ++ b!"\"" ++ w1 ++ b!":" ++ w2 ++ t ++ w3 ++ b!"," ++ r'
        ++ b!"}" ++ r =
      w ++ (c!"\"" :: (q ++ c!"\"" :: (w1 ++ (c!":" :: (w2 ++ (t ++ (w3 ++ (c!"," :: (r' ++ b!"}" ++ r)))))))))
      by simp, skipWs_ws hw, skipWs_cons (by decide)]
    simp only [hs, skipWs_ws hw1, skipWs_cons (b := c!":") (by decide), h1, skipWs_ws hw3,
      skipWs_cons (b := c!",") (by decide), h2]
    rfl
end

/-! ## Files -/

theorem atEnd_iff {r : Str} :
    atEnd r = true ↔ ∃ w tail, r = w ++ tail ∧ Ws w ∧ (tail = [] ∨ ∃ x, tail = 0 :: x) := by
  constructor
  · intro h
    obtain ⟨w, hw, e⟩ := skipWs_split r
    refine ⟨w, skipWs r, e, hw, ?_⟩
    unfold atEnd at h
    split at h
    · exact .inl ‹_›
    · rename_i b t hs
      simp only [decide_eq_true_eq] at h
      exact .inr ⟨t, by rw [hs, h]⟩
  · rintro ⟨w, tail, rfl, hw, rfl | ⟨x, rfl⟩⟩
    · unfold atEnd; rw [skipWs_ws hw]; rfl
    · unfold atEnd; rw [skipWs_ws hw, skipWs_cons (by decide)]; rfl

theorem text_not_bom {v : JVal} {t : Str} (h : Text v t) {b : UInt8} {u : Str} (e : t = b :: u) :
    b ≠ 0xEF := by
  subst e
  rintro rfl
  generalize he : (0xEF : UInt8) :: u = t at h
  cases h with
  | num hn =>
    obtain ⟨b, u', e, hb⟩ := number_head hn
    rw [e] at he
    obtain ⟨rfl, -⟩ := List.cons.inj he
    rcases hb with hb | hb <;> exact absurd hb (by decide)
  | null | true | false | str | emptyArr | arr | emptyObj | obj =>
    exact absurd (List.cons.inj he).1 (by decide)

/-- The parser accepts exactly the documents of the grammar, with their value. -/
theorem parse_iff (s : Str) (v : JVal) : parse s = some v ↔ Document v s := by
  constructor
  · intro h
    unfold parse at h
    split at h
    · contradiction
    rename_i s1 hb
    split at h
    · contradiction
    rename_i v' r hv
    split at h
    · rename_i hr
      simp only [Option.some.injEq] at h
      subst h
      obtain ⟨w, t, hw, ht, rfl⟩ := (parse_sound _).1 _ _ _ hv
      obtain ⟨w', tail, rfl, hw', htail⟩ := atEnd_iff.1 hr
      unfold skipBom at hb
      split at hb
      · simp only [Option.some.injEq] at hb
        exact ⟨[], w, t, w', tail, by simpa using hb, .inl rfl, hw, ht, hw', htail⟩
      · rename_i b s
        split at hb
        · rename_i h1
          subst h1
          split at hb
          · split at hb
            · rename_i h2
              obtain ⟨rfl, rfl⟩ := h2
              simp only [Option.some.injEq] at hb
              subst hb
              exact ⟨[0xEF, 0xBB, 0xBF], w, t, w', tail, by simp, .inr rfl, hw, ht, hw', htail⟩
            · contradiction
          · contradiction
        · simp only [Option.some.injEq] at hb
          exact ⟨[], w, t, w', tail, by simpa using hb, .inl rfl, hw, ht, hw', htail⟩
    · contradiction
  · rintro ⟨bom, w, t, w', tail, rfl, hbom, hw, ht, hw', htail⟩
    have hend : NumEnd (w' ++ tail) := by
      apply numEnd_ws hw'
      rcases htail with rfl | ⟨x, rfl⟩
      · intro b t h; cases h
      · exact numEnd_cons _ (by decide)
    have hv := parseV_complete ht (2 * (w ++ (t ++ (w' ++ tail))).length + 2) w (w' ++ tail) hw
      (by simp only [List.length_append]; omega) hend
    have hskip : skipBom (bom ++ w ++ t ++ w' ++ tail) = some (w ++ (t ++ (w' ++ tail))) := by
      rcases hbom with rfl | rfl
      · obtain ⟨b, u, rfl, -⟩ := text_head ht
        have hb := text_not_bom ht rfl
        cases w with
        | nil => simp [skipBom, hb]
        | cons c w =>
          have : c ≠ 0xEF := by
            rcases hw c (by simp) with rfl | rfl | rfl | rfl <;> decide
          simp [skipBom, this]
      · simp [skipBom]
    unfold parse
    rw [hskip]
    simp only [hv]
    rw [if_pos (atEnd_iff.2 ⟨w', tail, rfl, hw', htail⟩)]

end Verif.Json
