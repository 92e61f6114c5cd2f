import Verif.Path.ObjLemmas
import Verif.Path.Spec

/-! More helper lemmas for the path properties. -/

namespace Verif.Path
open Verif

theorem comps_of_normal (s : Str) (hs : s ≠ []) :
    ∃ st : NState, GoodStack (isAbs s) st.stack ∧ toPathString s = render (isAbs s) st :=
  let ⟨st, h1, h2⟩ := lexNormal_eq s hs
  ⟨st, h1, h2⟩

theorem split_normal (s : Str) (hs : s ≠ []) (hd : toPathString s ≠ dot) :
    ∃ names k tr, (∀ c ∈ names, IsName c) ∧ (isAbs s = true → k = 0) ∧
      (tr = true → names ≠ []) ∧
      (names = [] → k = 0 → isAbs s = true) ∧
      splitSlash (toPathString s) =
        (if isAbs s then [[]] else []) ++ (List.replicate k dotdot ++ names)
          ++ (if tr ∨ (isAbs s ∧ names = []) then [[]] else []) := by
  obtain ⟨st, ⟨names, k, hst, hn, hk⟩, he⟩ := comps_of_normal s hs
  have hns : ∀ c ∈ st.stack.reverse, slash ∉ c := by
    intro c hc
    rw [List.mem_reverse, hst, List.mem_append, List.mem_replicate] at hc
    rcases hc with hc | ⟨_, rfl⟩
    · exact (hn c hc).2.2.2
    · decide
  cases hs2 : st.stack with
  | nil =>
    have : names = [] ∧ k = 0 := by
      rw [hs2] at hst
      have h2 := hst.symm
      rw [List.append_eq_nil_iff] at h2
      exact ⟨h2.1, by simpa using h2.2⟩
    rw [render, hs2] at he
    cases ha : isAbs s with
    | false => rw [ha] at he; exact absurd he hd
    | true =>
      rw [ha] at he
      refine ⟨[], 0, false, by simp, by simp, by simp, by simp, ?_⟩
      rw [he]; simp [splitSlash]
  | cons top rest =>
    have hj : ∀ tl, splitSlash ((if isAbs s = true then [slash] else []) ++
        joinSlash (top :: rest).reverse ++ (if tl = true then [slash] else [])) =
        (if isAbs s then [[]] else []) ++ (top :: rest).reverse ++ (if tl = true then [[]] else []) := by
      intro tl
      have h1 : splitSlash (joinSlash (top :: rest).reverse) = (top :: rest).reverse :=
        splitSlash_joinSlash _ (by simp) (by rw [← hs2]; exact hns)
      have h2 : splitSlash (joinSlash (top :: rest).reverse ++ (if tl = true then [slash] else []))
          = (top :: rest).reverse ++ (if tl = true then [[]] else []) := by
        cases tl with
        | false => simp only [Bool.false_eq_true, if_false, List.append_nil]; exact h1
        | true =>
          simp only [if_true]
          have := splitSlash_append (joinSlash (top :: rest).reverse) []
          rw [this, h1]; rfl
      cases isAbs s with
      | false => simpa only [Bool.false_eq_true, if_false, List.nil_append] using h2
      | true =>
        simp only [if_true]
        rw [List.append_assoc, List.append_assoc, ← h2]
        simp [splitSlash]
    have he2 : toPathString s = (if isAbs s = true then [slash] else []) ++
        joinSlash (top :: rest).reverse ++
        (if (decide (st.trail = true ∧ top ≠ dotdot)) = true then [slash] else []) := by
      rw [he, render, hs2]
      simp
    refine ⟨names.reverse, k, decide (st.trail = true ∧ top ≠ dotdot), ?_, hk, ?_, ?_, ?_⟩
    · intro c hc; exact hn c (List.mem_reverse.1 hc)
    · intro h hnil
      have hnil : names = [] := by simpa using hnil
      have h := of_decide_eq_true h
      rw [hs2, hnil, List.nil_append] at hst
      have : top ∈ List.replicate k dotdot := by rw [← hst]; simp
      exact h.2 (List.mem_replicate.1 this).2
    · intro h1 h2
      rw [hs2] at hst
      simp [h2, List.reverse_eq_nil_iff.1 h1] at hst
    · rw [he2, hj, ← hs2, hst]
      have hz : ¬ (isAbs s = true ∧ names.reverse = []) := by
        rintro ⟨ha, hnil⟩
        rw [hs2, hk ha, List.reverse_eq_nil_iff.1 hnil] at hst
        simp at hst
      have hz' : ¬ (isAbs s = true ∧ names = []) := by simpa using hz
      simp [hz']


theorem lexNormal_ne_nil (s : Str) (h : s ≠ []) : lexNormal s ≠ [] := by
  obtain ⟨st, hg, he⟩ := lexNormal_eq s h
  rw [he]; exact render_ne_nil _ _ hg

theorem mismatch_self_append (l a : List Str) : mismatch (l ++ a) l = (a, []) := by
  induction l with
  | nil => cases a <;> rfl
  | cons x l ih => simp [mismatch, ih]

theorem joinSlash_append (l m : List Str) (hl : l ≠ []) (hm : m ≠ []) :
    joinSlash (l ++ m) = joinSlash l ++ slash :: joinSlash m := by
  induction l with
  | nil => exact absurd rfl hl
  | cons x l ih =>
    cases l with
    | nil =>
      cases m with
      | nil => exact absurd rfl hm
      | cons y m => rfl
    | cons z l =>
      have := ih (by simp)
      simp only [List.cons_append] at this ⊢
      have e : ∀ w : List Str, joinSlash (x :: z :: w) = x ++ slash :: joinSlash (z :: w) := fun _ => rfl
      rw [e, e, this]
      simp

theorem lexRelative_inside (root r : Str) (hroot : toPathString root = root)
    (habs : isAbs root = true) (hfn : filename root ≠ [])
    (h : toPathString (root ++ b!"/" ++ r) = root ++ b!"/" ++ r) (hf : filename r ≠ []) :
    lexRelative (root ++ b!"/" ++ r) root = r := by
  obtain ⟨rn, rne, rnn, hr⟩ := names_of_normal root habs hroot hfn
  have hne : root ≠ [] := by rintro rfl; simp [isAbs] at habs
  have ha : isAbs (root ++ b!"/" ++ r) = true := by
    rw [List.append_assoc, isAbs_append _ _ hne]; exact habs
  have hf2 : filename (root ++ b!"/" ++ r) ≠ [] := by
    have := (splitFile_prefix (root ++ [slash]) r (Or.inr ⟨root, rfl⟩)).2
    rw [this]; exact hf
  obtain ⟨sn, sne, snn, hs⟩ := names_of_normal _ ha h hf2
  have h1 : splitSlash (root ++ b!"/" ++ r) = ([] :: rn) ++ splitSlash r := by
    have := splitSlash_append root r
    rw [List.append_assoc]
    simp only [List.cons_append, List.nil_append]
    rw [this, hr]
    have h2 := splitSlash_append [] (joinSlash rn)
    rw [List.nil_append] at h2
    rw [h2, splitSlash_joinSlash rn rne (fun c hc => (rnn c hc).2.2.2)]; rfl
  have h2 : splitSlash (root ++ b!"/" ++ r) = [] :: sn := by
    rw [hs]
    have h2 := splitSlash_append [] (joinSlash sn)
    rw [List.nil_append] at h2
    rw [h2, splitSlash_joinSlash sn sne (fun c hc => (snn c hc).2.2.2)]; rfl
  have h3 : sn = rn ++ splitSlash r := by
    rw [h1] at h2; simpa using h2.symm
  have hsr : ∀ c ∈ splitSlash r, IsName c := fun c hc => snn c (by rw [h3]; simp [hc])
  rw [lexRelative, if_neg (by rw [ha, habs]; simp), mismatch_elems _ _ (by rw [ha, habs])]
  rw [hs, tailElems_names sn sne snn]
  have h4 : tailElems root = rn := by rw [hr]; exact tailElems_names rn rne rnn
  rw [h4, h3, mismatch_self_append]
  have hrn := splitSlash_ne_nil r
  simp only
  rw [if_neg (fun h => hrn h.1)]
  have hc : climb [] = 0 := rfl
  rw [hc, if_neg (by omega), if_neg]
  · simp only [Int.toNat_zero, List.replicate_zero, List.nil_append]
    rw [appendAll_names]
    · exact joinSlash_splitSlash r
    · intro e he; exact ⟨(hsr e he).1, (hsr e he).2.2.2⟩
  · rintro ⟨_, h5 | h5⟩
    · exact hrn h5
    · cases hsp : splitSlash r with
      | nil => exact hrn hsp
      | cons x xs =>
        rw [hsp] at h5
        simp at h5
        exact (hsr x (by rw [hsp]; simp)).1 h5

theorem not_prefix_elems (m : List Str) (hm : m ≠ []) (hn : ∀ c ∈ m, IsName c) (root : Str)
    (habs : isAbs root = true) (h : ¬ elems (slash :: joinSlash m) <+: elems root) :
    ∀ x, tailElems root ≠ m ++ x := by
  intro x e
  apply h
  rw [elems_eq, elems_eq, tailElems_names m hm hn, habs, e]
  exact ⟨x, by simp [isAbs]⟩

theorem filename_joinSlash' (l : List Str) (c : Str) (h : ∀ d ∈ l, slash ∉ d) (hc : slash ∉ c) :
    filename (joinSlash (l ++ [c])) = c := by
  have h1 := filename_joinSlash l c h hc
  have h2 := (splitFile_prefix [slash] (joinSlash (l ++ [c])) (Or.inr ⟨[], rfl⟩)).2
  simp only [List.cons_append, List.nil_append] at h2
  rw [← h2]; exact h1

theorem filename_rel (m : List Str) (hm : m ≠ []) (hn : ∀ c ∈ m, IsName c) (root : Str)
    (habs : isAbs root = true) (hp : ∀ x, tailElems root ≠ m ++ x)
    (hr : lexRelative (slash :: joinSlash m) root ≠ []) :
    filename (lexRelative (slash :: joinSlash m) root) = filename (slash :: joinSlash m) := by
  obtain ⟨c, a, b, h1, h2, _, _, h5⟩ := lexRelative_source m hm hn root habs hp hr
  obtain ⟨l, x, rfl⟩ : ∃ l x, a = l ++ [x] := by
    rcases List.eq_nil_or_concat a with h | ⟨l, x, h⟩
    · exact absurd h h2
    · exact ⟨l, x, by simpa using h⟩
  have hs : ∀ d ∈ m, slash ∉ d := fun d hd => (hn d hd).2.2.2
  rw [h5, ← List.append_assoc, filename_joinSlash', h1, ← List.append_assoc, filename_joinSlash]
  · intro d hd; exact hs d (by
      rw [h1]; simp only [List.mem_append] at hd ⊢
      rcases hd with hd | hd
      · exact Or.inl hd
      · exact Or.inr (Or.inl hd))
  · exact hs x (by rw [h1]; simp)
  · intro d hd
    simp only [List.mem_append, List.mem_replicate] at hd
    rcases hd with ⟨_, rfl⟩ | hd
    · decide
    · exact hs d (by rw [h1]; simp [hd])
  · exact hs x (by rw [h1]; simp)

theorem dirPart_dots (s : Str) : dirPart (dotsToUnderscores s) = dotsToUnderscores (dirPart s) := by
  have e : dotsToUnderscores s
      = dotsToUnderscores (dirPart s) ++ dotsToUnderscores (filename s) := by
    rw [dotsToUnderscores, dotsToUnderscores, dotsToUnderscores, ← List.map_append,
      splitFile_append]
  rw [e]
  apply dirPart_unique
  · intro h
    simp only [dotsToUnderscores, List.mem_map] at h
    obtain ⟨b, hb, h⟩ := h
    split at h
    · exact absurd h (by decide)
    · exact filename_noSlash s (h ▸ hb)
  · rcases dirPart_end s with h | ⟨d, h⟩
    · left; rw [h]; rfl
    · right; exact ⟨dotsToUnderscores d, by rw [h]; simp [dotsToUnderscores]; decide⟩

theorem dots_no_underscore (s : Str) (h : c!"_" ∉ dotsToUnderscores s) :
    dotsToUnderscores s = s := by
  induction s with
  | nil => rfl
  | cons b s ih =>
    simp only [dotsToUnderscores, List.map_cons, List.mem_cons, not_or] at h ih ⊢
    rw [ih h.2]
    by_cases hb : b = c!"."
    · simp [hb] at h
    · simp [hb]

theorem dots_inj (s t : Str) (hs : c!"_" ∉ s) (ht : c!"_" ∉ t)
    (h : dotsToUnderscores s = dotsToUnderscores t) : s = t := by
  induction s generalizing t with
  | nil =>
    cases t with
    | nil => rfl
    | cons b t => simp [dotsToUnderscores] at h
  | cons a s ih =>
    cases t with
    | nil => simp [dotsToUnderscores] at h
    | cons b t =>
      simp only [List.mem_cons, not_or] at hs ht
      simp only [dotsToUnderscores, List.map_cons, List.cons.injEq] at h
      have := ih t hs.2 ht.2 h.2
      have hab : a = b := by
        have h := h.1
        split at h <;> split at h
        · rename_i x y; rw [x, y]
        · exact absurd h ht.1
        · exact absurd h.symm hs.1
        · exact h
      rw [hab, this]

theorem dir_replaced_inj (r1 r2 : Str) (h1 : c!"_" ∉ dirPart r1) (h2 : c!"_" ∉ dirPart r2)
    (h : dirPart (if hasDotDot r1 then dotsToUnderscores r1 else r1)
      = dirPart (if hasDotDot r2 then dotsToUnderscores r2 else r2)) : dirPart r1 = dirPart r2 := by
  cases hd1 : hasDotDot r1 <;> cases hd2 : hasDotDot r2 <;>
    simp only [hd1, hd2, if_true, Bool.false_eq_true, if_false, dirPart_dots] at h
  · exact h
  · rw [h] at h1; rw [h]; exact dots_no_underscore _ h1
  · rw [← h] at h2; rw [← h]; exact (dots_no_underscore _ h2).symm
  · exact dots_inj _ _ h1 h2 h

theorem split_dir_file (d f : Str) (cs : List Str) (h : splitSlash d = cs ++ [[]])
    (hf : slash ∉ f) (hd : d = [] ∨ ∃ d', d = d' ++ [slash]) :
    splitSlash (d ++ f) = cs ++ [f] := by
  rcases hd with rfl | ⟨d', rfl⟩
  · have : cs = [] := by
      cases cs with
      | nil => rfl
      | cons x cs => simp [splitSlash] at h
    rw [this]; simpa using splitSlash_noSlash f hf
  · rw [splitSlash_append] at h
    have e : splitSlash ([] : Str) = [[]] := rfl
    rw [e] at h
    have h := List.append_cancel_right h
    rw [List.append_assoc]
    simp only [List.cons_append, List.nil_append]
    rw [splitSlash_append, splitSlash_noSlash f hf, h]

/-! ### Words -/

theorem words_plain_acc (p post : Str) (w : Str) (hs : c!" " ∉ p) (hq : c!"\"" ∉ p) :
    wordsFrom false (some w) (p ++ c!" " :: post) = (w ++ p) :: wordsFrom false none post := by
  induction p generalizing w with
  | nil => simp [wordsFrom]
  | cons b p ih =>
    simp only [List.mem_cons, not_or] at hs hq
    have h1 : b ≠ c!" " := fun e => hs.1 e.symm
    have h2 : b ≠ c!"\"" := fun e => hq.1 e.symm
    rw [List.cons_append, wordsFrom]
    simp only [h1, h2, if_false, false_and, Option.getD_some]
    rw [ih _ hs.2 hq.2]; simp

theorem words_plain (p : Str) (sp post : Str) (hs : c!" " ∉ p) (hq : c!"\"" ∉ p) (hne : p ≠ [])
    (hsp : sp = b!" " := by rfl) :
    wordsFrom false none (p ++ (sp ++ post)) = p :: wordsFrom false none post := by
  subst hsp
  cases p with
  | nil => exact absurd rfl hne
  | cons b p =>
    simp only [List.mem_cons, not_or] at hs hq
    have h1 : b ≠ c!" " := fun e => hs.1 e.symm
    have h2 : b ≠ c!"\"" := fun e => hq.1 e.symm
    simp only [List.cons_append, List.nil_append]
    rw [wordsFrom]
    simp only [h1, h2, if_false, false_and, Option.getD_none, List.nil_append]
    rw [words_plain_acc _ _ _ hs.2 hq.2]; simp

theorem words_in_quotes (p post : Str) (w : Str) (hq : c!"\"" ∉ p) :
    wordsFrom true (some w) (p ++ c!"\"" :: post) = wordsFrom false (some (w ++ p)) post := by
  induction p generalizing w with
  | nil => simp [wordsFrom]
  | cons b p ih =>
    simp only [List.mem_cons, not_or] at hq
    have h2 : b ≠ c!"\"" := fun e => hq.1 e.symm
    rw [List.cons_append, wordsFrom]
    simp only [h2, if_false, Option.getD_some]
    rw [if_neg (by simp), ih _ hq.2]; simp

theorem words_quoted (p post : Str) (hq : c!"\"" ∉ p) :
    wordsFrom false none (c!"\"" :: (p ++ c!"\"" :: c!" " :: post)) = p :: words post := by
  rw [wordsFrom]
  simp only [if_true, Option.getD_none, Bool.not_false]
  rw [words_in_quotes p _ _ hq]
  simp [wordsFrom, words]

theorem words_pre_gen (pre rest : Str) (q : Bool) (cur : Option Str)
    (h : (pre.filter (· = c!"\"")).length % 2 = if q then 1 else 0) :
    wordsFrom q cur (pre ++ c!" " :: rest) = wordsFrom q cur pre ++ wordsFrom false none rest := by
  induction pre generalizing q cur with
  | nil =>
    cases q with
    | true => simp at h
    | false => cases cur <;> simp [wordsFrom]
  | cons b pre ih =>
    rw [List.cons_append, wordsFrom.eq_def, wordsFrom.eq_def q cur (b :: pre)]
    simp only
    by_cases hb : b = c!"\""
    · simp only [hb, if_true]
      apply ih
      simp only [hb, List.filter_cons, decide_true, if_true, List.length_cons] at h
      cases q <;> simp at h ⊢ <;> omega
    · simp only [hb, if_false]
      have h' : (pre.filter (· = c!"\"")).length % 2 = if q then 1 else 0 := by
        simpa [List.filter_cons, hb] using h
      split
      · cases cur with
        | none => exact ih _ _ h'
        | some w => simp only [List.cons_append]; rw [ih _ _ h']
      · exact ih _ _ h'

theorem words_pre (pre rest : Str) (h : Balanced pre) :
    wordsFrom false none (pre ++ c!" " :: rest) = words pre ++ wordsFrom false none rest :=
  words_pre_gen pre rest false none (by simpa [Balanced] using h)

/-! ### Disjoint directories -/

theorem fold_no_dotdot (abs : Bool) (l : List Str) (st : NState) (h : dotdot ∉ l) :
    ∃ x, (l.foldl (nstep abs) st).stack = x ++ st.stack := by
  induction l generalizing st with
  | nil => exact ⟨[], rfl⟩
  | cons c l ih =>
    simp only [List.mem_cons, not_or] at h
    rw [List.foldl_cons]
    obtain ⟨x, hx⟩ := ih (nstep abs st c) h.2
    rw [hx, nstep]
    split
    · exact ⟨x, rfl⟩
    · rw [if_neg (fun e => h.1 e.symm)]
      exact ⟨x ++ [c], by simp⟩

theorem nstep_name (abs : Bool) (st : NState) (c : Str) (h : PlainName c) :
    nstep abs st c = ⟨c :: st.stack, false⟩ := by
  simp [nstep, h.1, h.2.1, h.2.2.1]

theorem render_stack_inj (abs : Bool) (s t : NState) (hs : GoodStack abs s.stack)
    (ht : GoodStack abs t.stack) (h1 : s.stack ≠ []) (h2 : t.stack ≠ [])
    (h : render abs s = render abs t) : s.stack = t.stack := by
  have key : ∀ u : NState, GoodStack abs u.stack → u.stack ≠ [] →
      ((splitSlash (render abs u)).filter (· ≠ [])) = u.stack.reverse := by
    intro u hu hne
    obtain ⟨stk, tr⟩ := u
    cases hst : stk with
    | nil => exact absurd hst hne
    | cons top rest =>
      subst hst
      rw [split_render abs _ tr hu top rest rfl]
      have hf : (top :: rest).reverse.filter (· ≠ []) = (top :: rest).reverse := by
        rw [List.filter_eq_self]
        intro c hc
        have := good_ne_nil hu c (List.mem_reverse.1 hc)
        simp [this]
      rw [List.filter_append, List.filter_append, hf]
      have h0 : ∀ p : Prop, [Decidable p] →
          (if p then [[]] else ([] : List Str)).filter (· ≠ []) = [] := by
        intro p _; split <;> rfl
      rw [h0, h0]; simp
  have := key s hs h1
  rw [h, key t ht h2] at this
  simpa using this.symm

theorem normal_dir_inj (env tc1 n1 tc2 n2 t1 t2 : Str) (henv : env ≠ [])
    (p1 : PlainName tc1) (q1 : PlainName n1) (p2 : PlainName tc2) (q2 : PlainName n2)
    (h1 : dotdot ∉ splitSlash t1) (h2 : dotdot ∉ splitSlash t2)
    (h : lexNormal (asDir env ++ (tc1 ++ slash :: (n1 ++ slash :: t1)))
      = lexNormal (asDir env ++ (tc2 ++ slash :: (n2 ++ slash :: t2)))) : tc1 = tc2 ∧ n1 = n2 := by
  obtain ⟨d, hd⟩ : ∃ d, asDir env = d ++ [slash] := by
    rcases asDir_end env with h | h
    · exfalso
      rw [asDir] at h
      split at h
      · exact henv h
      · simp at h
    · exact h
  have key : ∀ tc n t, PlainName tc → PlainName n → dotdot ∉ splitSlash t →
      ∃ st x, lexNormal (asDir env ++ (tc ++ slash :: (n ++ slash :: t)))
        = render (isAbs (d ++ [slash])) st ∧ GoodStack (isAbs (d ++ [slash])) st.stack ∧
        st.stack = x ++ n :: tc ::
          ((splitSlash d).foldl (nstep (isAbs (d ++ [slash]))) ⟨[], false⟩).stack := by
    intro tc n t ht hn hdd
    have hsp : splitSlash (asDir env ++ (tc ++ slash :: (n ++ slash :: t)))
        = splitSlash d ++ (tc :: n :: splitSlash t) := by
      rw [hd, List.append_assoc]
      simp only [List.cons_append, List.nil_append]
      rw [splitSlash_append, splitSlash_append, splitSlash_append, splitSlash_noSlash _ ht.2.2.2,
        splitSlash_noSlash _ hn.2.2.2]
      rfl
    have hab : isAbs (asDir env ++ (tc ++ slash :: (n ++ slash :: t)))
        = isAbs (d ++ [slash]) := by
      rw [hd]; exact isAbs_append _ _ (by simp)
    have hg := fold_good (isAbs (d ++ [slash])) (splitSlash d ++ (tc :: n :: splitSlash t))
      ⟨[], false⟩ ⟨[], 0, rfl, by simp, fun _ => rfl⟩ (by
        rw [← hsp]; exact fun c hc => mem_splitSlash _ c hc)
    obtain ⟨x, hx⟩ := fold_no_dotdot (isAbs (d ++ [slash])) (splitSlash t)
      ⟨n :: tc :: ((splitSlash d).foldl (nstep (isAbs (d ++ [slash]))) ⟨[], false⟩).stack, false⟩ hdd
    refine ⟨_, x, ?_, hg, ?_⟩
    · rw [lexNormal, if_neg (by simp), hab, hsp]
    · rw [List.foldl_append, List.foldl_cons, List.foldl_cons, nstep_name _ _ _ ht,
        nstep_name _ _ _ hn]
      exact hx
  obtain ⟨s1, x1, e1, g1, k1⟩ := key tc1 n1 t1 p1 q1 h1
  obtain ⟨s2, x2, e2, g2, k2⟩ := key tc2 n2 t2 p2 q2 h2
  rw [e1, e2] at h
  have := render_stack_inj _ s1 s2 g1 g2 (by simp [k1]) (by simp [k2]) h
  rw [k1, k2] at this
  have h3 := (List.append_inj' this (by simp)).2
  simp at h3
  exact ⟨h3.2, h3.1⟩

end Verif.Path
