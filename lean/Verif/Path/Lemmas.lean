import Verif.Path.Model

namespace Verif.Path
open Verif

/-! ### Splitting -/

theorem splitSlash_ne_nil (s : Str) : splitSlash s ≠ [] := by
  cases s with
  | nil => simp [splitSlash]
  | cons b r =>
    rw [splitSlash]
    split
    · simp
    · split <;> simp

theorem splitSlash_append (p q : Str) :
    splitSlash (p ++ slash :: q) = splitSlash p ++ splitSlash q := by
  induction p with
  | nil => simp [splitSlash]
  | cons b p ih =>
    simp only [List.cons_append, splitSlash]
    split
    · simp [ih]
    · rw [ih]
      cases h : splitSlash p with
      | nil => exact absurd h (splitSlash_ne_nil p)
      | cons c cs => simp

theorem splitSlash_noSlash (s : Str) (h : slash ∉ s) : splitSlash s = [s] := by
  induction s with
  | nil => rfl
  | cons b r ih =>
    simp only [List.mem_cons, not_or] at h
    rw [splitSlash, if_neg (fun e => h.1 e.symm), ih h.2]

theorem mem_splitSlash (s c : Str) (h : c ∈ splitSlash s) : slash ∉ c := by
  induction s generalizing c with
  | nil => simp [splitSlash] at h; simp [h]
  | cons b r ih =>
    rw [splitSlash] at h
    split at h
    · simp at h
      rcases h with rfl | h
      · simp
      · exact ih c h
    · rename_i hb
      split at h
      · simp at h; subst h; simp; exact fun e => hb e.symm
      · rename_i c' cs he
        simp at h
        rcases h with rfl | h
        · simp only [List.mem_cons, not_or]
          exact ⟨fun e => hb e.symm, ih c' (by simp [he])⟩
        · exact ih c (by simp [he, h])

theorem splitSlash_joinSlash (cs : List Str) (hne : cs ≠ []) (h : ∀ c ∈ cs, slash ∉ c) :
    splitSlash (joinSlash cs) = cs := by
  induction cs with
  | nil => exact absurd rfl hne
  | cons c cs ih =>
    cases cs with
    | nil => simp only [joinSlash]; exact splitSlash_noSlash c (h c (by simp))
    | cons d cs =>
      simp only [joinSlash]
      rw [splitSlash_append, splitSlash_noSlash c (h c (by simp)),
        ih (by simp) (fun c hc => h c (by simp [hc]))]
      rfl

theorem joinSlash_splitSlash (s : Str) : joinSlash (splitSlash s) = s := by
  induction s with
  | nil => rfl
  | cons b r ih =>
    rw [splitSlash]
    split
    · rename_i hb
      cases h : splitSlash r with
      | nil => exact absurd h (splitSlash_ne_nil r)
      | cons c cs => rw [h] at ih; simp [joinSlash, ih, hb]
    · split
      · rename_i h; exact absurd h (splitSlash_ne_nil r)
      · rename_i c cs h
        rw [h] at ih
        cases cs with
        | nil => simp [joinSlash] at ih ⊢; exact ih
        | cons d cs => simp [joinSlash] at ih ⊢; exact ih

/-- First component of an absolute path is empty. -/
theorem splitSlash_abs (s : Str) (h : isAbs s = true) :
    ∃ r, s = slash :: r ∧ splitSlash s = [] :: splitSlash r := by
  cases s with
  | nil => simp [isAbs] at h
  | cons b r =>
    simp [isAbs] at h
    exact ⟨r, by rw [h], by simp [splitSlash, h]⟩

/-! ### The normalisation state -/

/-- Names that stay in a normal form. -/
def IsName (c : Str) : Prop := c ≠ [] ∧ c ≠ dot ∧ c ≠ dotdot ∧ slash ∉ c

/-- States reached by `nstep`: names above a block of `..`, none when absolute. -/
def GoodStack (abs : Bool) (st : List Str) : Prop :=
  ∃ names k, st = names ++ List.replicate k dotdot ∧ (∀ c ∈ names, IsName c) ∧
    (abs = true → k = 0)

theorem nstep_good (abs : Bool) (st : NState) (c : Str) (h : GoodStack abs st.stack)
    (hc : slash ∉ c) : GoodStack abs (nstep abs st c).stack := by
  obtain ⟨names, k, hs, hn, hk⟩ := h
  rw [nstep]
  split
  · exact ⟨names, k, hs, hn, hk⟩
  · rename_i h1
    simp only [not_or] at h1
    split
    · rename_i h2
      split
      · rename_i top rest he
        rw [he] at hs
        split
        · rename_i ht
          -- pushing `..` on a block of `..`
          subst ht h2
          cases names with
          | nil =>
            refine ⟨[], k + 1, ?_, by simp, ?_⟩
            · simp only [List.nil_append] at hs ⊢; rw [he, List.replicate_succ, hs]
            · intro ha; have := hk ha; subst this; simp at hs
          | cons n names =>
            simp at hs
            exact absurd hs.1.symm (hn n (by simp)).2.2.1
        · rename_i ht
          cases names with
          | nil =>
            cases k with
            | zero => simp at hs
            | succ k => simp [List.replicate_succ] at hs; exact absurd hs.1 ht
          | cons n names =>
            simp at hs
            exact ⟨names, k, hs.2, fun c hc => hn c (by simp [hc]), hk⟩
      · split
        · exact ⟨[], 0, rfl, by simp, fun _ => rfl⟩
        · rename_i ha
          refine ⟨[], 1, by simp [h2], by simp, fun h => absurd h ha⟩
    · rename_i h2
      refine ⟨c :: names, k, by simp [hs], ?_, hk⟩
      intro d hd
      simp at hd
      rcases hd with rfl | hd
      · exact ⟨h1.1, h1.2, h2, hc⟩
      · exact hn d hd

theorem fold_good (abs : Bool) (cs : List Str) (st : NState) (h : GoodStack abs st.stack)
    (hc : ∀ c ∈ cs, slash ∉ c) : GoodStack abs (cs.foldl (nstep abs) st).stack := by
  induction cs generalizing st with
  | nil => exact h
  | cons c cs ih =>
    exact ih _ (nstep_good abs st c h (hc c (by simp))) (fun d hd => hc d (by simp [hd]))

/-- Pushing `..` components from the bottom. -/
theorem fold_dotdots (k j : Nat) :
    (List.replicate k dotdot).foldl (nstep false) ⟨List.replicate j dotdot, false⟩
      = ⟨List.replicate (k + j) dotdot, false⟩ := by
  induction k generalizing j with
  | zero => simp
  | succ k ih =>
    rw [List.replicate_succ, List.foldl_cons]
    have : nstep false ⟨List.replicate j dotdot, false⟩ dotdot
        = ⟨List.replicate (j + 1) dotdot, false⟩ := by
      cases j with
      | zero => simp [nstep]
      | succ j => simp [nstep, List.replicate_succ]
    rw [this, ih]; congr 2; omega

theorem fold_names (abs : Bool) (l : List Str) (st : List Str) (t : Bool)
    (h : ∀ c ∈ l, IsName c) :
    l.foldl (nstep abs) ⟨st, t⟩ = ⟨l.reverse ++ st, if l = [] then t else false⟩ := by
  induction l generalizing st t with
  | nil => simp
  | cons c l ih =>
    have hc := h c (by simp)
    have : nstep abs ⟨st, t⟩ c = ⟨c :: st, false⟩ := by
      simp [nstep, hc.1, hc.2.1, hc.2.2.1]
    rw [List.foldl_cons, this, ih _ _ (fun d hd => h d (by simp [hd]))]
    simp

/-- Reading back the components of a good stack. -/
theorem fold_stack (abs : Bool) (st : List Str) (h : GoodStack abs st) (t : Bool) :
    (st.reverse).foldl (nstep abs) ⟨[], t⟩ = ⟨st, if st = [] then t else false⟩ := by
  obtain ⟨names, k, rfl, hn, hk⟩ := h
  rw [List.reverse_append, List.reverse_replicate, List.foldl_append]
  cases k with
  | zero =>
    simp only [List.replicate_zero, List.foldl_nil, List.append_nil]
    rw [fold_names abs _ _ _ (by simpa using hn)]; simp
  | succ k =>
    have ha : abs = false := by
      cases abs with
      | false => rfl
      | true => exact absurd (hk rfl) (by omega)
    subst ha
    have e : (List.replicate (k + 1) dotdot).foldl (nstep false) ⟨[], t⟩
        = ⟨List.replicate (k + 1) dotdot, false⟩ := by
      rw [List.replicate_succ, List.foldl_cons]
      have := fold_dotdots k 1
      simpa [nstep, List.replicate_succ] using this
    rw [e, fold_names false _ _ _ (by simpa using hn)]
    simp

theorem good_noSlash {abs : Bool} {st : List Str} (h : GoodStack abs st) :
    ∀ c ∈ st, slash ∉ c := by
  obtain ⟨names, k, rfl, hn, _⟩ := h
  intro c hc
  simp only [List.mem_append, List.mem_replicate] at hc
  rcases hc with hc | ⟨_, rfl⟩
  · exact (hn c hc).2.2.2
  · decide

theorem good_ne_nil {abs : Bool} {st : List Str} (h : GoodStack abs st) :
    ∀ c ∈ st, c ≠ [] := by
  obtain ⟨names, k, rfl, hn, _⟩ := h
  intro c hc
  simp only [List.mem_append, List.mem_replicate] at hc
  rcases hc with hc | ⟨_, rfl⟩
  · exact (hn c hc).1
  · decide

/-- Components of a rendered state. -/
theorem split_render (abs : Bool) (st : List Str) (t : Bool) (hg : GoodStack abs st) (top : Str)
    (rest : List Str) (hs : st = top :: rest) :
    splitSlash (render abs ⟨st, t⟩)
      = (if abs then [[]] else []) ++ st.reverse
        ++ (if t ∧ top ≠ dotdot then [[]] else []) := by
  have hne : st.reverse ≠ [] := by simp [hs]
  have hj : splitSlash (joinSlash st.reverse) = st.reverse :=
    splitSlash_joinSlash _ hne (fun c hc => good_noSlash hg c (by simpa using hc))
  have hj2 : splitSlash (joinSlash st.reverse ++ [slash]) = st.reverse ++ [[]] := by
    rw [show [slash] = slash :: [] from rfl, splitSlash_append, hj]; rfl
  have habs : ∀ x : Str, splitSlash ([slash] ++ x) = [[]] ++ splitSlash x := by
    intro x; exact splitSlash_append [] x
  subst hs
  simp only [render]
  cases abs <;> simp only [Bool.false_eq_true, if_false, if_true, List.nil_append,
    List.append_assoc, habs] <;> split <;> simp only [hj, hj2, List.append_nil]

theorem isAbs_joinSlash (l : List Str) (h : ∀ c ∈ l, slash ∉ c) (hn : ∀ c ∈ l, c ≠ []) (x : Str) :
    l ≠ [] → isAbs (joinSlash l ++ x) = false := by
  intro hne
  match l with
  | [] => exact absurd rfl hne
  | c :: l =>
    have h1 := h c (by simp)
    have h2 := hn c (by simp)
    cases c with
    | nil => exact absurd rfl h2
    | cons b c =>
      have hb : b ≠ slash := by
        intro e; exact h1 (by simp [e])
      cases l <;> simp [joinSlash, isAbs, hb]

theorem isAbs_render (abs : Bool) (st : NState) (hg : GoodStack abs st.stack) :
    isAbs (render abs st) = abs := by
  cases hs : st.stack with
  | nil => cases abs <;> simp [render, hs, isAbs] <;> decide
  | cons top rest =>
    cases abs with
    | true => simp [render, hs, isAbs]
    | false =>
      simp only [render, hs, Bool.false_eq_true, if_false, List.nil_append]
      apply isAbs_joinSlash
      · intro c hc; exact good_noSlash hg c (by rw [hs]; exact List.mem_reverse.1 hc)
      · intro c hc; exact good_ne_nil hg c (by rw [hs]; exact List.mem_reverse.1 hc)
      · simp

theorem render_ne_nil (abs : Bool) (st : NState) (hg : GoodStack abs st.stack) :
    render abs st ≠ [] := by
  cases hs : st.stack with
  | nil => cases abs <;> simp [render, hs]
  | cons top rest =>
    have h2 := good_ne_nil hg top (by simp [hs])
    intro h
    have h3 := split_render abs st.stack st.trail hg top rest hs
    have h4 : render abs ⟨st.stack, st.trail⟩ = [] := h
    rw [h4] at h3
    simp only [splitSlash, hs] at h3
    have h5 : top ∈ ([[]] : List Str) := by rw [h3]; simp
    simp at h5
    exact h2 h5

/-- Normalising a rendered state gives the same text. -/
theorem lexNormal_render (abs : Bool) (st : NState) (hg : GoodStack abs st.stack) :
    lexNormal (render abs st) = render abs st := by
  rw [lexNormal, if_neg (render_ne_nil abs st hg), isAbs_render abs st hg]
  cases hs : st.stack with
  | nil =>
    have e : render abs st = if abs then [slash] else dot := by simp [render, hs]
    rw [e]; cases abs <;> rfl
  | cons top rest =>
    have h3 := split_render abs st.stack st.trail hg top rest hs
    have h3' : splitSlash (render abs st) = _ := h3
    rw [h3', List.foldl_append, List.foldl_append]
    have h4 : (if abs = true then [[]] else []).foldl (nstep abs) ⟨[], false⟩
        = (⟨[], abs⟩ : NState) := by
      cases abs <;> simp [nstep]
    rw [h4, fold_stack abs st.stack hg]
    rw [if_neg (by simp [hs])]
    cases st with
    | mk stack trail =>
      simp only at hs
      subst hs
      by_cases ht : trail ∧ top ≠ dotdot
      · simp only [ht, and_self, ne_eq, not_false_eq_true, if_true, List.foldl_cons,
          List.foldl_nil]
        simp [nstep]
      · simp only [if_neg ht, List.foldl_nil, render]
        simp

theorem lexNormal_idem (s : Str) : lexNormal (lexNormal s) = lexNormal s := by
  by_cases hs : s = []
  · subst hs; rfl
  · have e : lexNormal s = render (isAbs s)
        ((splitSlash s).foldl (nstep (isAbs s)) ⟨[], false⟩) := by
      rw [lexNormal, if_neg hs]
    rw [e]
    exact lexNormal_render _ _ (fold_good _ _ _ ⟨[], 0, rfl, by simp, fun _ => rfl⟩
      (fun c hc => mem_splitSlash s c hc))

/-- Every normalised path is the text of a good state. -/
theorem lexNormal_eq (s : Str) (hs : s ≠ []) :
    ∃ st : NState, GoodStack (isAbs s) st.stack ∧ lexNormal s = render (isAbs s) st := by
  refine ⟨_, fold_good (isAbs s) (splitSlash s) ⟨[], false⟩ ⟨[], 0, rfl, by simp, fun _ => rfl⟩
    (fun c hc => mem_splitSlash s c hc), ?_⟩
  rw [lexNormal, if_neg hs]

/-! ### Different spellings -/

theorem isAbs_append (p q : Str) (h : p ≠ []) : isAbs (p ++ q) = isAbs p := by
  cases p with
  | nil => exact absurd rfl h
  | cons b p => rfl

theorem isAbs_slash (p q q' : Str) : isAbs (p ++ slash :: q) = isAbs (p ++ slash :: q') := by
  cases p <;> rfl

/-- Two spellings with the same component effect. -/
theorem lexNormal_spelling (p m q : Str)
    (h : ∀ abs st, (p = [] → abs = true) → GoodStack abs st.stack →
      st = (splitSlash p).foldl (nstep abs) ⟨[], false⟩ →
      (splitSlash q).foldl (nstep abs) ((splitSlash m).foldl (nstep abs) st)
        = (splitSlash q).foldl (nstep abs) st) :
    lexNormal (p ++ slash :: (m ++ slash :: q)) = lexNormal (p ++ slash :: q) := by
  rw [lexNormal, lexNormal, if_neg (by simp), if_neg (by simp), isAbs_slash p q]
  congr 1
  rw [splitSlash_append, splitSlash_append, splitSlash_append]
  simp only [List.foldl_append]
  rw [isAbs_slash p _ (m ++ slash :: q)]
  apply h
  · rintro rfl; rfl
  · exact fold_good _ _ _ ⟨[], 0, rfl, by simp, fun _ => rfl⟩ (fun c hc => mem_splitSlash p c hc)
  · rfl

/-- The trail flag of the state does not matter once another component follows. -/
theorem nstep_trail (abs : Bool) (s : List Str) (t t' : Bool) (c : Str) :
    nstep abs ⟨s, t⟩ c = nstep abs ⟨s, t'⟩ c := by
  simp only [nstep]

theorem fold_trail (abs : Bool) (s : List Str) (t t' : Bool) (q : Str) :
    (splitSlash q).foldl (nstep abs) ⟨s, t⟩ = (splitSlash q).foldl (nstep abs) ⟨s, t'⟩ := by
  cases h : splitSlash q with
  | nil => exact absurd h (splitSlash_ne_nil q)
  | cons c cs => rw [List.foldl_cons, List.foldl_cons, nstep_trail abs s t t' c]

end Verif.Path
