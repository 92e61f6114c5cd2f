import Verif.Target.HashLemmas

/-! # Lemmas about the selection of sources -/

namespace Verif.Target
open Verif Verif.Command Verif.Schema Verif.Json

theorem lookupInfo_none {l : List PathInfo} {p : Str} : lookupInfo l p = none ↔ p ∉ paths l := by
  induction l with
  | nil => simp [lookupInfo]
  | cons i l ih =>
    simp only [lookupInfo, paths_cons, List.mem_cons, not_or]
    split
    · rename_i e; simp [e]
    · rename_i e
      rw [ih]
      exact ⟨fun h => ⟨fun e2 => e e2.symm, h⟩, fun h => h.2⟩

theorem lookupInfo_mem {l : List PathInfo} {p h : Str} (e : lookupInfo l p = some h) :
    (⟨p, h⟩ : PathInfo) ∈ l := by
  induction l with
  | nil => simp [lookupInfo] at e
  | cons i l ih =>
    simp only [lookupInfo] at e
    split at e
    · rename_i e2
      cases i
      simp only [Option.some.injEq] at e
      simp_all
    · exact List.mem_cons_of_mem _ (ih e)

theorem lookupInfo_of_mem {l : List PathInfo} (hn : (paths l).Nodup) {i : PathInfo} (hi : i ∈ l) :
    lookupInfo l i.path = some i.hash := by
  induction l with
  | nil => simp at hi
  | cons j l ih =>
    simp only [paths_cons, List.nodup_cons] at hn
    simp only [lookupInfo]
    rcases List.mem_cons.1 hi with rfl | hi
    · simp
    · split
      · rename_i e
        exact absurd (mem_paths.2 ⟨i, hi, e.symm⟩) hn.1
      · exact ih hn.2 hi

theorem mem_eraseInfo {l : List PathInfo} {p : Str} {i : PathInfo} :
    i ∈ eraseInfo l p ↔ i ∈ l ∧ i.path ≠ p := by
  simp [eraseInfo]

theorem paths_eraseInfo (l : List PathInfo) (p : Str) :
    paths (eraseInfo l p) = (paths l).filter (· ≠ p) := by
  induction l with
  | nil => rfl
  | cons i l ih =>
    simp only [eraseInfo, List.filter_cons, paths_cons] at ih ⊢
    split
    · rw [paths_cons, ih]
    · exact ih

theorem nodup_eraseInfo {l : List PathInfo} (h : (paths l).Nodup) (p : Str) :
    (paths (eraseInfo l p)).Nodup := by
  rw [paths_eraseInfo]; exact h.filter _

theorem infoOf_mem {l : List PathInfo} (hn : (paths l).Nodup) {i : PathInfo} (hi : i ∈ l) :
    (⟨i.path, (lookupInfo l i.path).getD []⟩ : PathInfo) = i := by
  rw [lookupInfo_of_mem hn hi]; rfl

theorem recompile_perm (cur : List PathInfo) : ∀ prev,
    ((recompile prev cur).selected ++ (recompile prev cur).dummy).Perm cur := by
  induction cur with
  | nil => intro prev; simp [recompile]
  | cons i l ih =>
    intro prev
    simp only [recompile]
    split
    · simpa using ih prev
    · split
      · simpa using ih _
      · exact List.perm_middle.trans (List.Perm.cons _ (ih _))

theorem recompile_dummy (cur : List PathInfo) : ∀ prev,
    ∀ i ∈ (recompile prev cur).dummy, i ∈ prev := by
  induction cur with
  | nil => intro prev; simp [recompile]
  | cons i l ih =>
    intro prev
    simp only [recompile]
    split
    · exact ih prev
    · rename_i h e
      split
      · intro j hj
        exact (mem_eraseInfo.1 (ih _ j hj)).1
      · rename_i e2
        intro j hj
        rcases List.mem_cons.1 hj with rfl | hj
        · have := lookupInfo_mem e
          simp only [ne_eq, Decidable.not_not] at e2
          rw [e2] at this
          exact this
        · exact (mem_eraseInfo.1 (ih _ j hj)).1

theorem recompile_selected (cur : List PathInfo) : ∀ prev, (paths prev).Nodup →
    (paths cur).Nodup →
    ∀ i ∈ (recompile prev cur).selected, ∀ s ∈ prev, s.path = i.path → s.hash ≠ i.hash := by
  induction cur with
  | nil => intro prev _ _; simp [recompile]
  | cons i l ih =>
    intro prev hp hc
    simp only [paths_cons, List.nodup_cons] at hc
    have hsub : ∀ prev', ∀ j ∈ (recompile prev' l).selected, j.path ≠ i.path := by
      intro prev' j hj e
      have := (recompile_perm l prev').mem_iff.1 (List.mem_append_left _ hj)
      exact hc.1 (mem_paths.2 ⟨j, this, e⟩)
    simp only [recompile]
    split
    · rename_i e
      intro j hj s hs hsp
      rcases List.mem_cons.1 hj with rfl | hj
      · exact absurd (mem_paths.2 ⟨s, hs, hsp⟩) (lookupInfo_none.1 e)
      · exact ih prev hp hc.2 j hj s hs hsp
    · rename_i h e
      have hrest : ∀ j ∈ (recompile (eraseInfo prev i.path) l).selected, ∀ s ∈ prev,
          s.path = j.path → s.hash ≠ j.hash := by
        intro j hj s hs hsp
        refine ih _ (nodup_eraseInfo hp _) hc.2 j hj s (mem_eraseInfo.2 ⟨hs, ?_⟩) hsp
        rw [hsp]
        exact hsub _ j hj
      split
      · rename_i hne
        intro j hj s hs hsp
        rcases List.mem_cons.1 hj with rfl | hj
        · have := lookupInfo_of_mem hp hs
          rw [hsp, e] at this
          simp only [Option.some.injEq] at this
          rw [← this]; exact hne
        · exact hrest j hj s hs hsp
      · exact hrest

theorem recompile_sel_dirty (cur : List PathInfo) : ∀ prev,
    (recompile prev cur).selected ≠ [] → (recompile prev cur).dirty = true := by
  induction cur with
  | nil => intro prev; simp [recompile]
  | cons i l ih =>
    intro prev
    simp only [recompile]
    split
    · simp
    · split
      · simp
      · exact ih _

/-- Nothing to do: the stored sources are the sources. -/
theorem recompile_clean (cur : List PathInfo) : ∀ prev, (paths prev).Nodup →
    (recompile prev cur).dirty = false → prev.Perm cur := by
  induction cur with
  | nil => intro prev _; simp [recompile]
  | cons i l ih =>
    intro prev hp
    simp only [recompile]
    split
    · simp
    · rename_i h e
      split
      · simp
      · rename_i hne
        intro hd
        simp only [ne_eq, Decidable.not_not] at hne
        have h1 := ih _ (nodup_eraseInfo hp i.path) hd
        have hmem := lookupInfo_mem e
        rw [hne] at hmem
        have h2 : (i :: eraseInfo prev i.path).Perm prev := by
          clear h1 ih hd e
          induction prev with
          | nil => simp at hmem
          | cons j q ihq =>
            simp only [paths_cons, List.nodup_cons] at hp
            rcases List.mem_cons.1 hmem with rfl | hm
            · have : eraseInfo (i :: q) i.path = q := by
                simp only [eraseInfo, ne_eq, decide_not, List.filter_cons, decide_true, Bool.not_true,
                  Bool.false_eq_true, if_false, List.filter_eq_self, Bool.not_eq_true',
                  decide_eq_false_iff_not]
                intro k hk e
                exact hp.1 (mem_paths.2 ⟨k, hk, e⟩)
              rw [this]
            · have hji : j.path ≠ i.path := fun e => hp.1 (mem_paths.2 ⟨i, hm, e.symm⟩)
              have : eraseInfo (j :: q) i.path = j :: eraseInfo q i.path := by
                simp [eraseInfo, hji]
              rw [this]
              exact (List.Perm.swap _ _ _).trans (List.Perm.cons _ (ihq hp.2 hm))
        exact h2.symm.trans (List.Perm.cons _ h1)

/-- Something to do: the set of sources changed, or the hash of one. -/
theorem recompile_dirty (cur : List PathInfo) : ∀ prev, (paths prev).Nodup → (paths cur).Nodup →
    (recompile prev cur).dirty = true →
    (¬ ∀ p, p ∈ paths prev ↔ p ∈ paths cur) ∨
      ∃ i ∈ cur, ∃ s ∈ prev, s.path = i.path ∧ s.hash ≠ i.hash := by
  induction cur with
  | nil =>
    intro prev _ _ h
    left
    intro h2
    cases prev with
    | nil => simp [recompile] at h
    | cons a l => exact absurd ((h2 a.path).1 (by simp)) (by simp)
  | cons i l ih =>
    intro prev hp hc
    simp only [paths_cons, List.nodup_cons] at hc
    simp only [recompile]
    split
    · rename_i e
      intro _
      left
      intro h2
      exact lookupInfo_none.1 e ((h2 i.path).2 (by simp))
    · rename_i h e
      split
      · rename_i hne
        intro _
        exact .inr ⟨i, List.mem_cons_self, _, lookupInfo_mem e, rfl, hne⟩
      · intro hd
        rcases ih _ (nodup_eraseInfo hp i.path) hc.2 hd with h1 | ⟨j, hj, s, hs, h2, h3⟩
        · left
          intro h2
          apply h1
          intro p
          rw [paths_eraseInfo]
          simp only [ne_eq, decide_not, List.mem_filter, Bool.not_eq_true', decide_eq_false_iff_not]
          constructor
          · rintro ⟨h3, h4⟩
            rcases List.mem_cons.1 ((h2 p).1 h3) with h5 | h5
            · exact absurd h5 h4
            · exact h5
          · intro h3
            refine ⟨(h2 p).2 (List.mem_cons_of_mem _ h3), fun e2 => ?_⟩
            rw [e2] at h3
            exact hc.1 h3
        · exact .inr ⟨j, List.mem_cons_of_mem _ hj, s, (mem_eraseInfo.1 hs).1, h2, h3⟩

theorem foldl_addSource (l : List PathInfo) : ∀ st : TargetSchema,
    l.foldl (fun st i => addSource st i.path i.hash) st = { st with sources := st.sources ++ l } := by
  induction l with
  | nil => intro st; simp
  | cons i l ih =>
    intro st
    rw [List.foldl_cons, ih]
    simp [addSource]

end Verif.Target
