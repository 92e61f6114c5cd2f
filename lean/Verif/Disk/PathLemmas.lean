import Verif.Disk.Lemmas
import Verif.Path.ObjLemmas

namespace Verif.Disk
open Verif Verif.Schema Verif.Target
open Verif.Path (splitSlash joinSlash dirPart filename isAbs slash dot dotdot IsName GoodStack NState nstep
  render asDir)

/-- The components of a path that are not empty. -/
def comps (s : Str) : List Str := (splitSlash s).filter (· ≠ [])

theorem walk_filter (d : Disk) (at_ : Place) (l : List Str) :
    d.walk at_ (l.filter (· ≠ [])) = d.walk at_ l := by
  induction l generalizing at_ with
  | nil => rfl
  | cons c l ih =>
    by_cases hc : c = []
    · subst hc; rw [walk_skip, ← ih]; simp
    · rw [List.filter_cons_of_pos (by simpa using hc)]
      simp only [Disk.walk]
      split
      · exact ih _
      · split
        · exact ih _
        · split
          · exact ih _
          · rfl

theorem walk_comps (d : Disk) (at_ : Place) (s : Str) :
    d.walk at_ (comps s) = d.walk at_ (splitSlash s) := walk_filter d at_ _

theorem comps_slash (s t : Str) : comps (s ++ slash :: t) = comps s ++ comps t := by
  rw [comps, Path.splitSlash_append, List.filter_append]; rfl

theorem comps_slashes (s : Str) (n : Nat) : comps (s ++ List.replicate n slash) = comps s := by
  rw [comps, split_slashes, List.filter_append]
  have : (List.replicate n ([] : Str)).filter (· ≠ []) = [] := by
    rw [List.filter_eq_nil_iff]
    intro a ha
    simp [List.eq_of_mem_replicate ha]
  rw [this, List.append_nil, comps]

theorem comps_end (s : Str) : comps (s ++ [slash]) = comps s := comps_slashes s 1

theorem comps_name {c : Str} (h : IsName c) : comps c = [c] := by
  rw [comps, Path.splitSlash_noSlash c h.2.2.2]
  simp [h.1]

theorem comps_asDir (p : Str) : comps (asDir p) = comps p := by
  rw [asDir]; split
  · rfl
  · exact comps_end p

theorem isAbs_asDir (p : Str) : isAbs (asDir p) = isAbs p := by
  rw [asDir]; split
  · rfl
  · rename_i h
    exact Path.isAbs_append _ _ (by rintro rfl; exact h rfl)

/-! ### The parent of a path -/

theorem strip_end (D : Str) :
    ∃ n, D = (D.reverse.dropWhile (· = slash)).reverse ++ List.replicate n slash := by
  refine ⟨(D.reverse.takeWhile (· = slash)).length, ?_⟩
  have h1 : D.reverse.takeWhile (· = slash) =
      List.replicate (D.reverse.takeWhile (· = slash)).length slash := by
    rw [List.eq_replicate_iff]
    refine ⟨rfl, fun b hb => ?_⟩
    have := List.all_eq_true.1 (List.all_takeWhile (p := (· = slash)) (l := D.reverse)) b hb
    simpa using this
  have h2 := congrArg List.reverse (List.takeWhile_append_dropWhile (p := (· = slash)) (l := D.reverse))
  rw [List.reverse_append, List.reverse_reverse] at h2
  rw [← List.reverse_replicate, ← h1]
  exact h2.symm

theorem parentPath_comps (p : Str) : comps (Path.parentPath p) = comps (dirPart p) := by
  obtain ⟨n, hn⟩ := strip_end (dirPart p)
  rw [Path.parentPath]
  split
  · rename_i h
    rw [h] at hn
    rw [hn]
    have h0 : comps (List.replicate n slash) = [] := by
      have := comps_slashes [] n
      simpa [comps, splitSlash] using this
    rw [List.nil_append, h0]
    split
    · rfl
    · have := comps_slashes [] 1
      simpa [comps, splitSlash] using this
  · rename_i d hd
    conv => rhs; rw [hn]
    rw [comps_slashes]

theorem parentPath_abs (p : Str) : isAbs (Path.parentPath p) = isAbs (dirPart p) := by
  obtain ⟨n, hn⟩ := strip_end (dirPart p)
  rw [Path.parentPath]
  split
  · rename_i h
    rw [h, List.nil_append] at hn
    split
    · rename_i h0; rw [h0]
    · rename_i h0
      rw [hn] at h0 ⊢
      cases n with
      | zero => exact absurd rfl h0
      | succ n => simp [List.replicate_succ, isAbs]
  · rename_i d hd
    conv => rhs; rw [hn]
    rw [Path.isAbs_append]
    exact hd

theorem isAbs_dirPart (p : Str) (h : dirPart p ≠ []) : isAbs (dirPart p) = isAbs p := by
  have := Path.splitFile_append p
  rw [← this, Path.isAbs_append _ _ h, this]

/-- Creating the parent directory of a path makes its directory available. -/
theorem parent_created {d e : Disk} {p : Str} (hw : d.Wf)
    (h : d.createDirectories (Path.parentPath p) = some e) :
    e.Wf ∧ d.Keeps e ∧ (∃ x, e.parent p = some x) ∧ e.file = d.file := by
  obtain ⟨w, k, i, f⟩ := createDirectories_spec hw h
  refine ⟨w, k, ⟨resolve (e.start (Path.parentPath p)) (splitSlash (Path.parentPath p)), ?_⟩, f⟩
  rw [Disk.parent, ← walk_comps, ← parentPath_comps, walk_comps, ← i]
  have hne : dirPart p ≠ [] := by
    intro h0
    rw [Disk.createDirectories, if_pos (by simp [Path.parentPath, h0])] at h
    simp at h
  rw [Disk.start, Disk.start, parentPath_abs, isAbs_dirPart p hne]

/-! ### Normalised paths -/

theorem joinSlash_last (l : List Str) (c : Str) :
    ∃ D, joinSlash (l ++ [c]) = D ++ c ∧ (D = [] ∨ ∃ d', D = d' ++ [slash]) ∧
      ((∀ x ∈ l, x ≠ [] ∧ slash ∉ x) → comps D = l) := by
  induction l with
  | nil => exact ⟨[], rfl, .inl rfl, fun _ => rfl⟩
  | cons x l ih =>
    obtain ⟨D, h1, h2, h3⟩ := ih
    refine ⟨x ++ slash :: D, ?_, ?_, ?_⟩
    · cases hl : l ++ [c] with
      | nil => simp at hl
      | cons y ys =>
        rw [hl] at h1
        simp only [List.cons_append, hl, joinSlash, h1]
        simp
    · right
      rcases h2 with rfl | ⟨d', rfl⟩
      · exact ⟨x, rfl⟩
      · exact ⟨x ++ slash :: d', by simp⟩
    · intro hx
      rw [comps_slash, h3 fun y hy => hx y (List.mem_cons_of_mem _ hy)]
      obtain ⟨hx1, hx2⟩ := hx x List.mem_cons_self
      rw [comps, Path.splitSlash_noSlash x hx2]
      simp [hx1]

/-- The normal form of a path that ends in a name: the name stays, and the directory is looked
up along the normalised components. -/
theorem normal_parts (D f : Str) (hD : D = [] ∨ ∃ d', D = d' ++ [slash]) (hf : IsName f) :
    ∃ st, GoodStack (isAbs (D ++ f)) st ∧ filename (Path.toPathString (D ++ f)) = f ∧
      isAbs (Path.toPathString (D ++ f)) = isAbs (D ++ f) ∧
      comps (dirPart (Path.toPathString (D ++ f))) = st.reverse ∧
      ∀ at_, (isAbs (D ++ f) = true → at_ = []) → resolve at_ st.reverse = resolve at_ (splitSlash D) := by
  have hne : D ++ f ≠ [] := by simp [hf.1]
  obtain ⟨cs, h1, h2⟩ := Path.splitSlash_dirPart (D ++ f)
  rw [Path.dirPart_unique D f hf.2.2.2 hD] at h1
  rw [Path.filename_unique D f hf.2.2.2 hD] at h2
  have hcs : ∀ c ∈ cs, slash ∉ c := fun c hc =>
    Path.mem_splitSlash (D ++ f) c (by rw [h2]; simp [hc])
  have g0 : GoodStack (isAbs (D ++ f)) (⟨[], false⟩ : NState).stack := ⟨[], 0, rfl, by simp, fun _ => rfl⟩
  refine ⟨(cs.foldl (nstep (isAbs (D ++ f))) ⟨[], false⟩).stack, ?_⟩
  generalize hS : cs.foldl (nstep (isAbs (D ++ f))) ⟨[], false⟩ = S
  have gS : GoodStack (isAbs (D ++ f)) S.stack := by
    rw [← hS]; exact Path.fold_good _ _ _ g0 hcs
  have e : Path.toPathString (D ++ f) = render (isAbs (D ++ f)) ⟨f :: S.stack, false⟩ := by
    rw [Path.toPathString, Path.lexNormal, if_neg hne, h2, List.foldl_append, hS]
    simp only [List.foldl_cons, List.foldl_nil]
    rw [Path.nstep, if_neg (by simp [hf.1, hf.2.1]), if_neg hf.2.2.1]
  have e2 : Path.toPathString (D ++ f) =
      (if isAbs (D ++ f) then [slash] else []) ++ joinSlash (S.stack.reverse ++ [f]) := by
    rw [e, render]; simp
  obtain ⟨E, j1, j2, j3⟩ := joinSlash_last S.stack.reverse f
  have j4 := j3 fun x hx => ⟨Path.good_ne_nil gS x (List.mem_reverse.1 hx),
    Path.good_noSlash gS x (List.mem_reverse.1 hx)⟩
  have e3 : Path.toPathString (D ++ f) = ((if isAbs (D ++ f) then [slash] else []) ++ E) ++ f := by
    rw [e2, j1, List.append_assoc]
  have hE : ((if isAbs (D ++ f) then [slash] else []) ++ E) = [] ∨
      ∃ d', ((if isAbs (D ++ f) then [slash] else []) ++ E) = d' ++ [slash] := by
    rcases j2 with rfl | ⟨d', rfl⟩
    · cases isAbs (D ++ f)
      · left; rfl
      · right; exact ⟨[], rfl⟩
    · right; exact ⟨(if isAbs (D ++ f) then [slash] else []) ++ d', by rw [List.append_assoc]⟩
  refine ⟨gS, ?_, ?_, ?_, ?_⟩
  · rw [e3]; exact Path.filename_unique _ _ hf.2.2.2 hE
  · rw [e]
    refine Path.isAbs_render _ _ ?_
    obtain ⟨names, k, hst, hn, hk⟩ := gS
    refine ⟨f :: names, k, by simp [hst], ?_, hk⟩
    intro c hc
    rcases List.mem_cons.1 hc with rfl | hc
    · exact hf
    · exact hn c hc
  · rw [e3, Path.dirPart_unique _ _ hf.2.2.2 hE]
    cases isAbs (D ++ f)
    · simpa using j4
    · have := comps_slash [] E
      simp only [List.nil_append] at this
      simp only [if_true, List.singleton_append]
      rw [this, j4]; rfl
  · intro at_ ha
    have := resolve_fold ha cs ⟨[], false⟩ g0 hcs
    rw [hS] at this
    rw [this, h1, resolve_append]
    simp [resolve]

/-- If the directory of a path is there, it is the directory of the normalised path. -/
theorem parent_normal {d : Disk} (hw : d.Wf) {D f : Str} (hD : D = [] ∨ ∃ d', D = d' ++ [slash])
    (hf : IsName f) {x : Place} (h : d.walk (d.start (D ++ f)) (splitSlash D) = some x) :
    d.parent (Path.toPathString (D ++ f)) = some x ∧ filename (Path.toPathString (D ++ f)) = f ∧
      d.parent (D ++ f) = some x ∧ filename (D ++ f) = f := by
  obtain ⟨st, g, h1, h2, h3, h4⟩ := normal_parts D f hD hf
  have hs : isAbs (D ++ f) = true → d.start (D ++ f) = [] := fun ha => by simp [Disk.start, ha]
  have hx := walk_resolve h
  have hd := walk_isDir hw (hw.start _) h
  refine ⟨?_, h1, ?_, Path.filename_unique _ _ hf.2.2.2 hD⟩
  · rw [Disk.parent, ← walk_comps, h3, Disk.start, h2]
    change d.walk (d.start (D ++ f)) _ = _
    rw [walk_good hw g, h4 _ hs, hx]
    rw [h4 _ hs, ← hx]; exact hd
  · rw [Disk.parent, Path.dirPart_unique _ _ hf.2.2.2 hD]
    exact h

end Verif.Disk
