import Verif.Disk.PathLemmas
import Verif.Toolchain.FindProps

namespace Verif.Disk
open Verif Verif.Schema Verif.Target
open Verif.Path (splitSlash joinSlash dirPart filename isAbs slash dot dotdot IsName asDir)

theorem lookup_iff {d : Disk} {at_ x : Place} {l : List Str} :
    Lookup d at_ l x ↔ d.walk at_ l = some x := by
  constructor
  · intro h
    induction h with
    | done at_ => rfl
    | stay at_ c l x hc _ ih => rw [Disk.walk, if_pos hc]; exact ih
    | up at_ l x _ ih =>
      have h1 : ¬(dotdot = [] ∨ dotdot = dot) := by decide
      rw [Disk.walk, if_neg h1, if_pos rfl]; exact ih
    | into at_ c l x h1 h2 h3 h4 _ ih =>
      rw [Disk.walk, if_neg (by simp only [not_or]; exact ⟨h1, h2⟩), if_neg h3, if_pos h4]; exact ih
  · intro h
    induction l generalizing at_ with
    | nil => simp only [Disk.walk, Option.some.injEq] at h; subst h; exact .done _
    | cons c l ih =>
      simp only [Disk.walk] at h
      split at h
      · rename_i hc; exact .stay _ _ _ _ hc (ih h)
      · rename_i hc
        simp only [not_or] at hc
        split at h
        · rename_i h2; subst h2; exact .up _ _ _ (ih h)
        · rename_i h2
          split at h
          · rename_i h3; exact .into _ _ _ _ hc.1 hc.2 h2 h3 (ih h)
          · simp at h

theorem dirAt_iff {d : Disk} {p : Str} {x : Place} : DirAt d p x ↔ d.parent p = some x := lookup_iff

theorem dirReady_iff {d : Disk} {p : Str} : DirReady d p ↔ ∃ x, d.parent p = some x := by
  simp only [DirReady, dirAt_iff]

theorem onDisk_iff {d : Disk} {p : Str} : OnDisk d p ↔ d.exists p = true := by
  simp only [OnDisk, dirAt_iff, Disk.exists]
  cases h : d.parent p with
  | none => simp
  | some x =>
    simp only [Option.some.injEq, exists_eq_left', Bool.or_eq_true]
    cases d.file (filename p :: x) <;> simp

/-! ### Names -/

theorem isName_of_head {b : UInt8} {s : Str} (hb : b ≠ c!".") (hs : slash ∉ b :: s) : IsName (b :: s) := by
  refine ⟨by simp, ?_, ?_, hs⟩
  · intro h; simp only [dot, List.cons.injEq] at h; exact hb h.1
  · intro h; simp only [dotdot, List.cons.injEq] at h; exact hb h.1

theorem isName_append {n e : Str} (hn : IsName n) (he : slash ∉ e) : IsName (n ++ e) := by
  obtain ⟨h1, h2, h3, h4⟩ := hn
  refine ⟨by simp [h1], ?_, ?_, by simp only [List.mem_append, not_or]; exact ⟨h4, he⟩⟩
  · intro h
    match n, h1 with
    | [b], _ =>
      simp only [List.cons_append, dot, List.cons.injEq] at h
      exact h2 (by rw [h.1])
    | b :: c :: n, _ => simp [dot] at h
  · intro h
    match n, h1 with
    | [b], _ =>
      simp only [List.cons_append, dotdot, List.cons.injEq] at h
      exact h2 (by rw [h.1])
    | [b, c], _ =>
      simp only [List.cons_append, dotdot, List.cons.injEq] at h
      exact h3 (by rw [h.1, h.2.1])
    | b :: c :: e :: n, _ => simp [dotdot] at h

theorem pch_name {e : Str} (he : slash ∉ e) : IsName (b!"buildcc_pch" ++ e) :=
  isName_append ⟨by decide, by decide, by decide, by decide⟩ he

/-- Replacing the extension of the generated header keeps the directory and leaves a file name. -/
theorem pch_replaced (build hdr ext : Str) (hh : slash ∉ hdr) (he : slash ∉ ext) :
    ∃ f, Path.replaceExtension (Path.pchHeaderPath build hdr) ext = asDir build ++ f ∧ IsName f := by
  have hp : Path.pchHeaderPath build hdr = asDir build ++ (b!"buildcc_pch" ++ hdr) :=
    Path.append_rel _ _ (Path.isAbs_noSlash _ (pch_name hh).2.2.2)
  have h1 := Path.dirPart_unique (asDir build) _ (pch_name hh).2.2.2 (Path.asDir_end build)
  have h2 := Path.filename_unique (asDir build) _ (pch_name hh).2.2.2 (Path.asDir_end build)
  rw [← hp] at h1 h2
  have hx : ∃ x, Path.replaceExtension (Path.pchHeaderPath build hdr) ext =
      asDir build ++ (Path.stem (Path.pchHeaderPath build hdr) ++ x) ∧ slash ∉ x := by
    rw [Path.replaceExtension.eq_def, h1, List.append_assoc]
    cases ext with
    | nil => exact ⟨[], rfl, by simp⟩
    | cons b ext =>
      refine ⟨if b = c!"." then b :: ext else c!"." :: b :: ext, rfl, ?_⟩
      split
      · exact he
      · simp only [List.mem_cons, not_or] at he ⊢
        exact ⟨by decide, he⟩
  obtain ⟨x, hx1, hx⟩ := hx
  refine ⟨_, hx1, ?_⟩
  · rw [Path.stem, h2]
    have hs : ∃ s, (Path.stemExt (b!"buildcc_pch" ++ hdr)).1 = c!"b" :: s ∧ slash ∉ c!"b" :: s := by
      rw [Path.stemExt, if_neg (by simp only [not_or]; exact ⟨(pch_name hh).2.1, (pch_name hh).2.2.1⟩)]
      have hno := (pch_name hh).2.2.2
      cases hl : Path.lastDot (b!"buildcc_pch" ++ hdr) with
      | none => exact ⟨_, rfl, hno⟩
      | some x =>
        obtain ⟨s, e⟩ := x
        have hse : b!"buildcc_pch" ++ hdr = s ++ e := by
          obtain ⟨y, rfl, -, h⟩ := Toolchain.lastDot_some.1 hl
          exact h
        cases s with
        | nil => exact ⟨_, rfl, hno⟩
        | cons b s =>
          refine ⟨s, ?_, ?_⟩
          · simp only [List.cons_append, List.cons.injEq] at hse
            simp only [← hse.1]
          · intro hm
            apply hno
            rw [hse]
            simp only [List.cons_append, List.cons.injEq] at hse
            rw [← hse.1]
            simp only [List.mem_append]
            exact .inl hm
    obtain ⟨s, e1, e2⟩ := hs
    rw [e1, List.cons_append]
    refine isName_of_head (by decide) ?_
    rw [← List.cons_append, List.mem_append, not_or]
    exact ⟨e2, hx⟩

/-! ### The build directory -/

theorem walk_asDir (d : Disk) (b f : Str) (hb : b ≠ []) :
    d.walk (d.start (asDir b ++ f)) (splitSlash (asDir b)) = d.walk (d.start b) (splitSlash b) := by
  have hne : asDir b ≠ [] := by
    rw [asDir]; split
    · exact hb
    · simp
  rw [← walk_comps, comps_asDir, walk_comps, Disk.start, Disk.start, Path.isAbs_append _ _ hne, isAbs_asDir]

/-- A file directly in an existing directory. -/
theorem ready_in {d : Disk} (hw : d.Wf) {b f : Str} (hb : b ≠ []) (hf : IsName f) {x : Place}
    (h : d.walk (d.start b) (splitSlash b) = some x) :
    d.parent (asDir b ++ f) = some x ∧ d.parent (Path.toPathString (asDir b ++ f)) = some x := by
  have := parent_normal hw (Path.asDir_end b) hf (x := x) (by rw [walk_asDir d b f hb]; exact h)
  exact ⟨this.2.2.1, this.1⟩

theorem Disk.Keeps.parent {d e : Disk} (h : d.Keeps e) {p : Str} {x : Place} (hp : d.parent p = some x) :
    e.parent p = some x := by
  rw [Disk.parent, h.start p]; exact h.walk hp

/-! ### Files -/

theorem parent_put (d : Disk) (g : Place → Option Str) (p : Str) :
    ({ d with file := g } : Disk).parent p = d.parent p := by
  have k1 : d.Keeps { d with file := g } := ⟨fun _ h => h, rfl⟩
  have k2 : ({ d with file := g } : Disk).Keeps d := ⟨fun _ h => h, rfl⟩
  cases h : d.parent p with
  | some x => exact k1.parent h
  | none =>
    cases h' : ({ d with file := g } : Disk).parent p with
    | none => rfl
    | some x => rw [k2.parent h'] at h; simp at h

theorem saveFile_eq {d : Disk} {p text : Str} {x : Place} (hx : d.parent p = some x)
    (hf : IsName (filename p)) (hd : d.isDir (filename p :: x) = false) :
    d.saveFile p text =
      some { d with file := fun y => if y = filename p :: x then some text else d.file y } := by
  simp only [Disk.saveFile, Disk.target]
  rw [if_neg (by simp [hf.1, hf.2.1, hf.2.2.1])]
  simp [hx, hd]

/-! ### Objects -/

theorem objPath_parts (fx : Fixed) (src : Str) (he : slash ∉ fx.cfg.objExt) :
    ∃ D, objPath fx src = D ++ (filename src ++ fx.cfg.objExt) ∧ (D = [] ∨ ∃ d', D = d' ++ [slash]) := by
  have rr : isAbs (if Path.hasDotDot (Path.lexRelative src fx.rootDir)
      then Path.dotsToUnderscores (Path.lexRelative src fx.rootDir) else Path.lexRelative src fx.rootDir) = false := by
    split
    · exact Path.dotsToUnderscores_rel _ (Path.lexRelative_rel _ _)
    · exact Path.lexRelative_rel _ _
  have := Path.objectPath_eq fx.rootDir fx.buildDir fx.cfg.objExt src he _ rfl rr
  refine ⟨_, this, ?_⟩
  revert rr this
  generalize (if Path.hasDotDot (Path.lexRelative src fx.rootDir)
      then Path.dotsToUnderscores (Path.lexRelative src fx.rootDir) else Path.lexRelative src fx.rootDir) = rel
  intro _ _
  rcases Path.dirPart_end rel with h | ⟨d', h⟩
  · rw [h, List.append_nil]; exact Path.asDir_end _
  · right; exact ⟨asDir fx.buildDir ++ d', by rw [h, List.append_assoc]⟩

theorem objectDirs_spec {fx : Fixed} {d e : Disk} {l : List Str} (hw : d.Wf)
    (h : objectDirs fx d l = some e) :
    e.Wf ∧ d.Keeps e ∧ (∀ src ∈ l, ∃ x, e.parent (objPath fx src) = some x) ∧ e.file = d.file := by
  induction l generalizing d with
  | nil =>
    simp only [objectDirs, Option.some.injEq] at h
    subst h
    exact ⟨hw, .refl _, by simp, rfl⟩
  | cons src l ih =>
    simp only [objectDirs] at h
    split at h
    · rename_i d' hd
      obtain ⟨w1, k1, ⟨x, i1⟩, f1⟩ := parent_created hw hd
      obtain ⟨w2, k2, i2, f2⟩ := ih w1 h
      refine ⟨w2, k1.trans k2, ?_, f2.trans f1⟩
      intro s hs
      rcases List.mem_cons.1 hs with rfl | hs
      · exact ⟨x, k2.parent i1⟩
      · exact i2 s hs
    · simp at h

/-! ### Creating directories succeeds -/

theorem mkdirs_dirs {d e : Disk} {at_ : Place} {l : List Str} (h : d.mkdirs at_ l = some e) (x : Place)
    (hx : e.isDir x = true) : d.isDir x = true ∨ d.file x = none := by
  induction l generalizing d at_ with
  | nil => simp only [Disk.mkdirs, Option.some.injEq] at h; exact .inl (h ▸ hx)
  | cons c l ih =>
    simp only [Disk.mkdirs] at h
    split at h
    · exact ih h
    · split at h
      · exact ih h
      · split at h
        · rename_i d' hd
          simp only [Disk.mkdir] at hd
          split at hd
          · simp only [Option.some.injEq] at hd; subst hd; exact ih h
          · split at hd
            · simp at hd
            · rename_i hf
              simp only [Option.some.injEq] at hd
              rcases ih h with h1 | h1
              · rw [← hd] at h1
                simp only at h1
                split at h1
                · rename_i e; subst e; right; simpa using hf
                · exact .inl h1
              · rw [← hd] at h1; exact .inr h1
        · simp at h

theorem walk_take {d : Disk} {at_ x : Place} {l : List Str} (h : d.walk at_ l = some x) (k : Nat) :
    d.walk at_ (l.take k) = some (resolve at_ (l.take k)) := by
  have := walk_append d at_ (l.take k) (l.drop k)
  rw [List.take_append_drop, h] at this
  cases hk : d.walk at_ (l.take k) with
  | none => rw [hk] at this; simp at this
  | some y => rw [walk_resolve hk]

theorem mkdirs_isSome {d : Disk} (hw : d.Wf) {at_ : Place} (ha : d.isDir at_ = true) (l : List Str) :
    (d.mkdirs at_ l).isSome = true ↔
      ∀ k, d.isDir (resolve at_ (l.take k)) = true ∨ d.file (resolve at_ (l.take k)) = none := by
  constructor
  · intro h k
    cases he : d.mkdirs at_ l with
    | none => rw [he] at h; simp at h
    | some e =>
      obtain ⟨w, kp, i, -⟩ := mkdirs_spec hw ha he
      exact mkdirs_dirs he _ (walk_isDir w (kp.dirs _ ha) (walk_take i k))
  · intro h
    cases he : d.mkdirs at_ l with
    | some e => rfl
    | none =>
      obtain ⟨x, h1, h2, k, -, rfl⟩ := mkdirs_none he
      rcases h k with h3 | h3
      · rw [h2] at h3; simp at h3
      · rw [h3] at h1; simp at h1

/-! ### What is created -/

theorem mkdirs_only {d e : Disk} {at_ : Place} {l : List Str} (h : d.mkdirs at_ l = some e) (x : Place)
    (hx : e.isDir x = true) : d.isDir x = true ∨ ∃ l1 l2, l = l1 ++ l2 ∧ x = resolve at_ l1 := by
  induction l generalizing d at_ with
  | nil => simp only [Disk.mkdirs, Option.some.injEq] at h; exact .inl (h ▸ hx)
  | cons c l ih =>
    have up : ∀ {d' : Disk} {y : Place}, d'.mkdirs y l = some e → resolve at_ [c] = y →
        (d'.isDir x = true → d.isDir x = true ∨ x = y) →
        d.isDir x = true ∨ ∃ l1 l2, c :: l = l1 ++ l2 ∧ x = resolve at_ l1 := by
      intro d' y h1 h2 h3
      rcases ih h1 with h4 | ⟨l1, l2, rfl, h4⟩
      · rcases h3 h4 with h5 | h5
        · exact .inl h5
        · exact .inr ⟨[c], l, rfl, by rw [h5, h2]⟩
      · refine .inr ⟨c :: l1, l2, rfl, ?_⟩
        rw [h4, ← h2, ← resolve_append]; rfl
    simp only [Disk.mkdirs] at h
    split at h
    · rename_i h1; exact up h (by simp [resolve, h1]) .inl
    · rename_i h1
      split at h
      · rename_i h2; exact up h (by rw [resolve, if_neg h1, if_pos h2]; rfl) .inl
      · rename_i h2
        split at h
        · rename_i d' hd
          refine up h (by rw [resolve, if_neg h1, if_neg h2]; rfl) ?_
          intro hi
          simp only [Disk.mkdir] at hd
          split at hd
          · simp only [Option.some.injEq] at hd; rw [hd]; exact .inl hi
          · split at hd
            · simp at hd
            · simp only [Option.some.injEq] at hd
              rw [← hd] at hi
              simp only at hi
              split at hi
              · rename_i e; exact .inr e
              · exact .inl hi
        · simp at h

theorem mkdirs_cwd {d e : Disk} {at_ : Place} {l : List Str} (h : d.mkdirs at_ l = some e) : e.cwd = d.cwd := by
  induction l generalizing d at_ with
  | nil => simp only [Disk.mkdirs, Option.some.injEq] at h; rw [h]
  | cons c l ih =>
    simp only [Disk.mkdirs] at h
    split at h
    · exact ih h
    · split at h
      · exact ih h
      · split at h
        · rename_i d' hd
          rw [ih h]
          simp only [Disk.mkdir] at hd
          split at hd
          · simp only [Option.some.injEq] at hd; rw [hd]
          · split at hd
            · simp at hd
            · simp only [Option.some.injEq] at hd; rw [← hd]
        · simp at h

theorem resolve_filter (at_ : Place) (l : List Str) : resolve at_ (l.filter (· ≠ [])) = resolve at_ l := by
  induction l generalizing at_ with
  | nil => rfl
  | cons c l ih =>
    by_cases hc : c = []
    · subst hc; rw [show ([] :: l).filter (fun x : Str => decide (x ≠ [])) = l.filter (· ≠ []) by simp, ih]
      simp [resolve]
    · rw [List.filter_cons_of_pos (by simpa using hc)]
      simp only [resolve]
      split
      · exact ih _
      · split <;> exact ih _

/-- Places on the way do not depend on empty components. -/
theorem way_comps {at_ x : Place} {s t : Str} (h : comps s = comps t)
    (hx : ∃ l1 l2, splitSlash s = l1 ++ l2 ∧ x = resolve at_ l1) :
    ∃ l1 l2, splitSlash t = l1 ++ l2 ∧ x = resolve at_ l1 := by
  obtain ⟨l1, l2, h1, rfl⟩ := hx
  have h2 : comps t = l1.filter (· ≠ []) ++ l2.filter (· ≠ []) := by
    rw [← h, comps, h1, List.filter_append]
  rw [comps, List.filter_eq_append_iff] at h2
  obtain ⟨m1, m2, h3, h4, -⟩ := h2
  refine ⟨m1, m2, h3, ?_⟩
  rw [← resolve_filter at_ l1, ← h4, resolve_filter]

/-! ### Removing -/

theorem removeAll_wf {d : Disk} (hw : d.Wf) {p : Str}
    (hc : ∀ at_, d.walk (d.start p) (splitSlash p) = some at_ → ¬ at_ <:+ d.cwd) :
    (d.removeAll p).Wf ∧ (d.removeAll p).cwd = d.cwd := by
  rw [Disk.removeAll]
  split
  · rename_i at_ h
    have hc := hc at_ h
    have hne : at_ ≠ [] := by rintro rfl; exact hc (List.nil_suffix)
    refine ⟨⟨?_, ?_, ?_⟩, rfl⟩
    · have : at_.isSuffixOf ([] : Place) = false := by
        rw [Bool.eq_false_iff]
        intro h
        rw [List.isSuffixOf_iff_suffix] at h
        exact hne (List.suffix_nil.1 h)
      simp [hw.root, this]
    · have : at_.isSuffixOf d.cwd = false := by
        rw [Bool.eq_false_iff]
        intro h
        rw [List.isSuffixOf_iff_suffix] at h
        exact hc h
      simp [hw.cwd, this]
    · intro c x hx
      simp only [Bool.and_eq_true, Bool.not_eq_true'] at hx ⊢
      refine ⟨hw.closed _ _ hx.1, ?_⟩
      rw [Bool.eq_false_iff] at hx ⊢
      intro h
      apply hx.2
      rw [List.isSuffixOf_iff_suffix] at h ⊢
      exact h.trans (List.suffix_cons _ _)
  · exact ⟨hw, rfl⟩

end Verif.Disk
