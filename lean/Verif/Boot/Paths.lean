import Verif.Boot.Inputs

/-! # Where the files of the bootstrap script are -/

namespace Verif.Boot
open Verif Verif.Schema Verif.Target Verif.Toolchain Verif.Path
open Verif.Reg (Absolute)

/-- A relative path made of plain names. -/
def Rel (r : Str) : Prop := ∀ c ∈ splitSlash r, PlainName c

instance (r : Str) : Decidable (Rel r) := inferInstanceAs (Decidable (∀ c ∈ splitSlash r, _))

theorem Rel.name {f : Str} (h : PlainName f) : Rel f := by
  intro c hc
  rw [splitSlash_noSlash f h.2.2.2] at hc
  rw [List.mem_singleton.1 hc]; exact h

theorem Rel.append {a b : Str} (ha : Rel a) (hb : Rel b) : Rel (a ++ b!"/" ++ b) := by
  intro c hc
  have e : a ++ b!"/" ++ b = a ++ slash :: b := by simp
  rw [e, splitSlash_append, List.mem_append] at hc
  rcases hc with hc | hc
  · exact ha c hc
  · exact hb c hc

theorem Rel.ne {r : Str} (h : Rel r) : r ≠ [] := by
  rintro rfl; exact (h [] (by decide)).1 rfl

theorem Rel.notAbs {r : Str} (h : Rel r) : isAbs r = false := by
  cases r with
  | nil => rfl
  | cons b t =>
    cases hb : isAbs (b :: t)
    · rfl
    · obtain ⟨u, -, e⟩ := splitSlash_abs _ hb
      exact absurd rfl (h [] (by rw [e]; simp)).1

theorem filename_last {r : Str} (h : Rel r) (d : Str) : filename (d ++ b!"/" ++ r) ≠ [] := by
  have e : d ++ b!"/" ++ r = (d ++ [slash]) ++ r := rfl
  rw [e, (splitFile_prefix (d ++ [slash]) r (Or.inr ⟨d, rfl⟩)).2]
  intro hf
  have hf' : filename r = [] := hf
  obtain hd | ⟨d', hd⟩ := dirPart_empty_filename r hf'
  · exact h.ne hd
  · have : [] ∈ splitSlash r := by
      rw [hd]
      have := splitSlash_append d' []
      rw [this]; simp [splitSlash]
    exact (h _ this).1 rfl

/-- A path below an absolute path. -/
theorem below {d r : Str} (h : Absolute d) (hr : Rel r) :
    append d r = d ++ b!"/" ++ r ∧ Absolute (d ++ b!"/" ++ r) := by
  have e : append d r = d ++ b!"/" ++ r := by
    rw [append_rel _ _ hr.notAbs, asDir, if_neg h.2.2]
  refine ⟨e, ?_, ?_, filename_last hr d⟩
  · rw [List.append_assoc, isAbs_append _ _ h.ne]; exact h.1
  · obtain ⟨names, hne, hn, hd⟩ := names_of_normal d h.1 h.2.1 h.2.2
    have : d ++ b!"/" ++ r = slash :: joinSlash (names ++ splitSlash r) := by
      rw [joinSlash_append names _ hne (splitSlash_ne_nil r), joinSlash_splitSlash, hd]
      simp
    rw [this, toPathString]
    refine normal_names _ (by simp [hne]) ?_
    intro c hc
    rcases List.mem_append.1 hc with hc | hc
    · exact hn c hc
    · exact hr c hc

theorem dots_append (a b : Str) : hasDotDot (a ++ b!"/" ++ b) = (hasDotDot a || hasDotDot b) := by
  induction a with
  | nil =>
    cases b with
    | nil => rfl
    | cons x t => simp [hasDotDot]
  | cons x t ih =>
    cases t with
    | nil =>
      have : hasDotDot (b!"/" ++ b) = hasDotDot b := by simpa [hasDotDot] using ih
      simp only [List.cons_append, List.nil_append] at this ⊢
      rw [hasDotDot, this]
      simp [hasDotDot]
    | cons y t =>
      simp only [List.cons_append] at ih ⊢
      rw [hasDotDot, hasDotDot, ih, Bool.or_assoc]

/-- A source tree of the library in `root`. -/
structure Tree (root : Str) (list : Str → Option (List Str)) (tc : Toolchain) : Prop where
  root : Absolute root
  name : PlainName tc.name
  exts : PlainExt tc.config.objExt ∧ PlainExt tc.config.pchHeaderExt ∧
    PlainExt tc.config.pchCompileExt
  /-- A listing has each file once; file names do not contain two dots in a row. -/
  listing : ∀ d l, list d = some l → l.Nodup ∧ ∀ f ∈ l, PlainName f ∧ hasDotDot f = false

/-- What the script needs of the place where it runs. -/
structure Checkout (p : Project) (list : Str → Option (List Str)) (tc : Toolchain) : Prop extends
    Tree p.rootDir list tc where
  build : Absolute p.buildDir
  /-- The build directory has no file of the directories with sources. -/
  apart : ∀ d ∈ [b!"buildcc", b!"third_party", b!"example"], ∀ t,
    ¬ Inside p.buildDir (p.rootDir ++ b!"/" ++ d ++ b!"/" ++ t)

/-- The path of a file in a directory below `root`. -/
def inDir (d f : Str) : Str := if d = [] then f else d ++ b!"/" ++ f

theorem inDir_path {root d f : Str} (hr : Absolute root) (hd : d = [] ∨ Rel d) (hf : PlainName f) :
    toPathString (append (append root d) f) = root ++ b!"/" ++ inDir d f ∧ Rel (inDir d f) ∧
      Absolute (root ++ b!"/" ++ inDir d f) := by
  rcases hd with rfl | hd
  · have b := below hr (Rel.name hf)
    have e : append (append root []) f = root ++ b!"/" ++ f := by
      have hroot : asDir root = root ++ [slash] := by rw [asDir, if_neg hr.2.2]
      have hfn : filename (root ++ [slash]) = [] := by
        have := filename_unique (root ++ [slash]) [] (by simp) (.inr ⟨root, rfl⟩)
        simpa using this
      rw [append_rel root [] rfl, append_rel _ _ (Rel.name hf).notAbs, hroot, List.append_nil, asDir,
        if_pos hfn]
    simp only [inDir, if_true]
    rw [e]
    exact ⟨b.2.2.1, Rel.name hf, b.2⟩
  · have b := below hr hd
    have b2 := below b.2 (Rel.name hf)
    rw [inDir, if_neg hd.ne, b.1, b2.1, ← List.append_assoc, ← List.append_assoc]
    exact ⟨b2.2.2.1, Rel.append hd (Rel.name hf), b2.2⟩

theorem inDir_inj {d1 d2 f1 f2 : Str} (h1 : PlainName f1) (h2 : PlainName f2) (n1 : Rel d1)
    (n2 : Rel d2) (h : inDir d1 f1 = inDir d2 f2) : d1 = d2 ∧ f1 = f2 := by
  rw [inDir, inDir, if_neg n1.ne, if_neg n2.ne] at h
  have e1 := filename_unique (d1 ++ b!"/") f1 h1.2.2.2 (.inr ⟨d1, rfl⟩)
  have e2 := filename_unique (d2 ++ b!"/") f2 h2.2.2.2 (.inr ⟨d2, rfl⟩)
  have hf : f1 = f2 := by rw [← e1, h, e2]
  subst hf
  have := List.append_cancel_right (List.append_cancel_right h)
  exact ⟨this, rfl⟩

/-- The files of directories below `root`. -/
theorem mem_filesOf {list : Str → Option (List Str)} {root : Str} {keep : Str → Bool}
    {dirs : List Str} (hl : ∀ d l, list d = some l → l.Nodup ∧ ∀ f ∈ l, PlainName f ∧ hasDotDot f = false)
    (hr : Absolute root) (hd : ∀ d ∈ dirs, d = [] ∨ Rel d) {q : Str}
    (hq : q ∈ filesOf list root keep dirs) : ∃ d ∈ dirs, ∃ f, PlainName f ∧ hasDotDot f = false ∧
      q = root ++ b!"/" ++ inDir d f := by
  simp only [filesOf, List.mem_flatMap, List.mem_map, List.mem_filter] at hq
  obtain ⟨d, hdm, x, ⟨⟨f, hf, rfl⟩, -⟩, rfl⟩ := hq
  cases hll : list (append root d) with
  | none => rw [hll] at hf; simp at hf
  | some l =>
    rw [hll] at hf
    have := (hl _ l hll).2 f hf
    exact ⟨d, hdm, f, this.1, this.2, (inDir_path hr (hd d hdm) this.1).1⟩

theorem nodup_filesOf {list : Str → Option (List Str)} {root : Str} {keep : Str → Bool}
    (hl : ∀ d l, list d = some l → l.Nodup ∧ ∀ f ∈ l, PlainName f ∧ hasDotDot f = false)
    (hr : Absolute root) : ∀ {dirs : List Str}, (∀ d ∈ dirs, Rel d) → dirs.Nodup →
      (filesOf list root keep dirs).Nodup := by
  intro dirs
  induction dirs with
  | nil => intros; simp [filesOf]
  | cons d dirs ih =>
    intro hd hn
    rw [List.nodup_cons] at hn
    have hc : filesOf list root keep (d :: dirs) =
        filesOf list root keep [d] ++ filesOf list root keep dirs := by simp [filesOf]
    rw [hc, List.nodup_append]
    refine ⟨?_, ih (fun x hx => hd x (by simp [hx])) hn.2, ?_⟩
    · simp only [filesOf, List.flatMap_cons, List.flatMap_nil, List.append_nil]
      cases hll : list (append root d) with
      | none => simp
      | some l =>
        have := hl _ l hll
        simp only [Option.getD_some]
        rw [List.filter_map, List.map_map]
        refine List.Pairwise.map _ ?_ (List.Pairwise.and_mem.1 (this.1.filter _))
        rintro a b ⟨ha, hb, hab⟩ e
        have ha := this.2 a (List.mem_filter.1 ha).1
        have hb := this.2 b (List.mem_filter.1 hb).1
        have hdd := hd d (by simp)
        simp only [Function.comp] at e
        rw [(inDir_path hr (.inr hdd) ha.1).1, (inDir_path hr (.inr hdd) hb.1).1] at e
        exact hab (inDir_inj ha.1 hb.1 hdd hdd (List.append_cancel_left e)).2
    · intro a ha b hb e
      subst e
      obtain ⟨d1, h1, f1, p1, -, e1⟩ := mem_filesOf hl hr (fun x hx => .inr (hd x (by
        rw [List.mem_singleton.1 hx]; simp))) ha
      obtain ⟨d2, h2, f2, p2, -, e2⟩ := mem_filesOf hl hr (fun x hx => .inr (hd x (by
        simp [hx]))) hb
      rw [List.mem_singleton] at h1
      subst h1
      have := (inDir_inj p1 p2 (hd d1 (by simp)) (hd d2 (by simp [h2]))
        (List.append_cancel_left (e1.symm.trans e2))).1
      exact hn.1 (this ▸ h2)

end Verif.Boot
