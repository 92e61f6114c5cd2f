import Verif.Reg.ProjectSpec

/-! # Paths of the targets of a script -/

namespace Verif.Path
open Verif

theorem normal_names (names : List Str) (hne : names ≠ []) (h : ∀ c ∈ names, IsName c) :
    lexNormal (slash :: joinSlash names) = slash :: joinSlash names := by
  have hs : splitSlash (slash :: joinSlash names) = [] :: names := by
    have := splitSlash_append [] (joinSlash names)
    rw [List.nil_append] at this
    rw [this, splitSlash_joinSlash names hne (fun c hc => (h c hc).2.2.2)]; rfl
  rw [lexNormal, if_neg (by simp), hs]
  have ha : isAbs (slash :: joinSlash names) = true := rfl
  rw [ha, List.foldl_cons]
  have e : nstep true ⟨[], false⟩ [] = ⟨[], true⟩ := by decide
  rw [e, fold_names true names [] true h, if_neg hne, List.append_nil]
  cases hr : names.reverse with
  | nil => exact absurd (List.reverse_eq_nil_iff.1 hr) hne
  | cons a l =>
    simp only [render]
    rw [← hr, List.reverse_reverse]
    simp

end Verif.Path

namespace Verif.Reg
open Verif Verif.Schema Verif.Toolchain Verif.Path
open Verif.Target (Fixed objPath outputPath paths Project Made targetGeneric PlainExt)

theorem Absolute.ne {p : Str} (h : Absolute p) : p ≠ [] := by
  rintro rfl; exact absurd h.1 (by decide)

/-- A name below an absolute path. -/
theorem Absolute.append {d f : Str} (h : Absolute d) (hf : PlainName f) :
    append d f = d ++ b!"/" ++ f ∧ Absolute (Path.append d f) := by
  have e : Path.append d f = d ++ b!"/" ++ f := by
    rw [append_rel _ _ (isAbs_noSlash f hf.2.2.2), asDir, if_neg h.2.2]
  refine ⟨e, ?_, ?_, ?_⟩
  · rw [e, List.append_assoc, isAbs_append _ _ h.ne]; exact h.1
  · obtain ⟨names, hne, hn, hd⟩ := names_of_normal d h.1 h.2.1 h.2.2
    have : d ++ b!"/" ++ f = slash :: joinSlash (names ++ [f]) := by
      rw [joinSlash_append names [f] hne (by simp), hd]
      simp [joinSlash]
    rw [e, this, toPathString]
    refine normal_names _ (by simp) ?_
    intro c hc
    rcases List.mem_append.1 hc with hc | hc
    · exact hn c hc
    · rw [List.mem_singleton.1 hc]; exact hf
  · rw [e]
    have := filename_unique (d ++ b!"/") f hf.2.2.2 (.inr ⟨d, rfl⟩)
    rw [this]; exact hf.1

theorem inside_trans {a b c : Str} (hb : b.getLast? ≠ some slash) (h1 : Inside a b)
    (h2 : Inside b c) : Inside a c := by
  obtain ⟨t, h, ht⟩ := h1
  obtain ⟨u, hu, hu'⟩ := h2
  have e : c = b ++ slash :: u := by
    rcases hu with hu | ⟨hu, -⟩
    · exact hu
    · exact absurd hu hb
  refine ⟨t ++ slash :: u, ?_, ?_⟩
  · rcases h with h | ⟨h, h'⟩
    · left; rw [e, h]; simp
    · right; exact ⟨h, by rw [e, h']; simp⟩
  · rw [splitSlash_append]
    simp only [List.mem_append, not_or]
    exact ⟨ht, hu'⟩

theorem Absolute.last {p : Str} (h : Absolute p) : p.getLast? ≠ some slash := by
  intro e
  apply h.2.2
  obtain ⟨d, rfl⟩ : ∃ d, p = d ++ [slash] := by
    rw [List.getLast?_eq_some_iff] at e
    exact e
  have := filename_unique (d ++ [slash]) [] (by simp) (.inr ⟨d, rfl⟩)
  simpa using this

/-- A name in a directory. -/
theorem inside_name {d f : Str} (hf : f ≠ dotdot) (hs : slash ∉ f) : Inside d (d ++ b!"/" ++ f) :=
  ⟨f, .inl (by simp), by
    rw [splitSlash_noSlash f hs]; simpa using Ne.symm hf⟩

/-! ## The files of one target -/

/-- What is known of a target that was made by the rules. -/
structure Placed (p : Project) (t : ScriptTarget) : Prop where
  build : Absolute p.buildDir
  dir : t.made.buildDir = Path.targetBuildDir p.buildDir t.made.toolchain.name t.made.name
  shipped : Target.Shipped t.made.fixed
  name : PlainName t.made.name
  tname : PlainName t.made.toolchain.name
  obj : PlainExt t.made.toolchain.config.objExt
  pch : PlainExt t.made.toolchain.config.pchHeaderExt
  pchc : PlainExt t.made.toolchain.config.pchCompileExt
  ext : t.made.config.targetExt = [] ∨ PlainExt t.made.config.targetExt

theorem Placed.of {p p' : Project} {t : ScriptTarget} (hb : Absolute p.buildDir)
    (hmade : ∃ junk name type tc root,
      targetGeneric junk p' name type tc ⟨root, p.buildDir⟩ = some t.made)
    (hn : PlainName t.made.name ∧ PlainName t.made.toolchain.name)
    (he : PlainExt t.made.toolchain.config.objExt ∧ PlainExt t.made.toolchain.config.pchHeaderExt ∧
      PlainExt t.made.toolchain.config.pchCompileExt) : Placed p t := by
  obtain ⟨junk, name, type, tc, root, hm⟩ := hmade
  have hsup := mt (Target.C70_fatal junk p' name type tc ⟨root, p.buildDir⟩ none).2 (by rw [hm]; simp)
  obtain ⟨h1, h2, h3, h4, h5, h6, -⟩ := Target.C70_made hm
  have hs : type ≠ .undefined ∧ Target.Supported tc.id := by
    refine ⟨fun h => hsup (.inr (.inl h)), ?_⟩
    by_cases hh : Target.Supported tc.id
    · exact hh
    · exact absurd (.inr (.inr hh)) hsup
  have hshape : Target.Shipped t.made.fixed ∧
      (t.made.config.targetExt = [] ∨ PlainExt t.made.config.targetExt) := by
    have e : t.made.fixed.tcfg = Target.shipped tc.id type := by
      simp [Made.fixed, h6]
    rw [Target.Shipped, e, h6]
    obtain ⟨hs1, hs2⟩ := hs
    have pe : ∀ n : Str, n ≠ [] → c!"." ∉ n → slash ∉ n → PlainExt (c!"." :: n) :=
      fun n a b c => ⟨n, rfl, a, b, c⟩
    rcases hs2 with hs2 | hs2 | hs2 <;> rw [hs2] <;> cases type <;>
      first
        | exact absurd rfl hs1
        | (refine ⟨by decide +kernel, ?_⟩
           first
             | (left; rfl)
             | (right; exact pe _ (by decide) (by decide) (by decide)))
  exact ⟨hb, by rw [h5, h3, h1], hshape.1, hn.1, hn.2, he.1, he.2.1, he.2.2, hshape.2⟩

/-- Different sources below the root directory of a target have different object files. -/
theorem objects_below {t : ScriptTarget} (hr : Absolute t.made.rootDir)
    (he : PlainExt t.made.toolchain.config.objExt) {srcs : List Str}
    (hs : ∀ q ∈ srcs, ∃ r, q = t.made.rootDir ++ b!"/" ++ r ∧ Path.toPathString q = q ∧
      Path.filename r ≠ [] ∧ Path.hasDotDot r = false) :
    ∀ a ∈ srcs, ∀ b ∈ srcs, objPath t.made.fixed a = objPath t.made.fixed b → a = b := by
  intro x hx y hy hxy
  obtain ⟨r1, rfl, n1, f1, d1⟩ := hs x hx
  obtain ⟨r2, rfl, n2, f2, d2⟩ := hs y hy
  obtain ⟨n, hn, -, -, h3⟩ := he
  have := object_path_injective_inside_root_partial t.made.rootDir t.made.buildDir
    t.made.toolchain.config.objExt r1 r2 hr.2.1 hr.1 hr.2.2
    (by rw [hn]; simp only [List.mem_cons, not_or]; exact ⟨by decide, h3⟩) n1 n2 f1 f2 d1 d2 hxy
  rw [this]

theorem PlainScript.placed {p : Project} {ts : List ScriptTarget} {deps : List (Str × Str)}
    (h : PlainScript p ts deps) {t : ScriptTarget} (ht : t ∈ ts) : Placed p t :=
  .of h.build (h.made t ht) (h.names t ht) (h.exts t ht)

theorem Placed.abs {p : Project} {t : ScriptTarget} (h : Placed p t) :
    Absolute t.made.buildDir ∧ Inside p.buildDir t.made.buildDir := by
  have h1 := h.build.append h.tname
  have h2 := h1.2.append h.name
  rw [h.dir, Path.targetBuildDir]
  refine ⟨h2.2, ?_⟩
  rw [h2.1, h1.1]
  refine inside_trans (b := p.buildDir ++ b!"/" ++ t.made.toolchain.name) ?_
    (inside_name h.tname.2.2.1 h.tname.2.2.2) (inside_name h.name.2.2.1 h.name.2.2.2)
  rw [← h1.1]; exact h1.2.last

theorem PlainExt.noSlash {e : Str} (h : PlainExt e) : slash ∉ e := by
  obtain ⟨n, rfl, -, -, h⟩ := h
  simp only [List.mem_cons, not_or]
  exact ⟨by decide, h⟩

/-- Plain names with an extension. -/
theorem plain_ext {n e : Str} (hn : PlainName n) (he : e = [] ∨ PlainExt e) : PlainName (n ++ e) := by
  rcases he with rfl | he
  · simpa using hn
  · obtain ⟨x, rfl, h1, h2, h3⟩ := he
    refine ⟨by simp, ?_, ?_, ?_⟩
    · intro h
      have hl := congrArg List.length h
      simp [dot] at hl
      exact hn.1 (List.length_eq_zero_iff.1 (by omega))
    · intro h
      have hl := congrArg List.length h
      simp [dotdot] at hl
      have h4 : 0 < n.length := List.length_pos_iff.2 hn.1
      have h5 : 0 < x.length := List.length_pos_iff.2 h1
      omega
    · simp only [List.mem_append, List.mem_cons, not_or]
      exact ⟨hn.2.2.2, by decide, h3⟩

/-- The output of a target is in its directory. -/
theorem Placed.output {p : Project} {t : ScriptTarget} (h : Placed p t) :
    t.output = t.made.buildDir ++ b!"/" ++ (t.made.name ++ t.made.config.targetExt) ∧
      Absolute t.output := by
  have := h.abs.1.append (plain_ext h.name h.ext)
  exact this

/-- The precompiled header and the files next to it. -/
theorem Placed.pchFiles {p : Project} {t : ScriptTarget} (h : Placed p t) {q : Str}
    (hq : q ∈ pchFiles t.made.fixed) : ∃ e, q = t.made.buildDir ++ b!"/" ++ (b!"buildcc_pch" ++ e) ∧
      slash ∉ e := by
  have ab := h.abs.1
  have hn : PlainName (b!"buildcc_pch" ++ t.made.toolchain.config.pchHeaderExt) :=
    plain_ext (by decide) (.inr h.pch)
  have e1 : Path.pchHeaderPath t.made.buildDir t.made.toolchain.config.pchHeaderExt =
      t.made.buildDir ++ b!"/" ++ (b!"buildcc_pch" ++ t.made.toolchain.config.pchHeaderExt) :=
    (ab.append hn).1
  have hst := Target.stem_file (t.made.buildDir ++ b!"/") b!"buildcc_pch" _ (by decide) h.pch
    (.inr ⟨_, rfl⟩) (by decide)
  rw [← e1] at hst
  have hrep : ∀ e : Str, slash ∉ e → ∃ x, Path.replaceExtension (Path.pchHeaderPath t.made.buildDir
      t.made.toolchain.config.pchHeaderExt) e = t.made.buildDir ++ b!"/" ++ (b!"buildcc_pch" ++ x) ∧
        slash ∉ x := by
    intro e he
    unfold Path.replaceExtension
    rw [hst]
    split
    · exact ⟨[], by simp, by simp⟩
    · rename_i b r
      split
      · exact ⟨b :: r, by simp, he⟩
      · exact ⟨c!"." :: b :: r, by simp, by
          simp only [List.mem_cons, not_or] at he ⊢
          exact ⟨by decide, he⟩⟩
  simp only [Reg.pchFiles, Made.fixed, List.mem_cons, List.not_mem_nil, or_false] at hq
  rcases hq with rfl | rfl | rfl | rfl | rfl
  · exact ⟨_, e1, PlainExt.noSlash h.pch⟩
  · exact hrep _ (by decide)
  · exact hrep _ (by decide)
  · exact hrep _ (by
      simp only [List.mem_append, not_or]
      exact ⟨PlainExt.noSlash h.pch, PlainExt.noSlash h.pchc⟩)
  · exact hrep _ (PlainExt.noSlash h.obj)

/-- Every file that a target writes is in its directory. -/
theorem Placed.outputs {p : Project} {t : ScriptTarget} (h : Placed p t) {q : Str}
    (hq : q ∈ outputs (.target t.made.fixed Target.Sys.init) (.target t.cfg t.order)) :
    Inside t.made.buildDir q := by
  simp only [Reg.outputs, List.mem_append, List.mem_map] at hq
  rcases hq with (hq | ⟨s, -, rfl⟩) | hq
  · obtain ⟨e, rfl, he⟩ := h.pchFiles hq
    refine inside_name (by simp [dotdot]) ?_
    simp only [List.mem_append, not_or]
    exact ⟨by decide, he⟩
  · refine object_path_inside_build _ _ _ _ h.abs.1.ne (PlainExt.noSlash h.obj) ?_
    obtain ⟨x, hx, h1, h2, h3⟩ := h.obj
    intro e
    have hx' : t.made.fixed.cfg.objExt = c!"." :: x := hx
    rw [hx'] at e
    generalize Path.filename s = f at e
    match f, e with
    | [], e =>
      simp [dotdot] at e
      rw [e] at h2; simp at h2
    | [b], e => simp [dotdot] at e; exact h1 e.2
    | _ :: _ :: _, e => simp [dotdot] at e
  · have ho : outputPath t.made.fixed = t.made.buildDir ++ b!"/" ++
        (t.made.name ++ t.made.config.targetExt) := h.output.1
    have hs := (plain_ext h.name h.ext)
    simp only [linkFiles, List.mem_cons, List.not_mem_nil, or_false, ho] at hq
    have key : ∀ e : Str, slash ∉ e → PlainName (t.made.name ++ t.made.config.targetExt ++ e) →
        Inside t.made.buildDir (t.made.buildDir ++ b!"/" ++
          (t.made.name ++ t.made.config.targetExt) ++ e) := by
      intro e he hp
      rw [List.append_assoc (t.made.buildDir ++ b!"/")]
      exact inside_name hp.2.2.1 hp.2.2.2
    rcases hq with rfl | rfl | rfl
    · exact inside_name hs.2.2.1 hs.2.2.2
    · exact key b!".a" (by decide) (plain_ext hs (.inr ⟨b!"a", rfl, by decide, by decide, by decide⟩))
    · exact key b!".dll" (by decide)
        (plain_ext hs (.inr ⟨b!"dll", rfl, by decide, by decide, by decide⟩))

/-- A file in the directories of two targets: they have one name. -/
theorem Placed.same {p : Project} {a b : ScriptTarget} (ha : Placed p a) (hb : Placed p b) {q : Str}
    (h1 : Inside a.made.buildDir q) (h2 : Inside b.made.buildDir q) : a.id = b.id := by
  obtain ⟨t, ht, ht'⟩ := h1
  obtain ⟨u, hu, hu'⟩ := h2
  have e1 : q = a.made.buildDir ++ b!"/" ++ t := by
    rcases ht with h | ⟨h, -⟩
    · simpa using h
    · exact absurd h ha.abs.1.last
  have e2 : q = b.made.buildDir ++ b!"/" ++ u := by
    rcases hu with h | ⟨h, -⟩
    · simpa using h
    · exact absurd h hb.abs.1.last
  rw [ha.dir] at e1
  rw [hb.dir] at e2
  have := target_dirs_disjoint p.buildDir _ _ _ _ t u ha.build.ne ha.tname ha.name hb.tname hb.name
    ht' hu' (by rw [← e1, ← e2])
  rw [ScriptTarget.id, ScriptTarget.id, this.1, this.2]

end Verif.Reg
