import Verif.Boot.Paths

/-! # The package `BuildBuildCC` -/

namespace Verif.Boot
open Verif Verif.Schema Verif.Target Verif.Toolchain Verif.Path
open Verif.Reg (Absolute ScriptTarget PlainScript Placed Reaches)

theorem sourceDirs_rel : ∀ d ∈ sourceDirs, Rel d := by decide +kernel
theorem sourceDirs_nodup : sourceDirs.Nodup := by decide +kernel
theorem sourceDirs_dots : ∀ d ∈ sourceDirs, hasDotDot d = false := by decide +kernel
theorem headerDirs_rel : ∀ d ∈ headerDirs, d = [] ∨ Rel d := by decide +kernel
theorem thirdParty_rel : ∀ x ∈ thirdParty, PlainName x.1 ∧ ∀ d ∈ x.2, Rel d := by decide +kernel

theorem third_path {root dir : Str} (h : Absolute root) (hd : PlainName dir) :
    third root dir = root ++ b!"/" ++ b!"third_party" ++ b!"/" ++ dir ∧ Absolute (third root dir) := by
  have h1 := below h (r := b!"third_party") (by decide +kernel)
  have h2 := below h1.2 (Rel.name hd)
  rw [third, h1.1, h2.1]
  exact ⟨rfl, h2.2⟩

/-- The object file of a source below the root directory. -/
theorem object_of {p : Project} {x : ScriptTarget} (h : Placed p x) (ha : Absolute x.made.rootDir)
    {r : Str} (hr : Rel r) (hd : hasDotDot r = false) (hf : filename r ≠ []) :
    objPath x.made.fixed (x.made.rootDir ++ b!"/" ++ r) =
      x.made.buildDir ++ b!"/" ++ (r ++ x.made.toolchain.config.objExt) := by
  have k := lexRelative_inside _ r ha.2.1 ha.1 ha.2.2 (below ha hr).2.2.1 hf
  have e : filename (x.made.rootDir ++ b!"/" ++ r) = filename r :=
    (splitFile_prefix (x.made.rootDir ++ [slash]) r (Or.inr ⟨_, rfl⟩)).2
  show objectPath x.made.rootDir x.made.buildDir x.made.toolchain.config.objExt _ = _
  rw [objectPath_eq _ _ _ _ (Reg.PlainExt.noSlash h.obj) r (by rw [k, hd]; simp) hr.notAbs, e,
    List.append_assoc, ← List.append_assoc (dirPart r), splitFile_append, asDir,
    if_neg h.abs.1.2.2]

theorem ownName {p : Project} {x : ScriptTarget} (h : Placed p x) (ha : Absolute x.made.rootDir)
    (hs : ∀ q ∈ paths x.cfg.sources, ∃ r, q = x.made.rootDir ++ b!"/" ++ r ∧ Rel r ∧
      hasDotDot r = false ∧ filename r ≠ [] ∧
        r ++ x.made.toolchain.config.objExt ≠ x.made.name ++ x.made.config.targetExt)
    (hn : x.made.name.head? ≠ some c!"b") : Reg.OwnName x := by
  refine ⟨?_, ?_⟩
  · intro q hq e
    obtain ⟨r, rfl, h1, h2, h3, h4⟩ := hs q hq
    rw [object_of h ha h1 h2 h3, h.output.1] at e
    exact h4 (List.append_cancel_left e)
  · intro hm
    obtain ⟨e, he, -⟩ := h.pchFiles hm
    rw [h.output.1] at he
    have := List.append_cancel_left he
    cases hx : x.made.name with
    | nil => exact h.name.1 hx
    | cons b l =>
      rw [hx] at this hn
      simp only [List.cons_append, List.cons.injEq] at this
      exact hn (by rw [List.head?_cons, this.1])

/-- The targets of the package with the orders in which their objects are linked. -/
def pkgTargets (t : Package) (o1 o2 : List Str) : List ScriptTarget :=
  [⟨t.tpl.made, t.tpl.cfg, o1⟩, ⟨t.buildcc.made, t.buildcc.cfg, o2⟩]

theorem both {t : Package} {o1 o2 : List Str} {P : ScriptTarget → Prop}
    (h1 : P ⟨t.tpl.made, t.tpl.cfg, o1⟩) (h2 : P ⟨t.buildcc.made, t.buildcc.cfg, o2⟩) :
    ∀ x ∈ pkgTargets t o1 o2, P x := by
  intro x hx
  simp only [pkgTargets, List.mem_cons, List.not_mem_nil, or_false] at hx
  rcases hx with rfl | rfl
  · exact h1
  · exact h2

/-- The root directories of the targets of the package. -/
theorem package_roots {junk : Nat → TargetSchema} {p : Project} {env : TargetEnv}
    {list : Str → Option (List Str)} {tc : Toolchain} {t : Package}
    (h : buildBuildCC junk p env list tc = some t) (hc : Tree env.rootDir list tc) (o1 o2 : List Str) :
    ∀ x ∈ pkgTargets t o1 o2, Absolute x.made.rootDir := by
  obtain ⟨q⟩ := package_parts h
  obtain ⟨-, -, -, tr, -⟩ := C70_made q.tplMade
  obtain ⟨-, -, -, br, -⟩ := C70_made q.buildccMade
  have tdir := third_path hc.root (dir := b!"tiny-process-library") (by decide)
  have bdir := below hc.root (r := b!"buildcc") (by decide +kernel)
  exact both (by rw [tr]; exact tdir.2) (by rw [br, bdir.1]; exact bdir.2)

/-- Where the targets of the package are. -/
theorem package_placed {junk : Nat → TargetSchema} {p : Project} {env : TargetEnv}
    {list : Str → Option (List Str)} {tc : Toolchain} {t : Package}
    (h : buildBuildCC junk p env list tc = some t) (hc : Tree env.rootDir list tc) {p' : Project}
    (hp : p'.buildDir = env.buildDir) (hb : Absolute env.buildDir) (o1 o2 : List Str) :
    ∀ x ∈ pkgTargets t o1 o2, Placed p' x := by
  obtain ⟨q⟩ := package_parts h
  obtain ⟨tn, -, tt, -⟩ := C70_made q.tplMade
  obtain ⟨bn, -, bt, -⟩ := C70_made q.buildccMade
  refine both
    (.of (p' := p) (by rw [hp]; exact hb) ⟨_, _, _, _, _, by rw [hp]; exact q.tplMade⟩
      ⟨by rw [tn]; decide, by rw [tt]; exact hc.name⟩ (by rw [tt]; exact hc.exts))
    (.of (p' := p) (by rw [hp]; exact hb) ⟨_, _, _, _, _, by rw [hp]; exact q.buildccMade⟩
      ⟨by rw [bn]; decide, by rw [bt]; exact hc.name⟩ (by rw [bt]; exact hc.exts))

theorem tpl_file {root f : Str} (hr : Absolute root) (hf : PlainName f) :
    toPathString (append (append (third root b!"tiny-process-library") []) f) =
      third root b!"tiny-process-library" ++ b!"/" ++ f ∧
      toPathString (third root b!"tiny-process-library" ++ b!"/" ++ f) =
        third root b!"tiny-process-library" ++ b!"/" ++ f := by
  have tdir := third_path hr (dir := b!"tiny-process-library") (by decide)
  have := inDir_path tdir.2 (.inl rfl) hf (d := [])
  simp only [inDir, if_true] at this
  exact ⟨this.1, this.2.2.2.1⟩

/-- Its sources are given once and are below the root directories of the targets. -/
theorem package_sources {junk : Nat → TargetSchema} {p : Project} {env : TargetEnv}
    {list : Str → Option (List Str)} {tc : Toolchain} {t : Package}
    (h : buildBuildCC junk p env list tc = some t) (hc : Tree env.rootDir list tc) (o1 o2 : List Str) :
    ∀ x ∈ pkgTargets t o1 o2, (paths x.cfg.sources).Nodup ∧ ∀ q ∈ paths x.cfg.sources, ∃ r,
      q = x.made.rootDir ++ b!"/" ++ r ∧ Rel r ∧ toPathString q = q ∧ filename r ≠ [] ∧
        hasDotDot r = false ∧
        r ++ x.made.toolchain.config.objExt ≠ x.made.name ++ x.made.config.targetExt := by
  obtain ⟨q⟩ := package_parts h
  obtain ⟨⟨ts, th, tl⟩, ⟨bs, bh, bl⟩, rest⟩ := package_inputs h
  obtain ⟨tn, -, tt, tr, td, -⟩ := C70_made q.tplMade
  obtain ⟨bn, -, bt, br, bd, tcfg, -⟩ := C70_made q.buildccMade
  have bdir := below hc.root (r := b!"buildcc") (by decide +kernel)
  refine both ?_ ?_
  · have e1 := tpl_file hc.root (f := b!"process.cpp") (by decide)
    have e2 := tpl_file hc.root (f := b!"process_unix.cpp") (by decide)
    simp only [ts, e1.1, e2.1, tr, tn]
    refine ⟨?_, ?_⟩
    · simp
    · intro x hx
      simp only [List.mem_cons, List.not_mem_nil, or_false] at hx
      rcases hx with rfl | rfl
      · exact ⟨b!"process.cpp", rfl, by decide +kernel, e1.2, by decide, by decide, by simp⟩
      · exact ⟨b!"process_unix.cpp", rfl, by decide +kernel, e2.2, by decide, by decide, by simp⟩
  · have ha : Absolute (append env.rootDir b!"buildcc") := by rw [bdir.1]; exact bdir.2
    simp only [bs, br]
    refine ⟨nodup_filesOf hc.listing ha sourceDirs_rel sourceDirs_nodup, ?_⟩
    intro x hx
    obtain ⟨d, hd, f, hf, hdots, rfl⟩ := mem_filesOf hc.listing ha
      (fun d hd => .inr (sourceDirs_rel d hd)) hx
    have hrel := sourceDirs_rel d hd
    have := inDir_path ha (.inr hrel) hf
    have e : inDir d f = d ++ b!"/" ++ f := by rw [inDir, if_neg hrel.ne]
    refine ⟨inDir d f, rfl, ?_, this.2.2.2.1, ?_, ?_, ?_⟩
    · rw [e]; exact Rel.append hrel (Rel.name hf)
    · rw [e]; exact filename_last (Rel.name hf) d
    · rw [e, dots_append, sourceDirs_dots d hd, hdots]; rfl
    · intro ee
      have hno : slash ∉ t.buildcc.made.name ++ t.buildcc.made.config.targetExt := by
        rw [bn, tcfg]
        cases tc.id <;> decide
      have : slash ∈ t.buildcc.made.name ++ t.buildcc.made.config.targetExt := by
        rw [← ee, e]; simp
      exact hno this

/-- The files it is given are in the source tree. -/
theorem package_outside {junk : Nat → TargetSchema} {p : Project} {env : TargetEnv}
    {list : Str → Option (List Str)} {tc : Toolchain} {t : Package}
    (h : buildBuildCC junk p env list tc = some t) (hc : Tree env.rootDir list tc) (o1 o2 : List Str)
    {D : Str} (apart : ∀ d ∈ [b!"buildcc", b!"third_party"], ∀ s,
      ¬ Inside D (env.rootDir ++ b!"/" ++ d ++ b!"/" ++ s)) :
    ∀ x ∈ pkgTargets t o1 o2, ∀ q ∈ Reg.given x.cfg, ¬ Inside D q := by
  obtain ⟨⟨ts, th, tl⟩, ⟨bs, bh, bl⟩, rest⟩ := package_inputs h
  have tdir := third_path hc.root (dir := b!"tiny-process-library") (by decide)
  have bdir := below hc.root (r := b!"buildcc") (by decide +kernel)
  have otpl : ∀ f, ¬ Inside D (third env.rootDir b!"tiny-process-library" ++ b!"/" ++ f) := by
    intro f
    have := apart b!"third_party" (by simp) (b!"tiny-process-library" ++ b!"/" ++ f)
    rw [tdir.1]
    simpa using this
  have oth : ∀ x ∈ paths t.tpl.cfg.headers, ¬ Inside D x := by
    intro x hx
    rw [th, List.mem_singleton] at hx
    rw [hx, (tpl_file hc.root (by decide)).1]
    exact otpl _
  refine both ?_ ?_
  · intro x hx
    obtain ⟨r1, r2, r3⟩ := rest t.tpl.cfg (.inl rfl)
    simp only [Reg.given, r1, r2, r3, List.append_nil, List.mem_append] at hx
    rcases hx with hx | hx
    · simp only [ts, List.mem_cons, List.not_mem_nil, or_false] at hx
      rcases hx with rfl | rfl
      · rw [(tpl_file hc.root (by decide)).1]; exact otpl _
      · rw [(tpl_file hc.root (by decide)).1]; exact otpl _
    · exact oth x hx
  · intro x hx
    obtain ⟨r1, r2, r3⟩ := rest t.buildcc.cfg (.inr rfl)
    simp only [Reg.given, r1, r2, r3, List.append_nil, List.mem_append] at hx
    rcases hx with hx | hx
    · rw [bs] at hx
      obtain ⟨d, -, f, -, -, rfl⟩ := mem_filesOf hc.listing (by rw [bdir.1]; exact bdir.2)
        (fun d hd => .inr (sourceDirs_rel d hd)) hx
      rw [bdir.1]
      exact apart b!"buildcc" (by simp) _
    · rw [bh, List.mem_append, List.mem_append] at hx
      rcases hx with (hx | hx) | hx
      · obtain ⟨d, -, f, -, -, rfl⟩ := mem_filesOf hc.listing (by rw [bdir.1]; exact bdir.2)
          headerDirs_rel hx
        rw [bdir.1]
        exact apart b!"buildcc" (by simp) _
      · obtain ⟨y, hy, hx⟩ := List.mem_flatMap.1 hx
        have hy' := thirdParty_rel y hy
        have yd := third_path hc.root hy'.1
        obtain ⟨d, -, f, -, -, rfl⟩ := mem_filesOf hc.listing yd.2 (fun d hd => .inr (hy'.2 d hd)) hx
        rw [yd.1]
        have := apart b!"third_party" (by simp) (y.1 ++ b!"/" ++ inDir d f)
        simpa using this
      · exact oth x hx

/-- The libraries are not named like one of their objects. -/
theorem package_own {junk : Nat → TargetSchema} {p : Project} {env : TargetEnv}
    {list : Str → Option (List Str)} {tc : Toolchain} {t : Package}
    (h : buildBuildCC junk p env list tc = some t) (hc : Tree env.rootDir list tc)
    (hb : Absolute env.buildDir) (o1 o2 : List Str) : ∀ x ∈ pkgTargets t o1 o2, Reg.OwnName x := by
  intro x hx
  have pl := package_placed h hc (p' := ⟨p.init, env.rootDir, env.buildDir⟩) rfl hb o1 o2 x hx
  refine ownName pl (package_roots h hc o1 o2 x hx) ?_ ?_
  · intro q hq
    obtain ⟨r, h1, h2, -, h4, h5, h6⟩ := (package_sources h hc o1 o2 x hx).2 q hq
    exact ⟨r, h1, h2, h5, h4, h6⟩
  · revert x
    obtain ⟨q⟩ := package_parts h
    obtain ⟨tn, -⟩ := C70_made q.tplMade
    obtain ⟨bn, -⟩ := C70_made q.buildccMade
    intro x hx _
    revert x
    exact both (fun _ => by simp only [tn]; decide) (fun _ => by simp only [bn]; decide)

end Verif.Boot
