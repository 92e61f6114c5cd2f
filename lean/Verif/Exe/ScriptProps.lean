import Verif.Exe.Script

/-! # Builds of `buildexe` in script mode (C86) -/

namespace Verif.Exe
open Verif Verif.Schema Verif.Target Verif.Toolchain Verif.Path
open Verif.Reg (Absolute ScriptTarget Placed Reaches)

theorem filename_append (d f : Str) (hf : slash ∉ f) : filename (Path.append d f) = f := by
  rcases append_file d f hf with ⟨h, hd⟩ | h
  · rw [h]; exact filename_unique _ _ hf hd
  · rw [h]; exact filename_unique _ _ hf (.inr ⟨d, rfl⟩)

/-- The last extension of a name. -/
theorem last_ext {x n y m : Str} (hn : c!"." ∉ n) (hm : c!"." ∉ m)
    (h : x ++ c!"." :: n = y ++ c!"." :: m) : n = m := by
  have key : ∀ z k : Str, c!"." ∉ k → (z ++ c!"." :: k).reverse.takeWhile (· != c!".") = k.reverse := by
    intro z k hk
    rw [List.reverse_append, List.reverse_cons, List.append_assoc,
      List.takeWhile_append_of_pos (by
        intro b hb
        simp only [List.mem_reverse] at hb
        simp only [bne_iff_ne, ne_eq]
        rintro rfl
        exact hk hb)]
    simp
  have h1 := key x n hn
  rw [h, key y m hm] at h1
  simpa using h1.symm

theorem shipped_ext {fx : Fixed} (h : Shipped fx) : fx.tcfg.targetExt ≠ b!".h" := by
  simp only [Shipped, List.mem_cons, List.not_mem_nil, or_false] at h
  rcases h with h | h | h | h | h | h | h | h | h | h <;> rw [h] <;> decide

/-- The generated header is none of the files that the target writes. -/
theorem header_apart {p : Project} {x : ScriptTarget} (h : Placed p x)
    (hn : x.made.name ≠ b!"buildexe_lib_dirs.h") (ho : x.made.toolchain.config.objExt ≠ b!".h") :
    toPathString (Path.append x.made.buildDir b!"buildexe_lib_dirs.h") ∉
      Reg.outputs (.target x.made.fixed Sys.init) (.target x.cfg x.order) := by
  have hd := h.abs.1.append (f := b!"buildexe_lib_dirs.h") (by decide)
  have e : b!"buildexe_lib_dirs.h" = b!"buildexe_lib_dirs" ++ c!"." :: b!"h" := rfl
  rw [hd.2.2.1]
  intro hq
  simp only [Reg.outputs, List.mem_append, List.mem_map] at hq
  rcases hq with (hq | ⟨q, -, hq⟩) | hq
  · obtain ⟨x, hx, -⟩ := h.pchFiles hq
    rw [hd.1] at hx
    have := List.append_cancel_left hx
    simp at this
  · have h1 := congrArg filename hq
    have hs : slash ∉ filename q ++ x.made.toolchain.config.objExt := by
      simp only [List.mem_append, not_or]
      exact ⟨filename_noSlash _, Reg.PlainExt.noSlash h.obj⟩
    have h2 : filename (objPath x.made.fixed q) = filename q ++ x.made.toolchain.config.objExt := by
      show filename (objectPath _ _ _ _) = _
      rw [objectPath, replaceFilename]
      exact filename_append _ _ hs
    rw [h2, filename_append _ _ (by decide), e] at h1
    obtain ⟨n, hn, -, hd', -⟩ := h.obj
    rw [hn] at h1 ho
    exact ho (by rw [last_ext hd' (by decide) h1])
  · have hout : outputPath x.made.fixed = x.made.buildDir ++ b!"/" ++
        (x.made.name ++ x.made.config.targetExt) := h.output.1
    simp only [Reg.linkFiles, List.mem_cons, List.not_mem_nil, or_false, hout, hd.1] at hq
    rcases hq with hq | hq | hq
    · have h1 := List.append_cancel_left hq
      rcases h.ext with h2 | h2
      · rw [h2, List.append_nil] at h1
        exact hn h1.symm
      · obtain ⟨n, hx, -, hd', -⟩ := h2
        rw [hx, e] at h1
        have := last_ext (by decide) hd' h1
        refine shipped_ext h.shipped ?_
        show x.made.config.targetExt = _
        rw [hx, ← this]
    · rw [List.append_assoc (x.made.buildDir ++ b!"/")] at hq
      have h1 := List.append_cancel_left hq
      rw [e] at h1
      have := last_ext (m := b!"a") (by decide) (by decide) h1
      exact absurd this (by decide)
    · rw [List.append_assoc (x.made.buildDir ++ b!"/")] at hq
      have h1 := List.append_cancel_left hq
      rw [e] at h1
      have := last_ext (m := b!"dll") (by decide) (by decide) h1
      exact absurd this (by decide)

/-- The calls are accepted only for three different targets. -/
theorem script_registered {n : Nat} {clean : Bool} {a b c : Str} {s : Reg.Script}
    (h : Reg.calls (n + 3) ⟨Reg.Graph.empty, []⟩ (scriptCalls clean a b c) = .ok s) :
    (a ≠ b ∧ a ≠ c ∧ b ≠ c) ∧ s.graph = ⟨[a, b, c], [(a, b), (b, c)], []⟩ := by
  by_cases h1 : b = a
  · subst h1
    cases clean <;>
    simp [scriptCalls, Boot.packageCalls, Reg.calls, Reg.call, Reg.build, Reg.Result.lift,
      Reg.Graph.empty] at h
  · by_cases h2 : c = a
    · subst h2
      cases clean <;>
      simp [scriptCalls, Boot.packageCalls, Reg.calls, Reg.call, Reg.build, Reg.dep, Reg.Result.lift,
        Reg.Graph.empty, Reg.detectDuplicate, Reg.Graph.dependents, Reg.Graph.successors, Reg.search,
        h1, Ne.symm h1] at h
    · by_cases h3 : c = b
      · subst h3
        cases clean <;>
        simp [scriptCalls, Boot.packageCalls, Reg.calls, Reg.call, Reg.build, Reg.dep, Reg.Result.lift,
          Reg.Graph.empty, Reg.detectDuplicate, Reg.Graph.dependents, Reg.Graph.successors, Reg.search,
          h1, Ne.symm h1] at h
      · have n1 := Ne.symm h1
        have n2 := Ne.symm h2
        have n3 := Ne.symm h3
        refine ⟨⟨n1, n2, n3⟩, ?_⟩
        cases clean <;>
        simp [scriptCalls, Boot.packageCalls, Reg.calls, Reg.call, Reg.build, Reg.dep, Reg.Result.lift,
          Reg.Graph.empty, Reg.detectDuplicate, Reg.Graph.dependents, Reg.Graph.successors, Reg.search,
          *] at h <;> rw [← h]

theorem inside_below {d q : Str} (hd : Absolute d) (h : Inside d q) : ∃ t, q = d ++ b!"/" ++ t := by
  obtain ⟨t, h | ⟨h, -⟩, -⟩ := h
  · exact ⟨t, by simpa using h⟩
  · exact absurd h hd.last

/-- What a target reads. -/
theorem mem_inputs {c : TargetSchema} {o : List Str} {q : Str} (h : q ∈ (Reg.Setup.target c o).inputs) :
    q ∈ Reg.given c ∨ q ∈ paths c.libs := by
  simp only [Reg.Setup.inputs, Reg.given, List.mem_append] at h ⊢
  rcases h with ((((h | h) | h) | h) | h) | h <;> simp [h]

theorem shippedAll {ts : List ScriptTarget} (h : ∀ t ∈ ts, Shipped t.made.fixed) :
    Reg.ShippedAll (Reg.kindsOf ts) := by
  intro j fx hj
  rw [Reg.kindsOf] at hj
  split at hj
  · rename_i d hd
    have := h d (List.mem_of_find?_eq_some hd)
    simp only [Reg.Kind.target.injEq] at hj
    exact hj ▸ this
  · simp at hj

/-- What is known of the three targets. -/
structure Facts (p : Project) (home : Home) (s : Script) (o1 o2 o3 : List Str) : Prop where
  abs : Absolute (homeBuild home)
  pkg : ∀ x ∈ Boot.pkgTargets s.pkg o1 o2, Placed ⟨p.init, home.base, homeBuild home⟩ x
  user : Placed p ⟨s.made, s.cfg, o3⟩
  apart : ∀ q, Inside (homeBuild home) q → ¬ Inside p.buildDir q
  pkgHome : ∀ x ∈ Boot.pkgTargets s.pkg o1 o2, ∀ q ∈ Reg.given x.cfg, ¬ Inside (homeBuild home) q
  pkgBuild : ∀ x ∈ Boot.pkgTargets s.pkg o1 o2, ∀ q ∈ Reg.given x.cfg, ¬ Inside p.buildDir q
  own : ∀ x ∈ Boot.pkgTargets s.pkg o1 o2, Reg.OwnName x
  userHome : ∀ q ∈ Reg.given s.cfg, ¬ Inside (homeBuild home) q
  userOwn : ∀ q ∈ Reg.given s.cfg,
    q ∉ Reg.outputs (.target s.made.fixed Sys.init) (.target s.cfg o3)

theorem facts {junk : Nat → TargetSchema} {p : Project} {home : Home}
    {list : Str → Option (List Str)} {tc : Toolchain} {a : ExeArgs} {s : Script}
    (h : scriptSetup junk p home list tc a = some s) (mode : a.mode = .script)
    (hw : Workspace p home list tc a) (o1 o2 o3 : List Str) : Facts p home s o1 o2 o3 := by
  obtain ⟨hp, hs⟩ := scriptSetup_some h
  obtain ⟨un, -, ut, ur, ub, -, -⟩ := C78_target hs
  obtain ⟨us, ⟨names, hl, uh⟩, ul, u1, u2, u3⟩ := program_inputs h mode
  have hE := hw.tree.root.append (f := b!"_build_exe") (by decide)
  have apart : ∀ q, Inside (homeBuild home) q → ¬ Inside p.buildDir q := by
    intro q hq
    obtain ⟨t, rfl⟩ := inside_below hE.2 hq
    rw [hE.1]
    exact hw.apart _ (by simp) t
  have pkgHome := Boot.package_outside hp hw.tree o1 o2 (D := homeBuild home) (by
    intro d hd t hin
    obtain ⟨u, hu⟩ := inside_below hE.2 hin
    rw [homeBuild, hE.1] at hu
    simp only [List.append_assoc] at hu
    have := List.append_cancel_left (List.append_cancel_left hu)
    simp only [List.mem_cons, List.not_mem_nil, or_false] at hd
    rcases hd with rfl | rfl <;> simp at this)
  have pkgBuild := Boot.package_outside hp hw.tree o1 o2 (D := p.buildDir) (by
    intro d hd
    refine hw.apart d ?_
    simp only [List.mem_cons, List.not_mem_nil, or_false] at hd
    rcases hd with rfl | rfl <;> simp)
  have user : Placed p ⟨s.made, s.cfg, o3⟩ :=
    .of hw.build ⟨_, _, _, _, _, (setup_some hs).1⟩ ⟨by rw [un]; exact hw.name.1, by
      rw [ut]; exact hw.tree.name⟩ (by rw [ut]; exact hw.tree.exts)
  have split : ∀ q ∈ Reg.given s.cfg,
      q ∈ programSources (Path.append p.rootDir a.relativeToRoot) tc a ++ programHeaders tc a ∨
      q ∈ Reg.given s.pkg.buildcc.cfg ∨
      q = toPathString (Path.append s.made.buildDir b!"buildexe_lib_dirs.h") := by
    intro q hq
    simp only [Reg.given, u1, u2, u3, us, uh, List.append_nil, List.mem_append] at hq
    rcases hq with hq | (hq | hq) | hq
    · exact .inl (List.mem_append_left _ hq)
    · exact .inr (.inl (by simp [Reg.given, hq]))
    · obtain ⟨f, hf, rfl⟩ := List.mem_map.1 hq
      obtain ⟨hf, hh⟩ := List.mem_filter.1 hf
      obtain ⟨g, hg, rfl⟩ := List.mem_map.1 hf
      rw [hw.generated names hl g hg (of_decide_eq_true hh), ub]
      exact .inr (.inr rfl)
    · exact .inl (List.mem_append_right _ hq)
  have hfile := user.abs.1.append (f := b!"buildexe_lib_dirs.h") (by decide)
  have hin : Inside p.buildDir (toPathString (Path.append s.made.buildDir b!"buildexe_lib_dirs.h")) := by
    rw [hfile.2.2.1, hfile.1]
    exact Reg.inside_trans user.abs.1.last user.abs.2 (Reg.inside_name (by decide) (by decide))
  refine ⟨hE.2, Boot.package_placed hp hw.tree rfl hE.2 o1 o2, user, apart, pkgHome, pkgBuild,
    Boot.package_own hp hw.tree hE.2 o1 o2, ?_, ?_⟩
  · intro q hq
    rcases split q hq with hq | hq | rfl
    · exact (hw.files q hq).2
    · exact pkgHome ⟨s.pkg.buildcc.made, s.pkg.buildcc.cfg, o2⟩ (by simp [Boot.pkgTargets]) q hq
    · exact fun hc => apart _ hc hin
  · intro q hq ho
    have hb : Inside p.buildDir q := Reg.inside_trans user.abs.1.last user.abs.2 (user.outputs ho)
    rcases split q hq with hq | hq | rfl
    · exact (hw.files q hq).1 hb
    · exact pkgBuild ⟨s.pkg.buildcc.made, s.pkg.buildcc.cfg, o2⟩ (by simp [Boot.pkgTargets]) q hq hb
    · exact header_apart user (by rw [un]; exact hw.name.2) (by rw [ut]; exact hw.obj) ho

/-- C86: `buildexe` in script mode, run again and again with one command line.  Files are
edited and deleted, between runs (the generated header is written before each build) and during
builds (but not at the moments named in `Delicate`), and state files are dropped; builds fail, and
are killed at any point.  Whenever `Reg::Run` returns with success and no file was changed from
outside since the build was started, `libtpl`,
`libbuildcc` and the program are what a build from scratch would leave, and the program is linked
with the present versions of both libraries; nobody writes the libraries by hand. -/
theorem C86_script {junk : Nat → TargetSchema} {p : Project} {home : Home}
    {list : Str → Option (List Str)} {tc : Toolchain} {a : ExeArgs} {s : Script}
    (h : scriptSetup junk p home list tc a = some s) (mode : a.mode = .script)
    (hws : Workspace p home list tc a) (o1 o2 o3 : List Str) {n : Nat} {clean : Bool} {r : Reg.Script}
    (hreg : Reg.calls (n + 3) ⟨Reg.Graph.empty, []⟩ (scriptCalls clean
      (targetId tc.name b!"libtpl") (targetId tc.name b!"libbuildcc") (targetId tc.name a.name)) = .ok r)
    {evs : List Reg.WEvent} {w : Reg.World}
    (hw : w = (Reg.World.init (Reg.kindsOf (s.targets o1 o2 o3))).steps evs)
    (hal : Reg.AllOfScript r.graph (Reg.setupOf (s.targets o1 o2 o3))
      (Reg.World.init (Reg.kindsOf (s.targets o1 o2 o3))) evs)
    (ha : w.active = true) (hcalm : w.calm = true) (hres : (w.step .join).result = some true) :
    (∀ x ∈ [s.pkg.tpl, s.pkg.buildcc, ⟨s.made, s.cfg⟩], ∃ σ,
      (w.step .join).comps (targetId tc.name x.made.name) = .target x.made.fixed σ ∧
        Clean x.made.fixed σ x.cfg) ∧
    ∀ x ∈ [s.pkg.tpl, s.pkg.buildcc],
      (∀ e ∈ evs, (∀ v, e ≠ .edit (outputPath x.made.fixed) v) ∧
        e ≠ .delete (outputPath x.made.fixed)) →
      Reg.LinkedWith (w.step .join) (targetId tc.name x.made.name) (targetId tc.name a.name)
        (outputPath x.made.fixed) := by
  obtain ⟨hp, hs⟩ := scriptSetup_some h
  obtain ⟨q⟩ := Boot.package_parts hp
  obtain ⟨⟨-, -, tl⟩, ⟨-, -, bl⟩, -⟩ := Boot.package_inputs hp
  obtain ⟨tn, -, tt, -⟩ := C70_made q.tplMade
  obtain ⟨bn, -, bt, -⟩ := C70_made q.buildccMade
  obtain ⟨un, -, ut, ur, ub, -, -⟩ := C78_target hs
  obtain ⟨us, -, ul, -⟩ := program_inputs h mode
  have f := facts h mode hws o1 o2 o3
  obtain ⟨⟨n1, n2, n3⟩, hg⟩ := script_registered hreg
  have hv := Reg.C37_valid _ _ _ hreg
  have hac := Reg.C37_acyclic_partial _ _ _ hreg (by
    intro c hcm
    simp only [scriptCalls, Boot.packageCalls, List.cons_append, List.nil_append, List.mem_cons,
      List.not_mem_nil, or_false] at hcm
    rcases hcm with rfl | rfl | rfl | rfl | rfl | rfl | rfl | rfl | rfl | rfl | rfl | rfl | rfl <;>
      simp [Reg.Call.selfDep, Ne.symm n1, Ne.symm n3])
  let T1 : ScriptTarget := ⟨s.pkg.tpl.made, s.pkg.tpl.cfg, o1⟩
  let T2 : ScriptTarget := ⟨s.pkg.buildcc.made, s.pkg.buildcc.cfg, o2⟩
  let T3 : ScriptTarget := ⟨s.made, s.cfg, o3⟩
  have e1 : T1.id = targetId tc.name b!"libtpl" := by simp [T1, ScriptTarget.id, tn, tt]
  have e2 : T2.id = targetId tc.name b!"libbuildcc" := by simp [T2, ScriptTarget.id, bn, bt]
  have e3 : T3.id = targetId tc.name a.name := by simp [T3, ScriptTarget.id, un, ut]
  have hts : s.targets o1 o2 o3 = [T1, T2, T3] := rfl
  have k1 : T1 ∈ Boot.pkgTargets s.pkg o1 o2 := by simp [Boot.pkgTargets, T1]
  have k2 : T2 ∈ Boot.pkgTargets s.pkg o1 o2 := by simp [Boot.pkgTargets, T2]
  have hids : r.graph.ids = (s.targets o1 o2 o3).map ScriptTarget.id := by
    rw [hts, hg]; simp only [List.map_cons, List.map_nil, e1, e2, e3]
  have hedges : r.graph.edges = [(T1.id, T2.id), (T2.id, T3.id)] := by rw [hg, e1, e2, e3]
  have hn : ((s.targets o1 o2 o3).map ScriptTarget.id).Nodup := hids ▸ hv.ids
  have hout : ∀ x ∈ Boot.pkgTargets s.pkg o1 o2, ∀ q,
      q ∈ Reg.outputs (.target x.made.fixed Sys.init) (.target x.cfg x.order) →
        Inside x.made.buildDir q ∧ Inside (homeBuild home) q := by
    intro x hx q hq
    have := (f.pkg x hx).outputs hq
    exact ⟨this, Reg.inside_trans (f.pkg x hx).abs.1.last (f.pkg x hx).abs.2 this⟩
  have hout3 : ∀ q, q ∈ Reg.outputs (.target T3.made.fixed Sys.init) (.target T3.cfg T3.order) →
      Inside p.buildDir q := by
    intro q hq
    exact Reg.inside_trans f.user.abs.1.last f.user.abs.2 (f.user.outputs hq)
  have norm : ∀ x ∈ Boot.pkgTargets s.pkg o1 o2, toPathString x.output = x.output ∧
      Inside x.made.buildDir x.output ∧ Inside (homeBuild home) x.output := by
    intro x hx
    have px := f.pkg x hx
    have hi : Inside x.made.buildDir x.output := by
      rw [px.output.1]
      have := Reg.plain_ext px.name px.ext
      exact Reg.inside_name this.2.2.1 this.2.2.2
    exact ⟨px.output.2.2.1, hi, Reg.inside_trans px.abs.1.last px.abs.2 hi⟩
  have l1 : paths T1.cfg.libs = [] := tl
  have l2 : paths T2.cfg.libs = [T1.output] := bl.trans (by rw [← (norm T1 k1).1]; rfl)
  have l3 : paths T3.cfg.libs = [T2.output, T1.output] :=
    ul.trans (by rw [← (norm T1 k1).1, ← (norm T2 k2).1]; rfl)
  have r12 : Reaches r.graph.edges T1.id T2.id := .edge (by rw [hedges]; simp)
  have r23 : Reaches r.graph.edges T2.id T3.id := .edge (by rw [hedges]; simp)
  have r13 : Reaches r.graph.edges T1.id T3.id := .step (b := T2.id) (by rw [hedges]; simp) r23
  have mem : ∀ x, x ∈ s.targets o1 o2 o3 ↔ x = T1 ∨ x = T2 ∨ x = T3 := by
    intro x; rw [hts]; simp
  have m1 : T1 ∈ s.targets o1 o2 o3 := (mem _).2 (.inl rfl)
  have m2 : T2 ∈ s.targets o1 o2 o3 := (mem _).2 (.inr (.inl rfl))
  have m3 : T3 ∈ s.targets o1 o2 o3 := (mem _).2 (.inr (.inr rfl))
  have sound : Reg.SoundScript (Reg.kindsOf (s.targets o1 o2 o3)) r.graph
      (Reg.setupOf (s.targets o1 o2 o3)) := by
    have hi : ∀ j ∈ r.graph.ids, ∃ t ∈ s.targets o1 o2 o3, t.id = j := by
      intro j hj
      rw [hids, List.mem_map] at hj
      exact hj
    refine ⟨shippedAll ?_, hv, hac, ?_, ?_⟩
    · intro t ht
      rcases (mem t).1 ht with rfl | rfl | rfl
      · exact (f.pkg _ k1).shipped
      · exact (f.pkg _ k2).shipped
      · exact f.user.shipped
    · intro x hx y hy q hq hq'
      obtain ⟨tx, htx, rfl⟩ := hi x hx
      obtain ⟨ty, hty, rfl⟩ := hi y hy
      obtain ⟨kx, sx⟩ := Reg.kindsOf_eq hn htx
      obtain ⟨-, sy⟩ := Reg.kindsOf_eq hn hty
      rw [kx, sx] at hq
      rw [sy] at hq'
      have hq' := mem_inputs hq'
      have pk : ∀ z ∈ Boot.pkgTargets s.pkg o1 o2, z = tx → (q ∈ paths ty.cfg.libs) := by
        rintro z hz rfl
        have ho := (hout z hz q hq).2
        rcases hq' with hq' | hq'
        · exfalso
          rcases (mem ty).1 hty with rfl | rfl | rfl
          · exact f.pkgHome _ k1 q hq' ho
          · exact f.pkgHome _ k2 q hq' ho
          · exact f.userHome q hq' ho
        · exact hq'
      rcases (mem tx).1 htx with rfl | rfl | rfl
      · have hlib := pk _ k1 rfl
        rcases (mem ty).1 hty with rfl | rfl | rfl
        · rw [l1] at hlib; simp at hlib
        · exact r12
        · exact r13
      · have hlib := pk _ k2 rfl
        have hne : q ≠ T1.output := by
          rintro rfl
          have := (f.pkg _ k2).same (f.pkg _ k1) (hout _ k2 _ hq).1 (norm _ k1).2.1
          rw [e1, e2] at this
          exact n1 this.symm
        rcases (mem ty).1 hty with rfl | rfl | rfl
        · rw [l1] at hlib; simp at hlib
        · rw [l2, List.mem_singleton] at hlib; exact absurd hlib hne
        · exact r23
      · have hb := hout3 q hq
        exfalso
        have nolib : q ∉ paths ty.cfg.libs := by
          intro hm
          have : Inside (homeBuild home) q := by
            rcases (mem ty).1 hty with rfl | rfl | rfl
            · rw [l1] at hm; simp at hm
            · rw [l2, List.mem_singleton] at hm; rw [hm]; exact (norm _ k1).2.2
            · rw [l3] at hm
              simp only [List.mem_cons, List.not_mem_nil, or_false] at hm
              rcases hm with hm | hm <;> rw [hm]
              · exact (norm _ k2).2.2
              · exact (norm _ k1).2.2
          exact f.apart q this hb
        have hq' := hq'.resolve_right nolib
        rcases (mem ty).1 hty with rfl | rfl | rfl
        · exact f.pkgBuild _ k1 q hq' hb
        · exact f.pkgBuild _ k2 q hq' hb
        · exact f.userOwn q hq' hq
    · intro j hj
      obtain ⟨t, ht, rfl⟩ := hi j hj
      obtain ⟨k, st⟩ := Reg.kindsOf_eq hn ht
      rw [k, st]
      have pkgFits : ∀ x ∈ Boot.pkgTargets s.pkg o1 o2,
          Reg.Fits (.target x.made.fixed) (.target x.cfg x.order) := by
        intro x hx
        obtain ⟨h1, h2⟩ := Boot.package_sources hp hws.tree o1 o2 x hx
        have pt := f.pkg x hx
        refine ⟨h1, Reg.objects_below (Boot.package_roots hp hws.tree o1 o2 x hx) pt.obj
          fun y hy => ?_⟩
        obtain ⟨r, k1, -, k3, k4, k5, -⟩ := h2 y hy
        exact ⟨r, k1, k3, k4, k5⟩
      rcases (mem t).1 ht with rfl | rfl | rfl
      · exact pkgFits _ k1
      · exact pkgFits _ k2
      · refine ⟨by show (paths s.cfg.sources).Nodup; rw [us]; exact hws.once, ?_⟩
        show ∀ y ∈ paths s.cfg.sources, ∀ z ∈ paths s.cfg.sources, objPath s.made.fixed y =
          objPath s.made.fixed z → y = z
        rw [us]
        intro y hy z hz hyz
        refine hws.objects y hy z hz ?_
        have hyz' : objectPath s.made.rootDir s.made.buildDir s.made.toolchain.config.objExt y =
          objectPath s.made.rootDir s.made.buildDir s.made.toolchain.config.objExt z := hyz
        rw [ur, ub, ut] at hyz'
        exact hyz'
  have key := sound.built hids hw hal ha hcalm hres
  have g1 : T1.id = targetId tc.name s.pkg.tpl.made.name := by rw [tn]; exact e1
  have g2 : T2.id = targetId tc.name s.pkg.buildcc.made.name := by rw [bn]; exact e2
  have other : ∀ x ∈ Boot.pkgTargets s.pkg o1 o2, ∀ t ∈ s.targets o1 o2 o3, t.id ≠ x.id →
      x.output ∉ Reg.outputs (.target t.made.fixed Sys.init) (.target t.cfg t.order) := by
    intro x hx t ht hne hq
    rcases (mem t).1 ht with rfl | rfl | rfl
    · exact hne ((f.pkg _ k1).same (f.pkg x hx) (hout _ k1 _ hq).1 (norm x hx).2.1)
    · exact hne ((f.pkg _ k2).same (f.pkg x hx) (hout _ k2 _ hq).1 (norm x hx).2.1)
    · exact f.apart _ (norm x hx).2.2 (hout3 _ hq)
  refine ⟨?_, ?_⟩
  · intro x hx
    simp only [List.mem_cons, List.not_mem_nil, or_false] at hx
    rcases hx with rfl | rfl | rfl
    · have := key.1 _ m1; rw [g1] at this; exact this
    · have := key.1 _ m2; rw [g2] at this; exact this
    · have := key.1 _ m3; rw [e3] at this; rw [un]; exact this
  · intro x hx hand
    simp only [List.mem_cons, List.not_mem_nil, or_false] at hx
    rcases hx with rfl | rfl
    · have := key.2 _ m1 _ m3 (by rw [l3]; simp) (f.own _ k1) (other _ k1) hand
      rw [g1, e3] at this; exact this
    · have := key.2 _ m2 _ m3 (by rw [l3]; simp) (f.own _ k2) (other _ k2) hand
      rw [g2, e3] at this; exact this

/-- C86: the program that `buildexe` runs at the end is the one of `C86_script`. -/
theorem C86_ran {junk : Nat → TargetSchema} {w : World} {p : Project} {home : Home} {clean : Bool}
    {tc : Toolchain} {a : ExeArgs} {s : Script} {command : Str}
    (h : scriptSetup junk p home w.list tc a = some s) (htc : w.toolchain = some tc)
    (hran : ExeDid.ran command ∈ (exeMain junk w p clean a
      ⟨outputPath s.pkg.buildcc.made.fixed, s.pkg.buildcc.cfg⟩).1) :
    w.buildOk = true ∧ ∃ args, command = spaced (displayString (outputPath s.made.fixed) :: args) := by
  have hs := (scriptSetup_some h).2
  rcases C79_run_partial junk w p clean a ⟨outputPath s.pkg.buildcc.made.fixed, s.pkg.buildcc.cfg⟩ with
    ⟨-, hb, -, tc', m, u, ht, hm, hd⟩ | ⟨-, hr, -⟩
  · rw [htc] at ht
    cases ht
    rw [hs] at hm
    cases hm
    refine ⟨hb, ?_⟩
    rw [hd] at hran
    cases hmode : a.mode <;> cases clean <;> simp [hmode] at hran <;> exact ⟨_, hran⟩
  · exact absurd hran (hr _)

end Verif.Exe
