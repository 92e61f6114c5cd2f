import Verif.Boot.Package

/-! # Builds of the bootstrap script (C85) -/

namespace Verif.Boot
open Verif Verif.Schema Verif.Target Verif.Toolchain Verif.Path
open Verif.Reg (Absolute ScriptTarget PlainScript Placed Reaches)

/-- The targets of the script with the orders in which their objects are linked. -/
def targets (t : Targets) (o1 o2 o3 : List Str) : List ScriptTarget :=
  [⟨t.tpl.made, t.tpl.cfg, o1⟩, ⟨t.buildcc.made, t.buildcc.cfg, o2⟩,
   ⟨t.example_.made, t.example_.cfg, o3⟩]

/-- The dependencies the script declares. -/
def deps (t : Targets) : List (Str × Str) :=
  let id := fun f : Filled => targetId f.made.toolchain.name f.made.name
  [(id t.tpl, id t.buildcc), (id t.buildcc, id t.example_)]

/-- The script keeps to the rules of `PlainScript`. -/
theorem C85_plain {junk : Nat → TargetSchema} {p : Project} {list : Str → Option (List Str)}
    {tc : Toolchain} {t : Targets} (h : script junk p list tc = some t) (hc : Checkout p list tc)
    (o1 o2 o3 : List Str) : PlainScript p (targets t o1 o2 o3) (deps t) := by
  have q := script_parts h
  obtain ⟨q'⟩ := package_parts q.package
  obtain ⟨⟨ts, th, tl⟩, ⟨bs, bh, bl⟩, ⟨es, eh, el⟩, rest⟩ := C85_inputs h
  obtain ⟨en, -, et, er, ed, -⟩ := C70_made q.exampleMade
  have split : ∀ {P : ScriptTarget → Prop}, (∀ x ∈ pkgTargets ⟨t.tpl, t.buildcc⟩ o1 o2, P x) →
      P ⟨t.example_.made, t.example_.cfg, o3⟩ → ∀ x ∈ targets t o1 o2 o3, P x := by
    intro P h1 h3 x hx
    simp only [targets, List.mem_cons, List.not_mem_nil, or_false] at hx
    rcases hx with rfl | rfl | rfl
    · exact h1 _ (by simp [pkgTargets])
    · exact h1 _ (by simp [pkgTargets])
    · exact h3
  have edir := below hc.root (r := b!"example/hybrid/simple") (by decide +kernel)
  have efile : toPathString (append (append (append p.rootDir b!"example/hybrid/simple") [])
      b!"build.cpp") = append p.rootDir b!"example/hybrid/simple" ++ b!"/" ++ b!"build.cpp" ∧
      toPathString (append p.rootDir b!"example/hybrid/simple" ++ b!"/" ++ b!"build.cpp") =
        append p.rootDir b!"example/hybrid/simple" ++ b!"/" ++ b!"build.cpp" := by
    have := inDir_path (root := append p.rootDir b!"example/hybrid/simple") (by rw [edir.1]; exact edir.2)
      (.inl rfl) (d := []) (f := b!"build.cpp") (by decide)
    simp only [inDir, if_true] at this
    exact ⟨this.1, this.2.2.2.1⟩
  have apart : ∀ d ∈ [b!"buildcc", b!"third_party"], ∀ s,
      ¬ Inside p.buildDir (p.rootDir ++ b!"/" ++ d ++ b!"/" ++ s) := by
    intro d hd
    refine hc.apart d ?_
    simp only [List.mem_cons, List.not_mem_nil, or_false] at hd
    rcases hd with rfl | rfl <;> simp
  have pkgOut := package_outside q.package hc.toTree o1 o2 apart
  have places : ∀ x ∈ targets t o1 o2 o3, Placed p x := split
    (package_placed q.package hc.toTree rfl hc.build o1 o2)
    (.of hc.build ⟨_, _, _, _, _, q.exampleMade⟩ ⟨by rw [en]; decide, by rw [et]; exact hc.name⟩
      (by rw [et]; exact hc.exts))
  have outs : ∀ x ∈ targets t o1 o2 o3, toPathString x.output = x.output :=
    fun x hx => (places x hx).output.2.2.1
  have m1 : (⟨t.tpl.made, t.tpl.cfg, o1⟩ : ScriptTarget) ∈ targets t o1 o2 o3 := by simp [targets]
  have m2 : (⟨t.buildcc.made, t.buildcc.cfg, o2⟩ : ScriptTarget) ∈ targets t o1 o2 o3 := by
    simp [targets]
  refine ⟨hc.build, split (both ⟨_, _, _, _, _, q'.tplMade⟩ ⟨_, _, _, _, _, q'.buildccMade⟩)
    ⟨_, _, _, _, _, q.exampleMade⟩, fun x hx => ⟨(places x hx).name, (places x hx).tname⟩,
    fun x hx => ⟨(places x hx).obj, (places x hx).pch,
      (places x hx).pchc⟩, split ?_ ?_, split pkgOut ?_, split (both ?_ ?_) ?_⟩
  · intro x hx
    obtain ⟨h1, h2⟩ := package_sources q.package hc.toTree o1 o2 x hx
    refine ⟨h1, Reg.objects_below (package_roots q.package hc.toTree o1 o2 x hx)
      (package_placed q.package hc.toTree (p' := p) rfl hc.build o1 o2 x hx).obj fun y hy => ?_⟩
    obtain ⟨r, k1, -, k3, k4, k5, -⟩ := h2 y hy
    exact ⟨r, k1, k3, k4, k5⟩
  · -- sources of the example
    simp only [es, efile.1]
    refine ⟨by simp, ?_⟩
    intro x hx y hy _
    rw [List.mem_singleton] at hx hy
    rw [hx, hy]
  · intro x hx
    obtain ⟨r1, r2, r3⟩ := rest t.example_.cfg (.inr (.inr rfl))
    simp only [Reg.given, r1, r2, r3, List.append_nil, List.mem_append] at hx
    rcases hx with hx | hx
    · simp only [es, efile.1, List.mem_singleton] at hx
      rw [hx, edir.1]
      have := hc.apart b!"example" (by simp) b!"hybrid/simple/build.cpp"
      simpa using this
    · refine pkgOut ⟨t.buildcc.made, t.buildcc.cfg, o2⟩ (by simp [pkgTargets]) x ?_
      rw [eh] at hx
      simp [Reg.given, hx]
  · intro x hx
    simp [tl] at hx
  · intro x hx _
    simp only [bl, List.mem_singleton] at hx
    refine ⟨_, m1, hx.trans (outs _ m1), .edge (by simp [deps, ScriptTarget.id])⟩
  · intro x hx _
    simp only [el, List.mem_cons, List.not_mem_nil, or_false] at hx
    rcases hx with hx | hx
    · exact ⟨_, m2, hx.trans (outs _ m2), .edge (by simp [deps, ScriptTarget.id])⟩
    · exact ⟨_, m1, hx.trans (outs _ m1), .step (b := targetId t.buildcc.made.toolchain.name
        t.buildcc.made.name) (by simp [deps, ScriptTarget.id]) (.edge (by simp [deps, ScriptTarget.id]))⟩

/-- The calls of the script are accepted, when the toolchain is to be built.  `n` bounds the search
for cycles; three rounds are enough. -/
theorem registered (n : Nat) (clean test : Bool) {a b c : Str} (h1 : a ≠ b) (h2 : a ≠ c)
    (h3 : b ≠ c) : Reg.calls (n + 3) ⟨Reg.Graph.empty, []⟩ (bootCalls clean ⟨true, test⟩ a b c) =
      .ok ⟨⟨[a, b, c], [(a, b), (b, c)], []⟩,
        (if clean then [0] else []) ++ [1, 2, 3, 4, 5, 6, 7, 8]⟩ := by
  have n1 := Ne.symm h1
  have n2 := Ne.symm h2
  have n3 := Ne.symm h3
  cases clean <;>
    simp [bootCalls, packageCalls, Reg.calls, Reg.call, Reg.build, Reg.dep, Reg.Result.lift, Reg.Graph.empty,
      Reg.detectDuplicate, Reg.Graph.dependents, Reg.Graph.successors, Reg.search, *]

/-- C85: a script that is accepted and run again and again.  Files are edited and deleted,
between builds and during builds (but not at the moments named in `Delicate`), and state files are
dropped; builds fail, and are killed at any point.  Whenever `Reg::Run` returns with success and no
file was changed from outside since the process was started, `libtpl`, `libbuildcc` and the example are what a build from scratch would
leave, and the example is linked with the present versions of both libraries; nobody writes the
libraries by hand. -/
theorem C85_built {junk : Nat → TargetSchema} {p : Project} {list : Str → Option (List Str)}
    {tc : Toolchain} {t : Targets} (h : script junk p list tc = some t) (hc : Checkout p list tc)
    (o1 o2 o3 : List Str) {n : Nat} {clean test : Bool} {s : Reg.Script}
    (hreg : Reg.calls (n + 3) ⟨Reg.Graph.empty, []⟩ (bootCalls clean ⟨true, test⟩
      (targetId tc.name b!"libtpl") (targetId tc.name b!"libbuildcc")
      (targetId tc.name b!"buildcc_hybrid_simple_example")) = .ok s)
    {evs : List Reg.WEvent} {w : Reg.World}
    (hw : w = (Reg.World.init (Reg.kindsOf (targets t o1 o2 o3))).steps evs)
    (hal : Reg.AllOfScript s.graph (Reg.setupOf (targets t o1 o2 o3))
      (Reg.World.init (Reg.kindsOf (targets t o1 o2 o3))) evs)
    (ha : w.active = true) (hcalm : w.calm = true) (hres : (w.step .join).result = some true) :
    (∀ x ∈ [t.tpl, t.buildcc, t.example_], ∃ σ,
      (w.step .join).comps (targetId tc.name x.made.name) = .target x.made.fixed σ ∧
        Clean x.made.fixed σ x.cfg) ∧
    ∀ x ∈ [t.tpl, t.buildcc],
      (∀ e ∈ evs, (∀ v, e ≠ .edit (outputPath x.made.fixed) v) ∧
        e ≠ .delete (outputPath x.made.fixed)) →
      Reg.LinkedWith (w.step .join) (targetId tc.name x.made.name)
        (targetId tc.name b!"buildcc_hybrid_simple_example") (outputPath x.made.fixed) := by
  have q := script_parts h
  obtain ⟨q'⟩ := package_parts q.package
  obtain ⟨⟨ts, -, -⟩, ⟨bs, -, -⟩, ⟨-, -, el⟩, -⟩ := C85_inputs h
  obtain ⟨tn, -, tt, tr, -⟩ := C70_made q'.tplMade
  obtain ⟨bn, -, bt, br, -⟩ := C70_made q'.buildccMade
  obtain ⟨en, -, et, er, -⟩ := C70_made q.exampleMade
  simp only at tn tt tr bn bt br
  have hne : ∀ a b : Str, a ≠ b → targetId tc.name a ≠ targetId tc.name b := by
    intro a b hab e
    exact hab (List.append_cancel_left e)
  rw [registered n clean test (hne _ _ (by decide)) (hne _ _ (by decide)) (hne _ _ (by decide))] at hreg
  obtain rfl : _ = s := Reg.Outcome.ok.inj hreg
  have hp := C85_plain h hc o1 o2 o3
  have hdeps : deps t = [(targetId tc.name b!"libtpl", targetId tc.name b!"libbuildcc"),
      (targetId tc.name b!"libbuildcc", targetId tc.name b!"buildcc_hybrid_simple_example")] := by
    simp [deps, tn, tt, bn, bt, en, et]
  have m1 : (⟨t.tpl.made, t.tpl.cfg, o1⟩ : ScriptTarget) ∈ targets t o1 o2 o3 := by simp [targets]
  have m2 : (⟨t.buildcc.made, t.buildcc.cfg, o2⟩ : ScriptTarget) ∈ targets t o1 o2 o3 := by
    simp [targets]
  have m3 : (⟨t.example_.made, t.example_.cfg, o3⟩ : ScriptTarget) ∈ targets t o1 o2 o3 := by
    simp [targets]
  have key := Reg.C84_project (p := p) (ts := targets t o1 o2 o3) (n := n + 3)
    (registered n clean test (hne _ _ (by decide)) (hne _ _ (by decide)) (hne _ _ (by decide)))
    (by
      intro c hcm
      simp only [bootCalls, packageCalls, List.cons_append, List.nil_append, List.mem_cons,
        List.not_mem_nil, or_false] at hcm
      rcases hcm with rfl | rfl | rfl | rfl | rfl | rfl | rfl | rfl | rfl | rfl | rfl | rfl | rfl |
        rfl <;>
        simp [Reg.Call.selfDep, hne])
    (by simp [targets, ScriptTarget.id, tn, tt, bn, bt, en, et]) (hdeps ▸ hp) hw hal ha hcalm hres
  have hout := fun x hx => (hp.placed (t := x) hx).output.2.2.1
  have e3 : (⟨t.example_.made, t.example_.cfg, o3⟩ : ScriptTarget).id =
      targetId tc.name b!"buildcc_hybrid_simple_example" := by simp [ScriptTarget.id, en, et]
  have e1 : (⟨t.tpl.made, t.tpl.cfg, o1⟩ : ScriptTarget).id = targetId tc.name t.tpl.made.name := by
    simp [ScriptTarget.id, tt]
  have e2 : (⟨t.buildcc.made, t.buildcc.cfg, o2⟩ : ScriptTarget).id =
      targetId tc.name t.buildcc.made.name := by simp [ScriptTarget.id, bt]
  refine ⟨?_, ?_⟩
  · intro x hx
    simp only [List.mem_cons, List.not_mem_nil, or_false] at hx
    rcases hx with rfl | rfl | rfl
    · have := key.1 _ m1; rw [e1] at this; exact this
    · have := key.1 _ m2; rw [e2] at this; exact this
    · have := key.1 _ m3; rw [e3] at this; rw [en]; exact this
  · intro x hx hand
    simp only [List.mem_cons, List.not_mem_nil, or_false] at hx
    rcases hx with rfl | rfl
    · have := key.2 _ m1 _ m3 (by
        show outputPath t.tpl.made.fixed ∈ paths t.example_.cfg.libs
        rw [el]
        have := hout _ m1
        exact List.mem_cons_of_mem _ (List.mem_singleton.2 this.symm))
        (package_own q.package hc.toTree hc.build o1 o2 _ (by simp [pkgTargets])) hand
      rw [e1, e3] at this; exact this
    · have := key.2 _ m2 _ m3 (by
        show outputPath t.buildcc.made.fixed ∈ paths t.example_.cfg.libs
        rw [el]
        have := hout _ m2
        exact List.mem_cons.2 (.inl this.symm))
        (package_own q.package hc.toTree hc.build o1 o2 _ (by simp [pkgTargets])) hand
      rw [e2, e3] at this; exact this

end Verif.Boot
