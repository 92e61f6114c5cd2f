import Verif.Sample.MixedText

/-! # Builds of scripts with generators given by their text (C108) -/

namespace Verif.Sample
open Verif Verif.Schema Verif.Target Verif.Toolchain Verif.Path
open Verif.Reg (Reaches Script Graph Call calls call ScriptTarget ScriptGen PlainProject MayRead Placed)
open Verif.Boot (Filled)

/-- What the script has registered. -/
def MText.graph (s : MText) (tc : Toolchain) (test : Bool) : Graph :=
  ⟨s.gens.map (·.name) ++ s.targets.map fun d => targetId tc.name d.name,
    s.deps.map (fun e => (s.idAt tc e.2, s.idAt tc e.1)) ++ s.uses.map fun e => (s.genAt e.2, s.idAt tc e.1),
    if test then s.tests.map (s.idAt tc) else []⟩

variable {junk : Nat → TargetSchema} {p : Project} {list : Str → Option (List Str)}
  {ord : List Str → List Str} {tc : Toolchain} {s : MText} {gs : List GenMade} {fs : List Filled}

/-- The parts of a script that came to its end. -/
theorem run_parts (h : s.run junk p list ord tc = some (gs, fs)) : runGens p ord s.gens = some gs ∧
    ∃ ds, plainDecls p gs s.targets = some ds ∧
      Text.run junk p list tc ⟨s.infos, ds, s.deps, s.tests⟩ = some fs := by
  rw [MText.run] at h
  split at h
  · cases h
  · rename_i g hg
    split at h
    · cases h
    · rename_i ds hd
      obtain ⟨r, hr, e⟩ := Option.map_eq_some_iff.1 h
      cases e
      exact ⟨hg, ds, hd, hr⟩

theorem plain_ids {ds : List Decl} (hd : plainDecls p gs s.targets = some ds) (k : Nat) :
    (ds[k]?.map (Decl.id tc)).getD [] = s.idAt tc k := by
  obtain ⟨h1, h2⟩ := plainDecls_spec hd
  rw [MText.idAt]
  cases hk : s.targets[k]? with
  | none =>
    rw [List.getElem?_eq_none_iff, ← h1, ← List.getElem?_eq_none_iff] at hk
    rw [hk]; rfl
  | some d =>
    obtain ⟨steps, -, hds⟩ := h2 k d hk
    rw [hds]; rfl

theorem plain_map {ds : List Decl} (hd : plainDecls p gs s.targets = some ds) :
    ds.map (Decl.id tc) = s.targets.map fun d => targetId tc.name d.name := by
  obtain ⟨h1, h2⟩ := plainDecls_spec hd
  apply List.ext_getElem?
  intro k
  rw [List.getElem?_map, List.getElem?_map]
  cases hk : s.targets[k]? with
  | none =>
    rw [List.getElem?_eq_none_iff, ← h1, ← List.getElem?_eq_none_iff] at hk
    rw [hk]; rfl
  | some d =>
    obtain ⟨steps, -, hds⟩ := h2 k d hk
    rw [hds]; rfl

theorem mixed_declared {ds : List Decl} (hd : plainDecls p gs s.targets = some ds)
    (hn : Neat ⟨s.infos, ds, s.deps, s.tests⟩) (test : Bool) :
    Declared ⟨s.infos, ds, s.deps, s.tests⟩ tc (s.graph tc test).edges := by
  intro d hdm x hx i hi e he
  obtain ⟨k, hk⟩ := List.getElem?_of_mem hdm
  have hl := hn.linked (d, k) (List.mem_zipIdx_iff_getElem?.2 hk) x hx i hi
  refine .edge (List.mem_append_left _ (List.mem_map.2 ⟨_, hl, ?_⟩))
  rw [← plain_ids (tc := tc) hd, ← plain_ids (tc := tc) hd]
  simp only [hk, he]
  rfl

theorem apart {b g n a c u : Str} (hn : slash ∉ n) (hg : slash ∉ g) (ha : slash ∉ a) :
    b ++ b!"/" ++ g ++ b!"/" ++ n ≠ b ++ b!"/" ++ a ++ b!"/" ++ c ++ b!"/" ++ u := by
  intro h
  have hc := congrArg (List.count slash) h
  simp only [List.count_append, List.count_eq_zero.2 hn, List.count_eq_zero.2 hg,
    List.count_eq_zero.2 ha] at hc
  have : List.count slash b!"/" = 1 := by decide
  omega

theorem same_gen {b g n g' n' : Str} (hg : slash ∉ g) (hg' : slash ∉ g')
    (h : b ++ b!"/" ++ g ++ b!"/" ++ n = b ++ b!"/" ++ g' ++ b!"/" ++ n') : g = g' := by
  simp only [List.append_assoc] at h
  have h := List.append_cancel_left (List.append_cancel_left h)
  have : ∀ {x y : Str}, slash ∉ x → (x ++ b!"/" ++ y).takeWhile (· ≠ slash) = x := by
    intro x y hx
    induction x with
    | nil => simp [slash]
    | cons c x ih =>
      simp only [List.mem_cons, not_or] at hx
      have hc : c ≠ slash := fun e => hx.1 e.symm
      simp only [List.cons_append, List.takeWhile_cons, hc, ne_eq, not_false_eq_true, decide_true, if_true]
      simpa using ih hx.2
  have h1 := this (y := n) hg
  have h2 := this (y := n') hg'
  rw [List.append_assoc, h, ← List.append_assoc, h2] at h1
  exact h1.symm

theorem inside_target {t : ScriptTarget} (hp : Placed p t) {q : Str} (h : Inside t.made.buildDir q) :
    ∃ u, q = p.buildDir ++ b!"/" ++ t.made.toolchain.name ++ b!"/" ++ t.made.name ++ b!"/" ++ u := by
  obtain ⟨u, hu, -⟩ := h
  rcases hu with h | ⟨h, -⟩
  · refine ⟨u, ?_⟩
    have h1 := hp.build.append hp.tname
    have h2 := h1.2.append hp.name
    rw [h, hp.dir, targetBuildDir, h2.1, h1.1]
    simp
  · exact absurd h hp.abs.1.last

/-- The outputs of the generators of a script. -/
theorem gens_outputs {gens : List GenDecl} (hn : ∀ g ∈ gens, g.Fine) (hp : Reg.Absolute p.buildDir)
    (hord : ∀ l, (ord l).Perm l) (hg : runGens p ord gens = some gs) {g : GenMade} (hm : g ∈ gs) : PlainName g.name ∧
      ∀ q ∈ ScriptGen.outputs ⟨g.name, g.cfg⟩, ∃ n, PlainName n ∧
        q = p.buildDir ++ b!"/" ++ g.name ++ b!"/" ++ n := by
  obtain ⟨i, hi⟩ := List.getElem?_of_mem hm
  have hlen : gs.length = gens.length := by
    have := congrArg List.length (runGens_spec hg).1
    simpa using this
  have hlt : i < gens.length := by rw [← hlen]; exact (List.getElem?_eq_some_iff.1 hi).1
  obtain ⟨h1, fg, h2, h3, -⟩ := (runGens_spec hg).2 i _ g (List.getElem?_eq_getElem hlt) hi
  have hf := hn _ (List.getElem_mem hlt)
  rw [h1]
  exact ⟨hf.1, (outputs_local hord hf hp h2 h3).1⟩

/-- The files that a target takes from generators. -/
theorem generated_at (hn : NeatMixed s) {k : Nat} {q : Str} (hq : q ∈ s.generated p k) :
    ∃ i g n, PlainName g ∧ PlainName n ∧ (k, i) ∈ s.uses ∧
      s.genAt i = g ∧ q = p.buildDir ++ b!"/" ++ g ++ b!"/" ++ n := by
  rw [MText.generated] at hq
  obtain ⟨x, hx, he⟩ := List.mem_filterMap.1 hq
  cases hk : s.targets[k]? with
  | none => rw [hk] at hx; cases hx
  | some d =>
    rw [hk] at hx
    cases x with
    | step x => cases he
    | genSource i id =>
      obtain ⟨hu, -, g, pat, hgi, hname, hpat, hop, -⟩ := source_parts hn hk hx
      have hf := hn.gens g (List.mem_of_getElem? hgi)
      cases he
      refine ⟨i, g.name, localName pat, hf.1, (hf.2.2.1 _ hop).2.2.2.1, hu, hname, ?_⟩
      rw [MText.fileAt, hname, hpat]

/-- The libraries of a target are the outputs of targets on which it depends. -/
theorem libs_at {deps : List (Str × Str)} {names : List (List Str)} {ds : List Decl}
    (hr : Ran junk p tc deps names ds fs) (placed : ∀ f ∈ fs, Placed p ⟨f.made, f.cfg, []⟩)
    (order : Str → List Str) {f : Filled} (hf : f ∈ fs) {q : Str} (hq : q ∈ paths f.cfg.libs) :
    ∃ e ∈ fs, q = outputPath e.made.fixed ∧ Inside e.made.buildDir q ∧ Reaches deps
      (ScriptTarget.id ⟨e.made, e.cfg, order e.made.name⟩)
      (ScriptTarget.id ⟨f.made, f.cfg, order f.made.name⟩) := by
  obtain ⟨k, d, h1, h2, h3, h4⟩ := hr.target hf
  obtain ⟨j, e, g, a, b, rfl, r⟩ := hr.libs k f d h1 h2 q hq
  have he := List.mem_of_getElem? a
  have hpl := placed e he
  have ho : toPathString (outputPath e.made.fixed) = outputPath e.made.fixed := hpl.output.2.2.1
  refine ⟨e, he, ho, ?_, ?_⟩
  · rw [ho]
    have hx := Reg.plain_ext hpl.name hpl.ext
    have := hpl.output.1
    rw [ScriptTarget.output] at this
    rw [this]
    exact Reg.inside_name hx.2.2.1 hx.2.2.2
  · obtain ⟨m1, -, m3, -⟩ := C70_made (hr.made j e g a b)
    simp only [ScriptTarget.id, m1, m3, h3, h4]
    exact r

/-- What a target of the script reads in the build directory is made by a generator or by a target of the
script. -/
theorem reads_inside (h : s.run junk p list ord tc = some (gs, fs)) (hn : NeatMixed s) (hp : MixedPlace p tc s)
    (hout : Outside p s gs fs) {f : Filled} (hf : f ∈ fs) {q : Str}
    (hq : q ∈ Reg.given f.cfg ++ paths f.cfg.libs) (hi : Inside p.buildDir q) :
    (∃ g n, PlainName g ∧ PlainName n ∧ q = p.buildDir ++ b!"/" ++ g ++ b!"/" ++ n) ∨
      ∃ e ∈ fs, Inside e.made.buildDir q := by
  obtain ⟨hg, ds, hd, hrun⟩ := run_parts h
  have hneat := plain_neat hn hp hg hd
  have hr := run_spec hrun hneat (mixed_declared (tc := tc) hd hneat false)
  rcases List.mem_append.1 hq with hq | hq
  · obtain ⟨k, hk⟩ := List.getElem?_of_mem hf
    obtain ⟨-, g, n, h1, h2, -, -, h3⟩ := generated_at hn (hout.2 k f hk q hq hi)
    exact .inl ⟨g, n, h1, h2, h3⟩
  · obtain ⟨e, he, -, h1, -⟩ := libs_at hr (fun f hf => hr.placed hneat hp.place hf []) (fun _ => []) hf hq
    exact .inr ⟨e, he, h1⟩

/-- C108: a script whose text keeps to the rules of `NeatMixed` keeps to those of C88, in any place where
the build directory is below the root directory, as long as none of the files that it gives is in the build
directory, but for those that targets take from generators. -/
theorem C108_plain (h : s.run junk p list ord tc = some (gs, fs)) (hn : NeatMixed s) (hp : MixedPlace p tc s)
    (hord : ∀ l, (ord l).Perm l) (hout : Outside p s gs fs) (order : Str → List Str) (test : Bool) :
    PlainProject p (scriptTargets fs order) (scriptGens gs) (s.graph tc test).edges := by
  obtain ⟨hg, ds, hd, hrun⟩ := run_parts h
  have hneat := plain_neat hn hp hg hd
  have hdecl := mixed_declared (tc := tc) hd hneat test
  have hr := run_spec hrun hneat hdecl
  have placed : ∀ f ∈ fs, ∀ o, Placed p ⟨f.made, f.cfg, o⟩ := fun f hf o => hr.placed hneat hp.place hf o
  have all : ∀ {P : ScriptTarget → Prop}, (∀ f ∈ fs, P ⟨f.made, f.cfg, order f.made.name⟩) →
      ∀ t ∈ scriptTargets fs order, P t := by
    intro P hP t ht
    obtain ⟨f, hf, rfl⟩ := List.mem_map.1 ht
    exact hP f hf
  have allg : ∀ {P : ScriptGen → Prop}, (∀ g ∈ gs, P ⟨g.name, g.cfg⟩) → ∀ t ∈ scriptGens gs, P t := by
    intro P hP t ht
    obtain ⟨g, hg, rfl⟩ := List.mem_map.1 ht
    exact hP g hg
  have houts : ∀ g ∈ gs, _ := fun g hm => gens_outputs hn.gens hp.place.build hord hg hm
  -- outputs of generators are in the build directory and not in those of targets
  have hapart : ∀ f ∈ fs, ∀ g n : Str, PlainName g → PlainName n →
      ¬ Inside f.made.buildDir (p.buildDir ++ b!"/" ++ g ++ b!"/" ++ n) := by
    intro f hf g n hg hn hi
    obtain ⟨u, hu⟩ := inside_target (placed f hf []) hi
    exact apart hn.2.2.2 hg.2.2.2 (placed f hf []).tname.2.2.2 hu
  have hbelow : ∀ g n : Str, PlainName g → PlainName n →
      Inside p.buildDir (p.buildDir ++ b!"/" ++ g ++ b!"/" ++ n) := by
    intro g n hg hn
    have h1 := hp.place.build.append hg
    refine Reg.inside_trans (b := p.buildDir ++ b!"/" ++ g) ?_ (Reg.inside_name hg.2.2.1 hg.2.2.2)
      (Reg.inside_name hn.2.2.1 hn.2.2.2)
    rw [← h1.1]; exact h1.2.last
  have hgen : ∀ k q, q ∈ s.generated p k → _ := fun k q hq => generated_at hn hq
  have hbelowT : ∀ f ∈ fs, ∀ q, Inside f.made.buildDir q → Inside p.buildDir q := fun f hf q hq =>
    Reg.inside_trans (placed f hf []).abs.1.last (placed f hf []).abs.2 hq
  -- libraries
  have hlibs : ∀ f ∈ fs, ∀ q ∈ paths f.cfg.libs, _ := fun f hf q hq =>
    libs_at hr (placed · · []) order hf hq
  have hsame : ∀ f ∈ fs, ∀ e ∈ fs, ScriptTarget.id ⟨f.made, f.cfg, order f.made.name⟩ =
      ScriptTarget.id ⟨e.made, e.cfg, order e.made.name⟩ → f = e := by
    intro f hf e he hid
    obtain ⟨k, d, h1, h2, h3, h4⟩ := hr.target hf
    obtain ⟨j, d', h1', h2', h3', h4'⟩ := hr.target he
    simp only [ScriptTarget.id, h3, h4, h3', h4'] at hid
    have hkl := (List.getElem?_eq_some_iff.1 h2).1
    have hjl := (List.getElem?_eq_some_iff.1 h2').1
    have hkj : k = j := idAt_inj (tc := tc) hneat hkl hjl (by
      simp only [Text.idAt, h2, h2', Option.map_some, Option.getD_some, Decl.id]
      exact hid)
    subst hkj
    exact Option.some.inj (h1.symm.trans h1')
  refine ⟨hp.place.build, all ?_, all ?_, allg ?_, all ?_, all ?_, allg ?_, all ?_, allg ?_⟩
  · intro f hf
    obtain ⟨k, d, h1, h2, -⟩ := hr.target hf
    exact ⟨_, _, _, _, _, hr.made k f d h1 h2⟩
  · intro f hf
    exact ⟨(placed f hf []).name, (placed f hf []).tname⟩
  · intro g hm
    exact (houts g hm).1
  · intro f hf
    exact ⟨(placed f hf []).obj, (placed f hf []).pch, (placed f hf []).pchc⟩
  · intro f hf
    refine objects_names (placed f hf []).obj ?_
    exact (hneat.sources _ (by rw [← hr.names]; exact List.mem_map_of_mem hf)).1
  · intro g hm q hq
    obtain ⟨n, hn', rfl⟩ := (houts g hm).2 q hq
    exact all fun f hf => hapart f hf _ _ (houts g hm).1 hn'
  · intro f hf q hq
    obtain ⟨k, d, h1, h2, h3, h4⟩ := hr.target hf
    refine ⟨all ?_, allg ?_⟩
    · intro e he hi
      rcases List.mem_append.1 hq with hq | hq
      · obtain ⟨i, g, n, hg', hn', -, -, rfl⟩ := hgen k q (hout.2 k f h1 q hq (hbelowT e he q hi))
        exact absurd hi (hapart e he g n hg' hn')
      · obtain ⟨e', he', rfl, hi', hre⟩ := hlibs f hf q hq
        have hid := (placed e he (order e.made.name)).same (placed e' he' (order e'.made.name)) hi hi'
        obtain rfl := hsame e he e' he' hid
        exact ⟨rfl, hre⟩
    · intro g hm hqo
      obtain ⟨n, hn', rfl⟩ := (houts g hm).2 q hqo
      rcases List.mem_append.1 hq with hq | hq
      · obtain ⟨i, g', n', hg', hn'', hu, hname, he⟩ := hgen k _ (hout.2 k f h1 _ hq
          (hbelow _ _ (houts g hm).1 hn'))
        have hgg := same_gen (houts g hm).1.2.2.2 hg'.2.2.2 he
        refine .edge (List.mem_append_right _ (List.mem_map.2 ⟨(k, i), hu, ?_⟩))
        rw [hname, ← hgg, ← plain_ids (tc := tc) hd, h2]
        simp only [ScriptTarget.id, Option.map_some, Option.getD_some, Decl.id, h3, h4]
      · obtain ⟨e', he', -, hi', -⟩ := hlibs f hf _ hq
        exact absurd hi' (hapart e' he' _ _ (houts g hm).1 hn')
  · intro g hm q hq
    have hno : ¬ Inside p.buildDir q := by
      obtain ⟨x, hx, hq⟩ := List.mem_flatMap.1 hq
      exact hout.1 g hm x hx q hq
    refine ⟨all ?_, allg ?_⟩
    · intro e he hi
      exact absurd (hbelowT e he q hi) hno
    · intro g' hm' hqo
      obtain ⟨n, hn', rfl⟩ := (houts g' hm').2 q hqo
      exact absurd (hbelow _ _ (houts g' hm').1 hn') hno

end Verif.Sample
