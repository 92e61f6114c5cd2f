import Verif.Sample.MultiCalls

/-! # Builds of scripts with several toolchains given by their text (C109) -/

namespace Verif.Sample
open Verif Verif.Schema Verif.Target Verif.Toolchain Verif.Path
open Verif.Reg (Reaches Script Graph Call calls call ScriptTarget ScriptGen PlainProject MayRead Placed)
open Verif.Boot (Filled)

variable {junk : Str → Nat → TargetSchema} {p : Project} {list : Str → Option (List Str)}
  {ord : List Str → List Str} {m : Multi} {gs : List GenMade} {r : List (Part × List Filled)}

/-- Each part that is on ran as a script of its own. -/
theorem runParts_spec {gens : List GenDecl} (hg : runGens p ord gens = some gs) :
    ∀ {l : List Part} {r : List (Part × List Filled)}, runParts junk p list gs l = some r →
      r.map (·.1) = l.filter (·.state.build) ∧
      ∀ x ∈ r, (x.1.text gens).run (junk x.1.tc.name) p list ord x.1.tc = some (gs, x.2)
  | [], r, h => by cases h; simp
  | x :: l, r, h => by
    rw [runParts] at h
    split at h
    · rename_i hc
      split at h
      · cases h
      · rename_i ds hds
        split at h
        · cases h
        · rename_i fs hfs
          obtain ⟨r', hr, rfl⟩ := Option.map_eq_some_iff.1 h
          obtain ⟨h1, h2⟩ := runParts_spec hg hr
          refine ⟨by simp [h1, hc], ?_⟩
          intro y hy
          rcases List.mem_cons.1 hy with rfl | hy
          · simp only [MText.run, Part.text, hg, hds, hfs, Option.map_some]
          · exact h2 y hy
    · rename_i hc
      split at h
      · obtain ⟨h1, h2⟩ := runParts_spec hg h
        exact ⟨by simp [h1, hc], h2⟩
      · cases h

theorem multi_parts (h : m.run junk p list ord = some (gs, r)) : runGens p ord m.gens = some gs ∧
    r.map (·.1) = m.on ∧
    ∀ x ∈ r, (x.1.text m.gens).run (junk x.1.tc.name) p list ord x.1.tc = some (gs, x.2) := by
  rw [Multi.run] at h
  split at h
  · cases h
  · rename_i g hg
    obtain ⟨r', hr, e⟩ := Option.map_eq_some_iff.1 h
    cases e
    exact ⟨hg, runParts_spec hg hr⟩

theorem reaches_mono {E F : List (Str × Str)} (h : ∀ e ∈ E, e ∈ F) {a b : Str} (hr : Reaches E a b) :
    Reaches F a b := by
  induction hr with
  | edge he => exact .edge (h _ he)
  | step he _ ih => exact .step (h _ he) ih

/-- The targets of a part have its toolchain. -/
theorem part_toolchain (h : m.run junk p list ord = some (gs, r)) (hn : NeatMulti m) (hp : MultiPlace p m)
    {x : Part × List Filled} (hx : x ∈ r) {f : Filled} (hf : f ∈ x.2) : f.made.toolchain = x.1.tc := by
  obtain ⟨-, hon, hrun⟩ := multi_parts h
  have hxm : x.1 ∈ m.on := by rw [← hon]; exact List.mem_map_of_mem hx
  obtain ⟨hg, ds, hd, hrun⟩ := run_parts (hrun x hx)
  have hneat := plain_neat (hn.parts _ hxm) (hp.place _ hxm) hg hd
  obtain ⟨-, -, -, -, -, h4⟩ := (run_spec hrun hneat
    (mixed_declared (tc := x.1.tc) hd hneat false)).target hf
  exact h4

/-- C109: a script whose text keeps to the rules of `NeatMulti` keeps to those of C88, whichever toolchains
are on. -/
theorem C109_plain (h : m.run junk p list ord = some (gs, r)) (hn : NeatMulti m) (hp : MultiPlace p m)
    (hord : ∀ l, (ord l).Perm l) (hout : OutsideAll p m gs r) (order : Str → List Str) :
    PlainProject p (multiTargets r order) (scriptGens gs) m.graph.edges := by
  obtain ⟨hg, hon, hrun⟩ := multi_parts h
  have hxm : ∀ {x}, x ∈ r → x.1 ∈ m.on := fun hx => by rw [← hon]; exact List.mem_map_of_mem hx
  have hplain : ∀ x ∈ r, PlainProject p (scriptTargets x.2 fun n => order (targetId x.1.tc.name n))
      (scriptGens gs) ((x.1.text m.gens).graph x.1.tc x.1.state.test).edges := fun x hx =>
    C108_plain (hrun x hx) (hn.parts _ (hxm hx)) (hp.place _ (hxm hx)) hord (hout.2 x hx) _ _
  have all : ∀ {P : ScriptTarget → Prop},
      (∀ x ∈ r, ∀ t ∈ scriptTargets x.2 (fun n => order (targetId x.1.tc.name n)), P t) →
      ∀ t ∈ multiTargets r order, P t := by
    intro P hP t ht
    obtain ⟨x, hx, ht⟩ := List.mem_flatMap.1 ht
    exact hP x hx t ht
  have houts : ∀ g ∈ gs, _ := fun g hm => gens_outputs hn.gens hp.build hord hg hm
  have allg : ∀ {P : ScriptGen → Prop}, (∀ g ∈ gs, P ⟨g.name, g.cfg⟩) → ∀ t ∈ scriptGens gs, P t := by
    intro P hP t ht
    obtain ⟨g, hg, rfl⟩ := List.mem_map.1 ht
    exact hP g hg
  have hedges : ∀ x ∈ r, ∀ e ∈ ((x.1.text m.gens).graph x.1.tc x.1.state.test).edges, e ∈ m.graph.edges :=
    fun x hx e he => List.mem_flatMap.2 ⟨x.1, hxm hx, he⟩
  -- a target reads nothing of a target for another toolchain
  have hother : ∀ x ∈ r, ∀ f ∈ x.2, ∀ y ∈ r, ∀ e ∈ y.2, ∀ q ∈ Reg.given f.cfg ++ paths f.cfg.libs,
      Inside e.made.buildDir q → x.1.tc.name = y.1.tc.name := by
    intro x hx f hf y hy e he q hq hi
    have pe : Placed p ⟨e.made, e.cfg, order (targetId y.1.tc.name e.made.name)⟩ :=
      (hplain y hy).placed (List.mem_map_of_mem he)
    have hb : Inside p.buildDir q := Reg.inside_trans pe.abs.1.last pe.abs.2 hi
    rcases reads_inside (hrun x hx) (hn.parts _ (hxm hx)) (hp.place _ (hxm hx)) (hout.2 x hx) hf hq hb with
      ⟨g, n, h1, h2, rfl⟩ | ⟨e', he', hi'⟩
    · obtain ⟨u, hu⟩ := inside_target pe hi
      exact absurd hu (apart h2.2.2.2 h1.2.2.2 pe.tname.2.2.2)
    · have pe' : Placed p ⟨e'.made, e'.cfg, order (targetId x.1.tc.name e'.made.name)⟩ :=
        (hplain x hx).placed (List.mem_map_of_mem he')
      have := pe'.same pe hi' hi
      simp only [ScriptTarget.id, part_toolchain h hn hp hx he', part_toolchain h hn hp hy he] at this
      exact (target_id_injective _ _ _ _ (hp.brackets _ (hxm hx)) (hp.brackets _ (hxm hy)) this).1
  have hsame : ∀ x ∈ r, ∀ y ∈ r, x.1.tc.name = y.1.tc.name → x = y := by
    have hnd : (r.map fun x => x.1.tc.name).Nodup := by
      have := hp.names
      rw [← hon, List.map_map] at this
      exact this
    intro x hx y hy e
    obtain ⟨i, hi⟩ := List.getElem?_of_mem hx
    obtain ⟨j, hj⟩ := List.getElem?_of_mem hy
    have hij : i = j := by
      refine (List.getElem?_inj (l := r.map fun x => x.1.tc.name) ?_ hnd).1 ?_
      · rw [List.length_map]; exact (List.getElem?_eq_some_iff.1 hi).1
      · rw [List.getElem?_map, List.getElem?_map, hi, hj]
        simp only [Option.map_some, e]
    subst hij
    exact Option.some.inj (hi.symm.trans hj)
  refine ⟨hp.build, all fun x hx => (hplain x hx).made, all fun x hx => (hplain x hx).names, allg ?_,
    all fun x hx => (hplain x hx).exts, all fun x hx => (hplain x hx).sources, ?_, all ?_, allg ?_⟩
  · exact fun g hm => (houts g hm).1
  · exact fun g hm q hq => all fun x hx t ht => (hplain x hx).apart g hm q hq t ht
  · intro x hx t ht q hq
    have hr := (hplain x hx).targetReads t ht q hq
    refine ⟨all ?_, fun g hm hqo => reaches_mono (hedges x hx) (hr.2 g hm hqo)⟩
    intro y hy d hd hi
    obtain ⟨f, hf, rfl⟩ := List.mem_map.1 ht
    obtain ⟨e, he, rfl⟩ := List.mem_map.1 hd
    have := hsame x hx y hy (hother x hx f hf y hy e he q hq hi)
    subst this
    have := hr.1 _ hd hi
    exact ⟨this.1, reaches_mono (hedges x hx) this.2⟩
  · intro g hm q hq
    have hno : ¬ Inside p.buildDir q := by
      obtain ⟨x, hx, hq⟩ := List.mem_flatMap.1 hq
      exact hout.1 g hm x hx q hq
    refine ⟨all ?_, allg ?_⟩
    · intro x hx t ht hi
      have pt := (hplain x hx).placed ht
      exact absurd (Reg.inside_trans pt.abs.1.last pt.abs.2 hi) hno
    · intro g' hm' hqo
      obtain ⟨n, hn', rfl⟩ := (houts g' hm').2 q hqo
      have h1 := hp.build.append (houts g' hm').1
      refine absurd (Reg.inside_trans (b := p.buildDir ++ b!"/" ++ g'.name) ?_
        (Reg.inside_name (houts g' hm').1.2.2.1 (houts g' hm').1.2.2.2)
        (Reg.inside_name hn'.2.2.1 hn'.2.2.2)) hno
      rw [← h1.1]; exact h1.2.last

theorem multi_ids (h : m.run junk p list ord = some (gs, r)) (hn : NeatMulti m) (hp : MultiPlace p m)
    (order : Str → List Str) : (multiTargets r order).map ScriptTarget.id = m.on.flatMap Part.ids := by
  obtain ⟨hg, hon, hrun⟩ := multi_parts h
  have : ∀ x ∈ r, (scriptTargets x.2 fun n => order (targetId x.1.tc.name n)).map ScriptTarget.id =
      x.1.ids := by
    intro x hx
    have hxm : x.1 ∈ m.on := by rw [← hon]; exact List.mem_map_of_mem hx
    exact (target_ids (hrun x hx) (hn.parts _ hxm) (hp.place _ hxm) _).2
  rw [← hon, multiTargets, List.map_flatMap, List.flatMap_map]
  exact flatMap_congr' this

/-- C109: a script with file generators and any number of toolchains, of which any are on, whose text keeps
to the rules of `NeatMulti`.  The rest is as in C108: the script is run again and again, files are edited and
deleted, state files are dropped, builds fail and are killed at any point.  Its calls on `Reg` are accepted,
and whenever `Reg::Run` returns with success and no file was changed from outside since the process was
started

* every target for every toolchain that is on is what a build from scratch would leave,
* the commands of every generator were last run to the end with the present versions of its inputs,
* a file that a target takes from a generator is a source of the target and an output of the generator, and
* every target to which another one was given with `AddLibDep` is linked with the present version of it,
  which is the result of its last link; nobody writes that file by hand. -/
theorem C109_built (h : m.run junk p list ord = some (gs, r)) (hn : NeatMulti m) (hp : MultiPlace p m)
    (hord : ∀ l, (ord l).Perm l) (hout : OutsideAll p m gs r) (order : Str → List Str)
    {clean : Bool} {evs : List Reg.WEvent} {w : Reg.World}
    (hw : w = (Reg.World.init (Reg.kindsOf (multiTargets r order))).steps evs)
    (hal : Reg.AllOfScript m.graph (Reg.setupWith (multiTargets r order) (scriptGens gs))
      (Reg.World.init (Reg.kindsOf (multiTargets r order))) evs)
    (ha : w.active = true) (hcalm : w.calm = true) (hres : (w.step .join).result = some true) :
    (∃ n, ∀ k, n ≤ k → ∃ ran, calls k ⟨Graph.empty, []⟩ (m.calls clean) = .ok ⟨m.graph, ran⟩) ∧
    r.map (·.1) = m.parts.filter (·.state.build) ∧
    (∀ x ∈ r, ∀ f ∈ x.2, ∃ σ, (w.step .join).comps (targetId x.1.tc.name f.made.name) =
      .target f.made.fixed σ ∧ Clean f.made.fixed σ f.cfg) ∧
    (∀ g ∈ gs, Generator.Fits g.commands → ∃ σ, (w.step .join).comps g.name = .gen σ ∧
      σ.files = (w.step .join).files ∧
      Reg.Generated σ (ScriptGen.inputs ⟨g.name, g.cfg⟩) (ScriptGen.outputs ⟨g.name, g.cfg⟩) g.commands) ∧
    (∀ x ∈ r, ∀ (k i : Nat) (id : Str) (d : MDecl) (f : Filled) (g : GenMade), x.1.targets[k]? = some d →
      .genSource i id ∈ d.steps → x.2[k]? = some f → gs[i]? = some g →
      (x.1.text m.gens).fileAt p i id ∈ paths f.cfg.sources ∧
      (x.1.text m.gens).fileAt p i id ∈ ScriptGen.outputs ⟨g.name, g.cfg⟩) ∧
    ∀ x ∈ r, ∀ (i k : Nat) (d : MDecl) (a b : Filled), x.1.targets[k]? = some d →
      .step (.libDep i) ∈ d.steps → x.2[i]? = some a → x.2[k]? = some b →
      (∀ e ∈ evs, (∀ v, e ≠ .edit (outputPath a.made.fixed) v) ∧ e ≠ .delete (outputPath a.made.fixed)) →
      Reg.LinkedWith (w.step .join) (targetId x.1.tc.name a.made.name) (targetId x.1.tc.name b.made.name)
        (outputPath a.made.fixed) := by
  obtain ⟨n, hcalls⟩ := C109_accepted hn hp clean
  obtain ⟨hg, hon, hrun⟩ := multi_parts h
  have hxm : ∀ {x}, x ∈ r → x.1 ∈ m.on := fun hx => by rw [← hon]; exact List.mem_map_of_mem hx
  have hplain := C109_plain h hn hp hord hout order
  have hgn : (scriptGens gs).map ScriptGen.name = m.gens.map (·.name) := by
    rw [← (runGens_spec hg).1, scriptGens, List.map_map]
    rfl
  have hperm : m.graph.ids.Perm (Reg.Names (multiTargets r order) (scriptGens gs)) := by
    rw [Reg.Names, multi_ids h hn hp, hgn]
    exact List.perm_append_comm
  obtain ⟨ran, hreg⟩ := hcalls n (Nat.le_refl n)
  have hself := multi_selfDep hn clean
  have key := Reg.C88_mixed hreg hself hperm hplain hw hal ha hcalm hres
  have hmem : ∀ x ∈ r, ∀ f ∈ x.2, (⟨f.made, f.cfg, order (targetId x.1.tc.name f.made.name)⟩ : ScriptTarget) ∈
      multiTargets r order := fun x hx f hf => List.mem_flatMap.2 ⟨x, hx, List.mem_map_of_mem hf⟩
  have hid : ∀ x ∈ r, ∀ f ∈ x.2,
      ScriptTarget.id ⟨f.made, f.cfg, order (targetId x.1.tc.name f.made.name)⟩ =
        targetId x.1.tc.name f.made.name := fun x hx f hf => by
    rw [ScriptTarget.id, part_toolchain h hn hp hx hf]
  refine ⟨⟨n, hcalls⟩, hon, ?_, ?_, ?_, ?_⟩
  · intro x hx f hf
    have := key.1 _ (hmem x hx f hf)
    rw [hid x hx f hf] at this
    exact this
  · intro g hm hfits
    obtain ⟨cmd, ins, outs, h3⟩ := gen_data hg hm
    exact Reg.C88_commands hreg hself hperm hplain hw hal ha hcalm hres (g := ⟨g.name, g.cfg⟩)
      (List.mem_map_of_mem hm) hfits h3
  · intro x hx k i id d f g hk hs hf hgi
    exact source_given (hrun x hx) (hn.parts _ (hxm hx)) (hp.place _ (hxm hx)) hord hk hs hf hgi
  · intro x hx i k d a b hk hs hi hb hand
    have ha' := List.mem_of_getElem? hi
    have hb' := List.mem_of_getElem? hb
    obtain ⟨h1, h2⟩ := linked_given (hrun x hx) (hn.parts _ (hxm hx)) (hp.place _ (hxm hx)) hk hs hi hb
    have := key.2.2 _ (hmem x hx a ha') _ (hmem x hx b hb') h1 (h2 _) hand
    rw [hid x hx a ha', hid x hx b hb'] at this
    exact this

end Verif.Sample
