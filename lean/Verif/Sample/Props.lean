import Verif.Sample.Lemmas

/-! # Builds of scripts given by their text (C106) -/

namespace Verif.Sample
open Verif Verif.Schema Verif.Target Verif.Toolchain Verif.Path
open Verif.Reg (Absolute ScriptTarget Reaches Placed PlainScript)
open Verif.Boot (Filled)

variable {junk : Nat → TargetSchema} {p : Project} {list : Str → Option (List Str)} {tc : Toolchain}
  {deps : List (Str × Str)} {s : Text} {fs : List Filled}

theorem run_spec (h : s.run junk p list tc = some fs) (hn : Neat s) (hd : Declared s tc deps) :
    Ran junk p tc deps s.names s.targets fs := by
  rw [Text.run] at h
  split at h
  · cases h
  · rename_i infos hi
    have := runTargets_spec (deps := deps) (runInfos_libs hi hn.infos) s.targets [] [] fs [] h
      ⟨rfl, by simp, rfl, by simp, by simp⟩ hn.steps (by simpa [Declared] using hd)
    rw [runInfos_spec hi hn.infos] at this
    simpa [Text.names, Text.infoNames] using this

theorem Ran.target {names : List (List Str)} {ds : List Decl} (h : Ran junk p tc deps names ds fs)
    {f : Filled} (hf : f ∈ fs) : ∃ (k : Nat) (d : Decl), fs[k]? = some f ∧ ds[k]? = some d ∧
      f.made.name = d.name ∧ f.made.toolchain = tc := by
  obtain ⟨k, hk⟩ := List.mem_iff_getElem?.1 hf
  have hlt := (List.getElem?_eq_some_iff.1 hk).1
  rw [h.length] at hlt
  have hd := List.getElem?_eq_getElem hlt
  obtain ⟨h1, -, h3, -⟩ := C70_made (h.made k f _ hk hd)
  exact ⟨k, ds[k], hk, hd, h1, h3⟩

theorem Ran.placed (h : Ran junk p tc deps s.names s.targets fs) (hn : Neat s) (hp : Place p tc)
    {f : Filled} (hf : f ∈ fs) (o : List Str) : Placed p ⟨f.made, f.cfg, o⟩ := by
  obtain ⟨k, d, h1, h2, h3, h4⟩ := h.target hf
  refine .of (p' := p) hp.build ⟨_, _, _, _, _, h.made k f d h1 h2⟩ ?_ ?_
  · show PlainName f.made.name ∧ PlainName f.made.toolchain.name
    rw [h3, h4]
    exact ⟨(hn.plain d (List.mem_of_getElem? h2)).1, hp.name⟩
  · show PlainExt f.made.toolchain.config.objExt ∧ _
    rw [h4]
    exact hp.exts

/-- C106: a script whose text keeps to the rules of `Neat` and `Declared` keeps to those of C84 wherever
it runs, as long as none of the files that it gives is in the build directory. -/
theorem C106_plain (h : s.run junk p list tc = some fs) (hn : Neat s) (hd : Declared s tc deps)
    (hp : Place p tc) (hout : ∀ f ∈ fs, ∀ q ∈ Reg.given f.cfg, ¬ Inside p.buildDir q)
    (order : Str → List Str) : PlainScript p (scriptTargets fs order) deps := by
  have hr := run_spec h hn hd
  have all : ∀ {P : ScriptTarget → Prop}, (∀ f ∈ fs, P ⟨f.made, f.cfg, order f.made.name⟩) →
      ∀ t ∈ scriptTargets fs order, P t := by
    intro P hP t ht
    obtain ⟨f, hf, rfl⟩ := List.mem_map.1 ht
    exact hP f hf
  refine ⟨hp.build, all ?_, all ?_, all ?_, all ?_, all hout, all ?_⟩
  · intro f hf
    obtain ⟨k, d, h1, h2, -⟩ := hr.target hf
    exact ⟨_, _, _, _, _, hr.made k f d h1 h2⟩
  · intro f hf
    have := hr.placed hn hp hf []
    exact ⟨this.name, this.tname⟩
  · intro f hf
    have := hr.placed hn hp hf []
    exact ⟨this.obj, this.pch, this.pchc⟩
  · intro f hf
    refine objects_names (hr.placed hn hp hf []).obj ?_
    exact (hn.sources _ (by rw [← hr.names]; exact List.mem_map_of_mem hf)).1
  · intro f hf q hq _
    obtain ⟨k, d, h1, h2, h3, h4⟩ := hr.target hf
    obtain ⟨j, e, g, a, b, rfl, r⟩ := hr.libs k f d h1 h2 q hq
    have he := List.mem_of_getElem? a
    refine ⟨⟨e.made, e.cfg, order e.made.name⟩, List.mem_map_of_mem he,
      (hr.placed hn hp he []).output.2.2.1, ?_⟩
    obtain ⟨m1, -, m3, -⟩ := C70_made (hr.made j e g a b)
    simp only [ScriptTarget.id, m1, m3, h3, h4]
    exact r

theorem lastDot {a b x y : Str} (hx : PlainExt x) (ha : c!"." ∈ a) (hb : c!"." ∉ b)
    (hy : y = [] ∨ PlainExt y) : a ++ x ≠ b ++ y := by
  intro h
  have hc := congrArg (List.count c!".") h
  obtain ⟨n, rfl, -, h1, -⟩ := hx
  have h2 : 0 < List.count c!"." a := List.count_pos_iff.2 ha
  rw [List.count_append, List.count_append, List.count_eq_zero.2 hb, List.count_cons_self] at hc
  rcases hy with rfl | ⟨m, rfl, -, h3, -⟩
  · simp at hc
  · rw [List.count_cons_self, List.count_eq_zero.2 h3] at hc
    omega

/-- The output of a target is neither one of its object files nor next to its precompiled header. -/
theorem own_name (h : Ran junk p tc deps s.names s.targets fs) (hn : Neat s) (hp : Place p tc)
    {f : Filled} (hf : f ∈ fs) (o : List Str) : Reg.OwnName ⟨f.made, f.cfg, o⟩ := by
  have pl := h.placed hn hp hf o
  obtain ⟨k, d, -, h2, h3, h4⟩ := h.target hf
  obtain ⟨-, hdot, hpch⟩ := hn.plain d (List.mem_of_getElem? h2)
  have hname : PlainName (f.made.name ++ f.made.config.targetExt) := Reg.plain_ext pl.name pl.ext
  have hfile : filename (outputPath f.made.fixed) = f.made.name ++ f.made.config.targetExt := by
    have := pl.output.1
    rw [ScriptTarget.output] at this
    rw [this]
    exact filename_unique _ _ hname.2.2.2 (.inr ⟨_, rfl⟩)
  refine ⟨?_, ?_⟩
  · intro q hq e
    have e' := congrArg filename e
    rw [ScriptTarget.output, hfile] at e'
    have : filename (objPath f.made.fixed q) = filename q ++ f.made.toolchain.config.objExt :=
      filename_object (Reg.PlainExt.noSlash pl.obj)
    rw [this, h3] at e'
    refine lastDot pl.obj ?_ hdot pl.ext e'
    exact (hn.sources _ (by rw [← h.names]; exact List.mem_map_of_mem hf)).2 _ (List.mem_map_of_mem hq)
  · intro hm
    obtain ⟨e, he, hs⟩ := pl.pchFiles hm
    rw [pl.output.1] at he
    have he := List.append_cancel_left he
    apply hpch
    have he : d.name ++ f.made.config.targetExt = b!"buildcc_pch" ++ e := h3 ▸ he
    have hlen : b!"buildcc_pch".length ≤ d.name.length := by
      rcases Nat.lt_or_ge d.name.length b!"buildcc_pch".length with hlt | hge
      · exfalso
        rcases pl.ext with hx | ⟨n, hx, -⟩
        · have hx : f.made.config.targetExt = [] := hx
          have := congrArg List.length he
          rw [hx] at this
          simp at this hlt
          omega
        · have hx : f.made.config.targetExt = c!"." :: n := hx
          rw [hx] at he
          have h5 := congrArg (fun l => l[d.name.length]?) he
          simp only [List.getElem?_append_right (Nat.le_refl _), Nat.sub_self, List.getElem?_cons_zero] at h5
          rw [List.getElem?_append_left hlt] at h5
          have := List.mem_of_getElem? h5.symm
          revert this; decide
      · exact hge
    refine List.prefix_of_prefix_length_le (l₃ := d.name ++ f.made.config.targetExt) ?_
      (List.prefix_append _ _) hlen
    rw [he]
    exact List.prefix_append _ _

/-- A script whose text keeps to the rules of `Neat` and `Declared`, in any place, with files of
which none is in the build directory.  It is accepted by `Reg::Build` and `Reg::Dep` and run again and
again.  Files are edited and deleted, between builds and during builds (but not at the moments named in
`Delicate`), and state files are dropped; builds fail, and are killed at any point.  Whenever `Reg::Run`
returns with success and no file was changed from outside since the process was started

* every target is what a build from scratch would leave, and
* every target to which another one was given with `AddLibDep` is linked with the present version of it,
  which is the result of its last link; nobody writes that file by hand. -/
theorem built_declared (h : s.run junk p list tc = some fs) (hn : Neat s) (hp : Place p tc)
    (hout : ∀ f ∈ fs, ∀ q ∈ Reg.given f.cfg, ¬ Inside p.buildDir q) (order : Str → List Str)
    {n : Nat} {l : List Reg.Call} {sc : Reg.Script}
    (hreg : Reg.calls n ⟨Reg.Graph.empty, []⟩ l = .ok sc) (hself : ∀ c ∈ l, c.selfDep = false)
    (hids : sc.graph.ids = s.targets.map (Decl.id tc)) (hd : Declared s tc sc.graph.edges)
    {evs : List Reg.WEvent} {w : Reg.World}
    (hw : w = (Reg.World.init (Reg.kindsOf (scriptTargets fs order))).steps evs)
    (hal : Reg.AllOfScript sc.graph (Reg.setupOf (scriptTargets fs order))
      (Reg.World.init (Reg.kindsOf (scriptTargets fs order))) evs)
    (ha : w.active = true) (hcalm : w.calm = true) (hres : (w.step .join).result = some true) :
    (∀ f ∈ fs, ∃ σ, (w.step .join).comps (targetId tc.name f.made.name) = .target f.made.fixed σ ∧
      Clean f.made.fixed σ f.cfg) ∧
    ∀ (i k : Nat) (d : Decl) (a b : Filled), s.targets[k]? = some d → .libDep i ∈ d.steps →
      fs[i]? = some a → fs[k]? = some b →
      (∀ e ∈ evs, (∀ v, e ≠ .edit (outputPath a.made.fixed) v) ∧ e ≠ .delete (outputPath a.made.fixed)) →
      Reg.LinkedWith (w.step .join) (targetId tc.name a.made.name) (targetId tc.name b.made.name)
        (outputPath a.made.fixed) := by
  have hr := run_spec h hn hd
  have hid : ∀ f ∈ fs, ScriptTarget.id ⟨f.made, f.cfg, order f.made.name⟩ =
      targetId tc.name f.made.name := by
    intro f hf
    obtain ⟨k, d, -, -, -, h4⟩ := hr.target hf
    rw [ScriptTarget.id, h4]
  have hmap : sc.graph.ids = (scriptTargets fs order).map ScriptTarget.id := by
    rw [hids, scriptTargets, List.map_map]
    apply List.ext_getElem?
    intro k
    rw [List.getElem?_map, List.getElem?_map]
    cases hk : fs[k]? with
    | none =>
      rw [List.getElem?_eq_none_iff, hr.length, ← List.getElem?_eq_none_iff] at hk
      rw [hk]; rfl
    | some f =>
      have hlt := (List.getElem?_eq_some_iff.1 hk).1
      rw [hr.length] at hlt
      have hd := List.getElem?_eq_getElem hlt
      obtain ⟨h1, -⟩ := C70_made (hr.made k f _ hk hd)
      rw [hd]
      simp only [Option.map_some, Function.comp_apply]
      rw [hid f (List.mem_of_getElem? hk), h1, Decl.id]
  have key := Reg.C84_project hreg hself hmap (C106_plain h hn hd hp hout order) hw hal ha hcalm hres
  refine ⟨?_, ?_⟩
  · intro f hf
    have := key.1 _ (List.mem_map_of_mem hf)
    rw [hid f hf] at this
    exact this
  · intro i k d a b hk hs hi hb hand
    have ha' := List.mem_of_getElem? hi
    have hb' := List.mem_of_getElem? hb
    have := key.2 _ (List.mem_map_of_mem ha') _ (List.mem_map_of_mem hb') ?_ (own_name hr hn hp ha' _) hand
    · rw [hid a ha', hid b hb'] at this
      exact this
    · obtain ⟨a', h1, h2⟩ := hr.linked k b d hb hk i hs
      obtain rfl : a = a' := Option.some.inj (hi.symm.trans h1)
      have := (hr.placed hn hp ha' []).output.2.2.1
      rw [ScriptTarget.output] at this
      rw [this] at h2
      exact h2

end Verif.Sample
