import Verif.Sample.MultiBytes

/-!
# Scripts whose text is edited between runs (C112)
-/

namespace Verif.Sample
open Verif Verif.Schema Verif.Target Verif.Toolchain Verif.Path
open Verif.Reg (Graph Call calls ScriptTarget ScriptGen Version Makers BWEvent BWorld InOrder buildAll
  sourcesOnly isMade kindsOf setupWith)
open Verif.Boot (Filled)

/-! ## Specification -/

/-- A script as it is run once: its text with the states of the toolchains, the generators it made and its
targets as they were filled. -/
structure Edition where
  text : Multi
  gens : List GenMade
  parts : List (Part × List Filled)

/-- The targets of the edition.  The order in which objects are linked is given by the process, not by the
script. -/
def Edition.targets (v : Edition) : List ScriptTarget := multiTargets v.parts fun _ => []

/-- The process registered and configured what this edition says. -/
def Edition.Is (v : Edition) (g : Graph) (s : Str → Reg.Setup) : Prop :=
  g = v.text.graph ∧ ∀ j ∈ g.ids, Reg.SameSetup (s j) (setupWith v.targets (scriptGens v.gens) j)

/-- The programs, libraries and generated files of the edition. -/
def Edition.Makes (v : Edition) (q : Str) : Prop :=
  (∃ x ∈ v.parts, ∃ f ∈ x.2, q = outputPath f.made.fixed) ∨
  ∃ g ∈ v.gens, q ∈ ScriptGen.outputs ⟨g.name, g.cfg⟩

/-- `f` and `f'` are a target for a toolchain in two editions. -/
def SameTarget (v v' : Edition) (f f' : Filled) : Prop :=
  ∃ x ∈ v.parts, ∃ x' ∈ v'.parts, x.1.tc.name = x'.1.tc.name ∧ f ∈ x.2 ∧ f' ∈ x'.2 ∧
    f.made.name = f'.made.name

/-- The editions of a script keep to these rules. -/
structure NeatEditions (p : Project) (vs : List Edition) : Prop where
  /-- Each of them gets to `Reg::Run`.  The contents of directories may differ. -/
  ran : ∀ v ∈ vs, ∃ junk list ord, (∀ l, (ord l).Perm l) ∧
    v.text.run junk p list ord = some (v.gens, v.parts)
  /-- Each text keeps to the rules for one script. -/
  neat : ∀ v ∈ vs, NeatMulti v.text
  place : ∀ v ∈ vs, MultiPlace p v.text
  outside : ∀ v ∈ vs, OutsideAll p v.text v.gens v.parts
  fits : ∀ v ∈ vs, ∀ g ∈ v.gens, Generator.Fits g.commands
  /-- A toolchain is not edited. -/
  toolchains : ∀ v ∈ vs, ∀ v' ∈ vs, ∀ x ∈ v.text.on, ∀ x' ∈ v'.text.on, x.tc.name = x'.tc.name → x.tc = x'.tc
  /-- Neither is the type of a target, nor its directory. -/
  targets : ∀ v ∈ vs, ∀ v' ∈ vs, ∀ x ∈ v.text.on, ∀ x' ∈ v'.text.on, x.tc.name = x'.tc.name →
    ∀ d ∈ x.targets, ∀ d' ∈ x'.targets, d.name = d'.name → d.type = d'.type ∧ d.dir = d'.dir
  /-- A source of a target with the file name of a source in another edition is the same file. -/
  sources : ∀ v ∈ vs, ∀ v' ∈ vs, ∀ f f', SameTarget v v' f f' → ∀ a ∈ paths f.cfg.sources,
    ∀ b ∈ paths f'.cfg.sources, filename a = filename b → a = b
  /-- A target has precompiled headers in all editions or in none, always in the same language. -/
  pch : ∀ v ∈ vs, ∀ v' ∈ vs, ∀ f f', SameTarget v v' f f' → (f.cfg.pchs = [] ↔ f'.cfg.pchs = []) ∧
    (f.cfg.pchs ≠ [] → containsCpp f.made.fixed f.cfg = containsCpp f.made.fixed f'.cfg)

/-- What the builders are. -/
def kindsIn (vs : List Edition) : Str → Reg.Kind := kindsOf (vs.flatMap Edition.targets)

/-- What the editions register and configure. -/
def editions (vs : List Edition) : Reg.Versions := fun g s => ∃ v ∈ vs, v.Is g s

/-! ## Editions are versions that keep to the rules -/

variable {p : Project} {vs : List Edition}

/-- The edition as a version of a script. -/
def versionIn (vs : List Edition) (u : Version) : Prop :=
  ∃ v ∈ vs, ∃ ran, (∃ n, calls n ⟨Graph.empty, []⟩ (v.text.calls false) = .ok ⟨v.text.graph, ran⟩) ∧
    u = ⟨v.text.calls false, ⟨v.text.graph, ran⟩, v.targets, scriptGens v.gens⟩

section
variable (h : NeatEditions p vs)
include h

theorem NeatEditions.on {v : Edition} (hv : v ∈ vs) {x : Part × List Filled} (hx : x ∈ v.parts) :
    x.1 ∈ v.text.on := by
  obtain ⟨junk, list, ord, -, hr⟩ := h.ran v hv
  rw [← (multi_parts hr).2.1]
  exact List.mem_map_of_mem hx

theorem NeatEditions.toolchain {v : Edition} (hv : v ∈ vs) {x : Part × List Filled} (hx : x ∈ v.parts)
    {f : Filled} (hf : f ∈ x.2) : f.made.toolchain = x.1.tc := by
  obtain ⟨junk, list, ord, -, hr⟩ := h.ran v hv
  exact part_toolchain hr (h.neat v hv) (h.place v hv) hx hf

/-- A target is made from its declaration. -/
theorem NeatEditions.decl {v : Edition} (hv : v ∈ vs) {x : Part × List Filled} (hx : x ∈ v.parts)
    {f : Filled} (hf : f ∈ x.2) : ∃ d ∈ x.1.targets, f.made.name = d.name ∧
      special p d.name d.type x.1.tc (TargetEnv.relative p d.dir) (shipped x.1.tc.id d.type) = some f.made := by
  obtain ⟨junk, list, ord, -, hr⟩ := h.ran v hv
  obtain ⟨-, hon, hrun⟩ := multi_parts hr
  have hxm := h.on hv hx
  obtain ⟨hg, ds, hd, hrun⟩ := run_parts (hrun x hx)
  have hneat := plain_neat ((h.neat v hv).parts _ hxm) ((h.place v hv).place _ hxm) hg hd
  have hr := run_spec hrun hneat (mixed_declared (tc := x.1.tc) hd hneat false)
  obtain ⟨k, d, h1, h2, h3, -⟩ := hr.target hf
  have hm := hr.made k f d h1 h2
  obtain ⟨hl, hs⟩ := plainDecls_spec hd
  have hlt : k < x.1.targets.length := by
    have : k < ds.length := (List.getElem?_eq_some_iff.1 h2).1
    have e : ds.length = x.1.targets.length := hl
    omega
  obtain ⟨steps, -, he⟩ := hs k _ (List.getElem?_eq_getElem hlt)
  have h2' : ds[k]? = some d := h2
  rw [h2'] at he
  cases he
  refine ⟨x.1.targets[k], List.getElem_mem hlt, h3, ?_⟩
  rw [targetGeneric_eq] at hm
  exact hm

/-- So it is made in the same way in all editions. -/
theorem NeatEditions.same {v v' : Edition} (hv : v ∈ vs) (hv' : v' ∈ vs) {f f' : Filled}
    (hs : SameTarget v v' f f') : f.made.fixed = f'.made.fixed := by
  obtain ⟨x, hx, x', hx', htc, hf, hf', hname⟩ := hs
  obtain ⟨d, hd, e1, e2⟩ := h.decl hv hx hf
  obtain ⟨d', hd', e1', e2'⟩ := h.decl hv' hx' hf'
  have ht := h.toolchains v hv v' hv' _ (h.on hv hx) _ (h.on hv' hx') htc
  have hn : d.name = d'.name := by rw [← e1, ← e1', hname]
  obtain ⟨t1, t2⟩ := h.targets v hv v' hv' _ (h.on hv hx) _ (h.on hv' hx') htc d hd d' hd' hn
  rw [ht, hn, t1, t2, e2'] at e2
  rw [Option.some.inj e2]

/-- Targets with the same name in two editions. -/
theorem NeatEditions.same_target {v v' : Edition} (hv : v ∈ vs) (hv' : v' ∈ vs) {t t' : ScriptTarget}
    (ht : t ∈ v.targets) (ht' : t' ∈ v'.targets) (he : t.id = t'.id) :
    ∃ f f', SameTarget v v' f f' ∧ t.made = f.made ∧ t.cfg = f.cfg ∧ t'.made = f'.made ∧ t'.cfg = f'.cfg := by
  obtain ⟨x, hx, ht⟩ := List.mem_flatMap.1 ht
  obtain ⟨f, hf, rfl⟩ := List.mem_map.1 ht
  obtain ⟨x', hx', ht'⟩ := List.mem_flatMap.1 ht'
  obtain ⟨f', hf', rfl⟩ := List.mem_map.1 ht'
  simp only [ScriptTarget.id, h.toolchain hv hx hf, h.toolchain hv' hx' hf'] at he
  obtain ⟨e1, e2⟩ := target_id_injective _ _ _ _ ((h.place v hv).brackets _ (h.on hv hx))
    ((h.place v' hv').brackets _ (h.on hv' hx')) he
  exact ⟨f, f', ⟨x, hx, x', hx', e1, hf, hf', e2⟩, rfl, rfl, rfl, rfl⟩

theorem NeatEditions.plain {v : Edition} (hv : v ∈ vs) :
    Reg.PlainProject p v.targets (scriptGens v.gens) v.text.graph.edges := by
  obtain ⟨junk, list, ord, hord, hr⟩ := h.ran v hv
  exact C109_plain hr (h.neat v hv) (h.place v hv) hord (h.outside v hv) _

theorem NeatEditions.fileGen {v : Edition} (hv : v ∈ vs) {g : ScriptGen} (hg : g ∈ scriptGens v.gens) :
    ∃ commands, Reg.IsFileGen g commands := by
  obtain ⟨junk, list, ord, hord, hr⟩ := h.ran v hv
  obtain ⟨g, hm, rfl⟩ := List.mem_map.1 hg
  exact ⟨g.commands, h.fits v hv g hm, gen_data (multi_parts hr).1 hm⟩

/-- A generator is not named like a target. -/
theorem NeatEditions.apart {v v' : Edition} (hv : v ∈ vs) (hv' : v' ∈ vs) {g : ScriptGen}
    (hg : g ∈ scriptGens v.gens) {t : ScriptTarget} (ht : t ∈ v'.targets) : t.id ≠ g.name := by
  obtain ⟨junk, list, ord, hord, hr⟩ := h.ran v hv
  obtain ⟨g, hm, rfl⟩ := List.mem_map.1 hg
  have : g.name ∈ v.text.gens.map (·.name) := by
    rw [← (runGens_spec (multi_parts hr).1).1]
    exact List.mem_map_of_mem hm
  obtain ⟨d, hd, e⟩ := List.mem_map.1 this
  intro he
  refine ((h.neat v hv).gens d hd).2.1 ?_
  rw [e]
  show _ ∈ g.name
  rw [← show t.id = g.name from he]
  exact List.mem_cons_self

theorem NeatEditions.versions : Reg.PlainVersions p (kindsIn vs) (versionIn vs) where
  accepted := by
    rintro u ⟨v, hv, ran, hc, rfl⟩
    obtain ⟨junk, list, ord, hord, hr⟩ := h.ran v hv
    exact ⟨hc, multi_selfDep (h.neat v hv) false, multi_perm hr (h.neat v hv) (h.place v hv) fun _ => []⟩
  plain := by
    rintro u ⟨v, hv, ran, hc, rfl⟩
    exact h.plain hv
  objects := by
    rintro u u' ⟨v, hv, ran, hc, rfl⟩ ⟨v', hv', ran', hc', rfl⟩ t ht t' ht' he a ha b hb hab
    obtain ⟨f, f', hs, e1, e2, e3, e4⟩ := h.same_target hv hv' ht ht' he
    rw [e2] at ha
    rw [e4] at hb
    refine h.sources v hv v' hv' f f' hs a ha b hb ?_
    have h1 := congrArg filename hab
    have he' := Reg.PlainExt.noSlash ((h.plain hv).exts t ht).1
    have e : ∀ s, filename (objPath t.made.fixed s) = filename s ++ t.made.toolchain.config.objExt :=
      fun s => filename_object he'
    rw [e, e] at h1
    exact List.append_cancel_right h1
  targets := by
    intro j fx
    constructor
    · intro hk
      unfold kindsIn kindsOf at hk
      split at hk
      · rename_i d hd
        have hm := List.mem_of_find?_eq_some hd
        have he := List.find?_some hd
        obtain ⟨v, hv, ht⟩ := List.mem_flatMap.1 hm
        obtain ⟨n, hc⟩ := C109_accepted (h.neat v hv) (h.place v hv) false
        obtain ⟨ran, hreg⟩ := hc n (Nat.le_refl n)
        exact ⟨_, d, ⟨v, hv, ran, ⟨n, hreg⟩, rfl⟩, ht, by simpa using he, by simpa using hk⟩
      · cases hk
    · rintro ⟨u, t, ⟨v, hv, ran, hc, rfl⟩, ht, rfl, rfl⟩
      have ht : t ∈ v.targets := ht
      unfold kindsIn kindsOf
      split
      · rename_i d hd
        have hm := List.mem_of_find?_eq_some hd
        have he := List.find?_some hd
        obtain ⟨v', hv', hd'⟩ := List.mem_flatMap.1 hm
        obtain ⟨f, f', hs, e1, -, e3, -⟩ := h.same_target hv' hv hd' ht (by simpa using he)
        rw [e1, e3, h.same hv' hv hs]
      · rename_i hd
        rw [List.find?_eq_none] at hd
        exact absurd (decide_eq_true rfl) (hd t (List.mem_flatMap.2 ⟨v, hv, ht⟩))
  gens := by
    rintro u ⟨v, hv, ran, hc, rfl⟩ g hg
    have hg : g ∈ scriptGens v.gens := hg
    unfold kindsIn kindsOf
    split
    · rename_i d hd
      have hm := List.mem_of_find?_eq_some hd
      have he := List.find?_some hd
      obtain ⟨v', hv', hd'⟩ := List.mem_flatMap.1 hm
      exact absurd (by simpa using he) (h.apart hv hv' hg hd')
    · rfl
  pch := by
    rintro u u' ⟨v, hv, ran, hc, rfl⟩ ⟨v', hv', ran', hc', rfl⟩ t ht t' ht' he
    obtain ⟨f, f', hs, e1, e2, e3, e4⟩ := h.same_target hv hv' ht ht' he
    rw [e1, e2, e4]
    exact h.pch v hv v' hv' f f' hs
  handlers := by
    rintro u u' ⟨v, hv, ran, hc, rfl⟩ ⟨v', hv', ran', hc', rfl⟩ g hg g' hg' - id i i' hi hi'
    obtain ⟨c, hc⟩ := h.fileGen hv hg
    obtain ⟨c', hc'⟩ := h.fileGen hv' hg'
    exact (Reg.fileGens_data hc hc' id i i' hi hi').1
  data := by
    rintro u u' ⟨v, hv, ran, hc, rfl⟩ ⟨v', hv', ran', hc', rfl⟩ g hg g' hg' - id i i' hd a b hi hi'
    obtain ⟨c, hc⟩ := h.fileGen hv hg
    obtain ⟨c', hc'⟩ := h.fileGen hv' hg'
    exact (Reg.fileGens_data hc hc' id i i' hi hi').2 hd a b

/-- Every edition is accepted by `Reg`. -/
theorem NeatEditions.version {v : Edition} (hv : v ∈ vs) : ∃ u, versionIn vs u ∧
    u.script.graph = v.text.graph ∧ u.ts = v.targets ∧ u.gs = scriptGens v.gens := by
  obtain ⟨n, hc⟩ := C109_accepted (h.neat v hv) (h.place v hv) false
  obtain ⟨ran, hreg⟩ := hc n (Nat.le_refl n)
  exact ⟨_, ⟨v, hv, ran, ⟨n, hreg⟩, rfl⟩, rfl, rfl, rfl⟩

theorem NeatEditions.of (g : Graph) (s : Str → Reg.Setup) :
    editions vs g s ↔ Reg.versionsOf (versionIn vs) g s := by
  constructor
  · rintro ⟨v, hv, hg, hs⟩
    obtain ⟨u, hu, e1, e2, e3⟩ := h.version hv
    exact ⟨u, hu, hg.trans e1.symm, by rw [e2, e3]; exact hs⟩
  · rintro ⟨u, ⟨v, hv, ran, hc, rfl⟩, hi⟩
    exact ⟨v, hv, hi⟩

/-- What an edition makes has the same maker in all editions in which it is made. -/
theorem NeatEditions.own {u : Version} (hu : versionIn vs u) : Reg.OwnVersion (versionIn vs) u := by
  obtain ⟨v, hv, ran, hc, rfl⟩ := hu
  obtain ⟨junk, list, ord, hord, hr⟩ := h.ran v hv
  have hout : ∀ {v : Edition}, v ∈ vs → ∀ g ∈ scriptGens v.gens, PlainName g.name ∧ ∀ q ∈ g.outputs,
      ∃ n, PlainName n ∧ q = p.buildDir ++ b!"/" ++ g.name ++ b!"/" ++ n := by
    intro v hv g hg
    obtain ⟨junk, list, ord, hord, hr⟩ := h.ran v hv
    obtain ⟨g, hm, rfl⟩ := List.mem_map.1 hg
    exact gens_outputs (h.neat v hv).gens (h.place v hv).build hord (multi_parts hr).1 hm
  have hapart : ∀ {v v' : Edition}, v ∈ vs → v' ∈ vs → ∀ g ∈ scriptGens v.gens, ∀ q ∈ g.outputs,
      ∀ t ∈ v'.targets, ¬ Inside t.made.buildDir q := by
    intro v v' hv hv' g hg q hq t ht hi
    obtain ⟨h1, h2⟩ := hout hv g hg
    obtain ⟨n, hn, rfl⟩ := h2 q hq
    have pt := (h.plain hv').placed ht
    obtain ⟨u, hu⟩ := inside_target pt hi
    exact Sample.apart hn.2.2.2 h1.2.2.2 pt.tname.2.2.2 hu
  refine ⟨multi_once hr (h.neat v hv) (h.place v hv) hord fun _ => [], ?_, ?_, ?_⟩
  · rintro u ⟨v', hv', ran', hc', rfl⟩ t ht t' ht' -
    obtain ⟨junk', list', ord', hord', hr'⟩ := h.ran v' hv'
    exact (multi_once hr' (h.neat v' hv') (h.place v' hv') hord' fun _ => []).targets t' ht'
  · rintro u ⟨v', hv', ran', hc', rfl⟩ t ht g hg hq
    have pt := (h.plain hv).placed ht
    refine hapart hv' hv g hg _ hq t ht ?_
    rw [pt.output.1]
    have := Reg.plain_ext pt.name pt.ext
    exact Reg.inside_name this.2.2.1 this.2.2.2
  · rintro u ⟨v', hv', ran', hc', rfl⟩ g hg x hx q hq
    have hgo : q ∈ g.outputs := List.mem_flatMap.2 ⟨x, hx, hq⟩
    refine ⟨hapart hv hv' g hg q hgo, ?_⟩
    intro g' hg' y hy hqy
    obtain ⟨h1, h2⟩ := hout hv g hg
    obtain ⟨h1', h2'⟩ := hout hv' g' hg'
    obtain ⟨n, -, e⟩ := h2 q hgo
    obtain ⟨n', -, e'⟩ := h2' q (List.mem_flatMap.2 ⟨y, hy, hqy⟩)
    refine ⟨same_gen h1'.2.2.2 h1.2.2.2 (e'.symm.trans e), ?_⟩
    obtain ⟨c, -, _, _, _, hc⟩ := h.fileGen hv hg
    obtain ⟨c', -, _, _, _, hc'⟩ := h.fileGen hv' hg'
    obtain ⟨i, o, -, -, e1⟩ := Generator.fileCfg_some hc
    obtain ⟨i', o', -, -, e2⟩ := Generator.fileCfg_some hc'
    rw [e1] at hx
    rw [e2] at hy
    rw [List.mem_singleton.1 hx, List.mem_singleton.1 hy]

end

/-! ## The theorems -/

theorem AllOfVersions.congr {F F' : Reg.Versions} (h : ∀ g s, F g s → F' g s) :
    ∀ {evs : List Reg.WEvent} {w : Reg.World}, Reg.AllOfVersions F w evs → Reg.AllOfVersions F' w evs
  | [], _, _ => trivial
  | e :: l, w, ha => by
    refine ⟨?_, AllOfVersions.congr h ha.2⟩
    cases e with
    | launch g s => exact fun hw => ⟨h g s (ha.1 hw).1, (ha.1 hw).2⟩
    | _ => exact ha.1

/-- C112: a script with file generators and any number of toolchains, whose text is edited between runs.  All
its editions `vs` keep to the rules of `NeatEditions`.  Files are edited and deleted, state files are dropped,
builds fail and are killed at any point; a builder whose run was killed is not configured otherwise before a
run of it has stored its state.  Whenever `Reg::Run` returns with success in a run of the edition `v`, and no
file was changed from outside since the process was started

* every target of this edition for every toolchain that is on is what a build from scratch would leave,
  whatever was built before,
* the commands that its generators have in this edition were last run to the end with the present versions
  of their inputs, and
* every target to which another one was given with `AddLibDep` is linked with the present version of it,
  which is the result of its last link; nobody writes that file by hand. -/
theorem C112_built_partial (h : NeatEditions p vs) {evs : List Reg.WEvent} {w : Reg.World}
    (hw : w = (Reg.World.init (kindsIn vs)).steps evs)
    (hal : Reg.AllOfVersions (editions vs) (Reg.World.init (kindsIn vs)) evs)
    (ha : w.active = true) (hcalm : w.calm = true) (hres : (w.step .join).result = some true)
    {v : Edition} (hv : v ∈ vs) (his : v.Is w.graph w.setup) :
    (∀ clean, ∃ n, ∀ k, n ≤ k → ∃ ran,
      calls k ⟨Graph.empty, []⟩ (v.text.calls clean) = .ok ⟨v.text.graph, ran⟩) ∧
    (∀ x ∈ v.parts, ∀ f ∈ x.2, ∃ σ, (w.step .join).comps (targetId x.1.tc.name f.made.name) =
      .target f.made.fixed σ ∧ Clean f.made.fixed σ f.cfg) ∧
    (∀ g ∈ v.gens, ∃ σ, (w.step .join).comps g.name = .gen σ ∧ σ.files = (w.step .join).files ∧
      Reg.Generated σ (ScriptGen.inputs ⟨g.name, g.cfg⟩) (ScriptGen.outputs ⟨g.name, g.cfg⟩) g.commands) ∧
    ∀ x ∈ v.parts, ∀ (i k : Nat) (d : MDecl) (a b : Filled), x.1.targets[k]? = some d →
      .step (.libDep i) ∈ d.steps → x.2[i]? = some a → x.2[k]? = some b →
      (∀ e ∈ evs, (∀ t, e ≠ .edit (outputPath a.made.fixed) t) ∧ e ≠ .delete (outputPath a.made.fixed)) →
      Reg.LinkedWith (w.step .join) (targetId x.1.tc.name a.made.name) (targetId x.1.tc.name b.made.name)
        (outputPath a.made.fixed) := by
  have hpv := h.versions
  have hav := AllOfVersions.congr (fun g s => (h.of g s).1) hal
  obtain ⟨u, hu, e1, e2, e3⟩ := h.version hv
  have his' : u.Is w.graph w.setup := ⟨his.1.trans e1.symm, by rw [e2, e3]; exact his.2⟩
  have key := Reg.C100_project_partial hpv hw hav ha hcalm hres hu his'
  rw [e2, e3] at key
  obtain ⟨junk, list, ord, hord, hr⟩ := h.ran v hv
  obtain ⟨hg, hon, hrun⟩ := multi_parts hr
  have hmem : ∀ x ∈ v.parts, ∀ f ∈ x.2, (⟨f.made, f.cfg, []⟩ : ScriptTarget) ∈ v.targets := fun x hx f hf =>
    List.mem_flatMap.2 ⟨x, hx, List.mem_map_of_mem hf⟩
  have hid : ∀ x ∈ v.parts, ∀ f ∈ x.2, ScriptTarget.id ⟨f.made, f.cfg, []⟩ =
      targetId x.1.tc.name f.made.name := fun x hx f hf => by
    rw [ScriptTarget.id, h.toolchain hv hx hf]
  have hown := h.own hu
  refine ⟨fun clean => C109_accepted (h.neat v hv) (h.place v hv) clean, ?_, ?_, ?_⟩
  · intro x hx f hf
    have := key.1 _ (hmem x hx f hf)
    rw [hid x hx f hf] at this
    exact this
  · intro g hm
    exact Reg.C100_commands_partial hpv hw hav ha hcalm hres hu his' (g := ⟨g.name, g.cfg⟩)
      (by rw [e3]; exact List.mem_map_of_mem hm) ⟨h.fits v hv g hm, gen_data hg hm⟩
  · intro x hx i k d a b hk hs hi hb hand
    have ha' := List.mem_of_getElem? hi
    have hb' := List.mem_of_getElem? hb
    have hxm := h.on hv hx
    obtain ⟨h1, -⟩ := linked_given (hrun x hx) ((h.neat v hv).parts _ hxm) ((h.place v hv).place _ hxm) hk hs hi hb
    have := key.2.2 _ (hmem x hx a ha') _ (hmem x hx b hb') h1
      (fun v' hv' t ht he => hown.names v' hv' _ (by rw [e2]; exact hmem x hx a ha') t ht he)
      (fun v' hv' g hg => hown.targets v' hv' _ (by rw [e2]; exact hmem x hx a ha') g hg) hand
    rw [hid x hx a ha', hid x hx b hb'] at this
    exact this

section
variable {β : Type} {M : Makers β}

theorem AllOfVersionsB.congr {F F' : Reg.Versions} (h : ∀ g s, F g s → F' g s) :
    ∀ {evs : List (BWEvent β)} {b : BWorld β}, Reg.AllOfVersionsB M F b evs → Reg.AllOfVersionsB M F' b evs
  | [], _, _ => trivial
  | e :: l, b, ha => by
    refine ⟨?_, AllOfVersionsB.congr h ha.2⟩
    cases e with
    | launch g s => exact fun hw => ⟨h g s (ha.1 hw).1, (ha.1 hw).2⟩
    | _ => exact ha.1

theorem makes_version {v : Edition} {u : Version} (e2 : u.ts = v.targets) (e3 : u.gs = scriptGens v.gens)
    {q : Str} : u.Makes q ↔ v.Makes q := by
  unfold Version.Makes Edition.Makes
  rw [e2, e3]
  refine or_congr ?_ ?_
  · constructor
    · rintro ⟨t, ht, rfl⟩
      obtain ⟨x, hx, ht⟩ := List.mem_flatMap.1 ht
      obtain ⟨f, hf, rfl⟩ := List.mem_map.1 ht
      exact ⟨x, hx, f, hf, rfl⟩
    · rintro ⟨x, hx, f, hf, rfl⟩
      exact ⟨_, List.mem_flatMap.2 ⟨x, hx, List.mem_map_of_mem hf⟩, rfl⟩
  · constructor
    · rintro ⟨t, ht, hq⟩
      obtain ⟨g, hg, rfl⟩ := List.mem_map.1 ht
      exact ⟨g, hg, hq⟩
    · rintro ⟨g, hg, hq⟩
      exact ⟨_, List.mem_map_of_mem hg, hq⟩

/-- C112: as above, in terms of contents.  Nobody has changed by hand what the edition `v` makes.  Every
program, library and generated file of it holds what one build from scratch of this edition makes of the
contents of the files that it does not make, whatever was built before. -/
theorem C112_contents_partial (h : NeatEditions p vs) {evs : List (BWEvent β)} {b : BWorld β}
    (hb : b = (BWorld.init (kindsIn vs)).steps M evs)
    (hal : Reg.AllOfVersionsB M (editions vs) (BWorld.init (kindsIn vs)) evs)
    (ha : b.world.active = true) (hcalm : b.world.calm = true)
    (hres : (b.step M .join).world.result = some true)
    {v : Edition} (hv : v ∈ vs) (his : v.Is b.world.graph b.world.setup)
    (hand : ∀ e ∈ evs, ∀ q, v.Makes q → (∀ t x, e ≠ .edit q t x) ∧ e ≠ .delete q) :
    ∃ orders : Str → List Str,
      (∀ x ∈ v.parts, ∀ f ∈ x.2, (orders (targetId x.1.tc.name f.made.name)).Perm (paths f.cfg.sources)) ∧
      ∀ o, InOrder v.text.graph o → ∀ q, v.Makes q →
        text (b.step M .join).files q =
          buildAll M (kindsOf v.targets) (setupWith v.targets (scriptGens v.gens)) orders o
            (sourcesOnly (kindsOf v.targets) v.text.graph (setupWith v.targets (scriptGens v.gens)) b.files) q := by
  have hav := AllOfVersionsB.congr (M := M) (fun g s => (h.of g s).1) hal
  obtain ⟨u, hu, e1, e2, e3⟩ := h.version hv
  obtain ⟨orders, h1, h2⟩ := Reg.C101_project_partial h.versions hb hav ha hcalm hres hu
    ⟨his.1.trans e1.symm, by rw [e2, e3]; exact his.2⟩ (h.own hu)
    (fun e he q hq => hand e he q ((makes_version e2 e3).1 hq))
  rw [e1, e2, e3] at h2
  rw [e2] at h1
  refine ⟨orders, ?_, fun o ho q hq => h2 o ho q ((makes_version e2 e3).2 hq)⟩
  intro x hx f hf
  have := h1 ⟨f.made, f.cfg, []⟩ (List.mem_flatMap.2 ⟨x, hx, List.mem_map_of_mem hf⟩)
  rw [ScriptTarget.id, h.toolchain hv hx hf] at this
  exact this

/-- C112: a directory in which the editions `vs` were built, the last one being `v`, and another one in which
the editions `vs'` were built, the last one being `v` too, for example a fresh checkout in which nothing else
was built: when both builds end with success and the files that `v` does not make have the same contents, so
have those that it makes. -/
theorem C112_reproducible_partial {vs' : List Edition} (h : NeatEditions p vs) (h' : NeatEditions p vs')
    {evs evs' : List (BWEvent β)} {b b' : BWorld β}
    (hb : b = (BWorld.init (kindsIn vs)).steps M evs) (hb' : b' = (BWorld.init (kindsIn vs')).steps M evs')
    (hal : Reg.AllOfVersionsB M (editions vs) (BWorld.init (kindsIn vs)) evs)
    (hal' : Reg.AllOfVersionsB M (editions vs') (BWorld.init (kindsIn vs')) evs')
    (ha : b.world.active = true) (ha' : b'.world.active = true)
    (hcalm : b.world.calm = true) (hcalm' : b'.world.calm = true)
    (hres : (b.step M .join).world.result = some true) (hres' : (b'.step M .join).world.result = some true)
    {v : Edition} (hv : v ∈ vs) (hv' : v ∈ vs')
    (hT : Reg.AnyOrder M.tools v.text.graph (setupWith v.targets (scriptGens v.gens)))
    (his : v.Is b.world.graph b.world.setup) (his' : v.Is b'.world.graph b'.world.setup)
    (hand : ∀ e ∈ evs, ∀ q, v.Makes q → (∀ t x, e ≠ .edit q t x) ∧ e ≠ .delete q)
    (hand' : ∀ e ∈ evs', ∀ q, v.Makes q → (∀ t x, e ≠ .edit q t x) ∧ e ≠ .delete q)
    (hsame : ∀ q, isMade (kindsOf v.targets) v.text.graph (setupWith v.targets (scriptGens v.gens)) q = false →
      text b.files q = text b'.files q) :
    ∀ q, v.Makes q → text (b.step M .join).files q = text (b'.step M .join).files q := by
  obtain ⟨n, hc⟩ := C109_accepted (h.neat v hv) (h.place v hv) false
  obtain ⟨ran, hreg⟩ := hc n (Nat.le_refl n)
  let u : Version := ⟨v.text.calls false, ⟨v.text.graph, ran⟩, v.targets, scriptGens v.gens⟩
  have hu : versionIn vs u := ⟨v, hv, ran, ⟨n, hreg⟩, rfl⟩
  have hu' : versionIn vs' u := ⟨v, hv', ran, ⟨n, hreg⟩, rfl⟩
  intro q hq
  exact Reg.C101_reproducible_partial (v := u) hT h.versions h'.versions hb hb'
    (AllOfVersionsB.congr (M := M) (fun g s => (h.of g s).1) hal)
    (AllOfVersionsB.congr (M := M) (fun g s => (h'.of g s).1) hal') ha ha' hcalm hcalm' hres hres' hu hu'
    his his' (h.own hu) (h'.own hu')
    (fun e he q hq => hand e he q ((makes_version (u := u) rfl rfl).1 hq))
    (fun e he q hq => hand' e he q ((makes_version (u := u) rfl rfl).1 hq)) hsame q
    ((makes_version (u := u) rfl rfl).2 hq)

end

end Verif.Sample
