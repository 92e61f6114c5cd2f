import Verif.Reg.Scripts
import Verif.Reg.MixedProps

/-! # Builds of a script that is edited between builds (C100) -/

namespace Verif.Reg
open Verif Verif.Schema Verif.Toolchain Verif.Path
open Verif.Target (Fixed objPath outputPath paths Project Made targetGeneric PlainExt Clean containsCpp)

/-- C100: a build script is run again and again, and edited between builds (`SoundVersions`,
`OfVersions`): flags, sources, libraries and dependencies are added and removed, and so are targets and
generators.  Whenever `Reg::Run` returns with success and no file was changed from outside since the
process was started

* every builder of the present version of the script is up to date, and
* a target that was given the output of another target with `AddLibDep` is linked with the present
  version of it, which is the result of the last link of that target.

Missing: a builder that is configured otherwise after a run of it was killed, for which it is false
(`C100_killed_false`), targets that change their toolchain or directories (C57), and what `Family`
excludes. -/
theorem C100_versions_partial {kinds : Str → Kind}
    {means : Str → Str → Generator.Blob → Generator.Blob → Prop} {F : Versions} {evs : List WEvent}
    {w : World} (hw : w = (World.init kinds).steps evs) (hv : SoundVersions kinds means F)
    (hal : AllOfVersions F (World.init kinds) evs) (ha : w.active = true) (hcalm : w.calm = true)
    (hres : (w.step .join).result = some true) :
    F w.graph w.setup ∧
    (∀ j ∈ w.graph.ids, UpToDate (versionRules means F) j (w.setup j) ((w.step .join).comps j)) ∧
    ∀ a ∈ w.graph.ids, ∀ b ∈ w.graph.ids, ∀ fx c o, OwnedAlways kinds F evs a fx →
      w.setup b = .target c o → outputPath fx ∈ paths c.libs →
      LinkedWith (w.step .join) a b (outputPath fx) := by
  obtain ⟨hI, hA⟩ := versionsInv_steps hv evs _ (versionsInv_init hv) hal
  rw [← hw] at hI
  refine ⟨hI.plan ha, C40_up_to_date_partial hw hv.shipped hv.gens hA ha hcalm hres, ?_⟩
  intro a haa b hbb fx c o ho hst hp
  exact (C40_linked_partial (r := versionRules means F) hw hv.shipped hv.gens hA ha hcalm hres haa hbb ho.kind hst hp
    (allKeeps_version hv ho evs _ (fun _ h => h) (versionsInv_init hv) hal)).1

/-! ## Scripts made of targets and generators -/

/-- A version of a script: the calls of `Reg` it makes and what they leave, its targets and its
generators. -/
structure Version where
  calls : List Call
  script : Script
  ts : List ScriptTarget
  gs : List ScriptGen

/-- The process registered and configured what this version says. -/
def Version.Is (v : Version) (g : Graph) (s : Str → Setup) : Prop :=
  g = v.script.graph ∧ ∀ j ∈ g.ids, SameSetup (s j) (setupWith v.ts v.gs j)

/-- The versions `V` of a script keep to these rules. -/
structure PlainVersions (p : Project) (kinds : Str → Kind) (V : Version → Prop) : Prop where
  /-- Each version is accepted by `Reg::Build` and `Reg::Dep`, and no builder is declared to depend on
  itself. -/
  accepted : ∀ v, V v → (∃ n, calls n ⟨Graph.empty, []⟩ v.calls = .ok v.script) ∧
    (∀ c ∈ v.calls, c.selfDep = false) ∧ v.script.graph.ids.Perm (Names v.ts v.gs)
  /-- Each version keeps to the rules for one script. -/
  plain : ∀ v, V v → PlainProject p v.ts v.gs v.script.graph.edges
  /-- Different sources of a target have different object files, also when they are sources of different
  versions. -/
  objects : ∀ v v', V v → V v' → ∀ t ∈ v.ts, ∀ t' ∈ v'.ts, t.id = t'.id → ∀ a ∈ paths t.cfg.sources,
    ∀ b ∈ paths t'.cfg.sources, objPath t.made.fixed a = objPath t.made.fixed b → a = b
  /-- A target has the same directories, toolchain and kind in all versions. -/
  targets : ∀ j fx, kinds j = .target fx ↔ ∃ v t, V v ∧ t ∈ v.ts ∧ t.id = j ∧ t.made.fixed = fx
  /-- No name is that of a target in one version and that of a generator in another one. -/
  gens : ∀ v, V v → ∀ g ∈ v.gs, kinds g.name = .gen
  /-- A target has a precompiled header in all versions or in none, always in the same language. -/
  pch : ∀ v v', V v → V v' → ∀ t ∈ v.ts, ∀ t' ∈ v'.ts, t.id = t'.id →
    (t.cfg.pchs = [] ↔ t'.cfg.pchs = []) ∧
    (t.cfg.pchs ≠ [] → containsCpp t.made.fixed t.cfg = containsCpp t.made.fixed t'.cfg)
  /-- An id of a generator has data in all versions or in none. -/
  handlers : ∀ v v', V v → V v' → ∀ g ∈ v.gs, ∀ g' ∈ v'.gs, g.name = g'.name → ∀ id i i',
    Generator.find id g.cfg = some i → Generator.find id g'.cfg = some i' → i.handler = none →
    i'.handler = none
  /-- Data of two versions that the handler finds equal is equal. -/
  data : ∀ v v', V v → V v' → ∀ g ∈ v.gs, ∀ g' ∈ v'.gs, g.name = g'.name → ∀ id i i' h a b,
    Generator.find id g.cfg = some i → Generator.find id g'.cfg = some i' → i.handler = some h →
    Generator.blobOf i'.handler = some a → Generator.blobOf i.handler = some b →
    h.isEqual a b = some true → a = b

/-- What the versions register and configure. -/
def versionsOf (V : Version → Prop) : Versions := fun g s => ∃ v, V v ∧ v.Is g s

section
variable {p : Project} {kinds : Str → Kind} {V : Version → Prop}

theorem SoundScript.congr {g : Graph} {s s' : Str → Setup} {k k' : Str → Kind} (h : SoundScript k g s)
    (hk : ∀ j ∈ g.ids, k' j = k j) (hs : ∀ j ∈ g.ids, SameSetup (s' j) (s j)) (hsh : ShippedAll k') :
    SoundScript k' g s' where
  shipped := hsh
  valid := h.valid
  acyclic := h.acyclic
  declared := by
    intro a ha b hb q hq hq'
    rw [hk a ha, outputs_same (hs a ha)] at hq
    rw [inputs_same (hs b hb)] at hq'
    exact h.declared a ha b hb q hq hq'
  fits := by
    intro j hj
    have h1 := h.fits j hj
    have h2 := hs j hj
    rw [hk j hj]
    revert h1 h2
    cases k j <;> cases s j <;> cases s' j <;> intro h1 h2 <;> first | exact h1.elim | exact h2.elim | skip
    · obtain rfl : _ = _ := h2; exact h1
    · trivial

theorem PlainVersions.names (h : PlainVersions p kinds V) {v : Version} (hv : V v) :
    Valid v.script.graph ∧ Acyclic v.script.graph.edges ∧ (Names v.ts v.gs).Nodup := by
  obtain ⟨⟨n, h1⟩, h2, h3⟩ := h.accepted v hv
  have hval := C37_valid n _ _ h1
  exact ⟨hval, C37_acyclic_partial n _ _ h1 h2, h3.nodup hval.ids⟩

theorem PlainVersions.kind (h : PlainVersions p kinds V) {v : Version} (hv : V v) {j : Str}
    (hj : j ∈ v.script.graph.ids) : kinds j = kindsOf v.ts j := by
  obtain ⟨-, -, hn⟩ := h.names hv
  rcases mem_names ((h.accepted v hv).2.2.mem_iff.1 hj) with ⟨t, ht, rfl⟩ | ⟨x, hx, rfl⟩
  · rw [(target_eq hn ht).1]
    exact (h.targets _ _).2 ⟨v, t, hv, ht, rfl, rfl⟩
  · rw [(gen_eq hn hx).1, h.gens v hv x hx]

/-- A configuration of a target is that of a target of a version. -/
theorem PlainVersions.target (h : PlainVersions p kinds V) {j : Str} {c : TargetSchema}
    (hc : (versionsOf V).target j c) : ∃ v t, V v ∧ t ∈ v.ts ∧ t.id = j ∧ t.cfg = c := by
  obtain ⟨g, s, o, ⟨v, hv, rfl, hs⟩, hj, hst⟩ := hc
  obtain ⟨-, -, hn⟩ := h.names hv
  have h1 := hs j hj
  rw [hst] at h1
  rcases mem_names ((h.accepted v hv).2.2.mem_iff.1 hj) with ⟨t, ht, rfl⟩ | ⟨x, hx, rfl⟩
  · rw [(target_eq hn ht).2] at h1
    exact ⟨v, t, hv, ht, rfl, (show c = t.cfg from h1).symm⟩
  · rw [(gen_eq hn hx).2] at h1; exact h1.elim

theorem PlainVersions.gen (h : PlainVersions p kinds V) {j : Str} {c : Generator.Cfg}
    (hc : (versionsOf V).gen j c) : ∃ v g, V v ∧ g ∈ v.gs ∧ g.name = j ∧ g.cfg = c := by
  obtain ⟨g, s, ⟨v, hv, rfl, hs⟩, hj, hst⟩ := hc
  obtain ⟨-, -, hn⟩ := h.names hv
  have h1 := hs j hj
  rw [hst] at h1
  rcases mem_names ((h.accepted v hv).2.2.mem_iff.1 hj) with ⟨t, ht, rfl⟩ | ⟨x, hx, rfl⟩
  · rw [(target_eq hn ht).2] at h1; exact h1.elim
  · rw [(gen_eq hn hx).2] at h1
    exact ⟨v, x, hv, hx, rfl, (show c = x.cfg from h1).symm⟩

theorem PlainVersions.shipped (h : PlainVersions p kinds V) : ShippedAll kinds := by
  intro j fx hk
  obtain ⟨v, t, hv, ht, -, rfl⟩ := (h.targets j fx).1 hk
  exact ((h.plain v hv).placed ht).shipped

/-- Versions that keep to the rules are sound. -/
theorem PlainVersions.sound (h : PlainVersions p kinds V) :
    SoundVersions kinds (fun _ _ a b => a = b) (versionsOf V) where
  shipped := h.shipped
  sound := by
    rintro g s ⟨v, hv, rfl, hs⟩
    obtain ⟨h1, h2, -⟩ := h.names hv
    exact ((h.plain v hv).sound h1 h2 (h.accepted v hv).2.2).congr (fun j hj => h.kind hv hj) hs h.shipped
  targets := by
    intro j fx hk
    have hfx : ∀ {c}, (versionsOf V).target j c →
        ∃ v t, V v ∧ t ∈ v.ts ∧ t.id = j ∧ t.cfg = c ∧ t.made.fixed = fx := by
      intro c hc
      obtain ⟨v, t, h1, h2, h3, h4⟩ := h.target hc
      refine ⟨v, t, h1, h2, h3, h4, ?_⟩
      have := (h.targets j t.made.fixed).2 ⟨v, t, h1, h2, h3, rfl⟩
      rw [hk] at this
      exact (Kind.target.inj this).symm
    refine ⟨?_, ?_, ?_, ?_⟩
    · intro c hc
      obtain ⟨v, t, h1, h2, -, rfl, -⟩ := hfx hc
      exact ((h.plain v h1).sources t h2).1
    · intro a b ha hb x hx y hy hxy
      obtain ⟨v, t, h1, h2, i1, rfl, f1⟩ := hfx ha
      obtain ⟨v', t', h1', h2', i2, rfl, -⟩ := hfx hb
      rw [← f1] at hxy
      exact h.objects v v' h1 h1' t h2 t' h2' (i1.trans i2.symm) x hx y hy hxy
    · intro a b ha hb hn hn'
      obtain ⟨v, t, h1, h2, e1, rfl, -⟩ := hfx ha
      obtain ⟨v', t', h1', h2', e2, rfl, -⟩ := hfx hb
      exact absurd ((h.pch v v' h1 h1' t h2 t' h2' (e1.trans e2.symm)).1.2 hn') hn
    · intro a b ha hb hn _ _
      obtain ⟨v, t, h1, h2, e1, rfl, f1⟩ := hfx ha
      obtain ⟨v', t', h1', h2', e2, rfl, -⟩ := hfx hb
      rw [← f1]
      exact (h.pch v v' h1 h1' t h2 t' h2' (e1.trans e2.symm)).2 hn
  gens := by
    intro j
    refine ⟨fun _ _ => rfl, fun _ _ _ _ h1 h2 => h1.trans h2, ?_, ?_⟩
    · intro c c' hc hc' id i i' hh a b hi hi' hh' ha hb he
      obtain ⟨v, g, h1, h2, e1, rfl⟩ := h.gen hc
      obtain ⟨v', g', h1', h2', e2, rfl⟩ := h.gen hc'
      exact h.data v v' h1 h1' g h2 g' h2' (e1.trans e2.symm) id i i' hh a b hi hi' hh' ha hb he
    · intro c c' hc hc' id i i' hi hi' hh
      obtain ⟨v, g, h1, h2, e1, rfl⟩ := h.gen hc
      obtain ⟨v', g', h1', h2', e2, rfl⟩ := h.gen hc'
      exact h.handlers v v' h1 h1' g h2 g' h2' (e1.trans e2.symm) id i i' hi hi' hh

/-- C100 for scripts made of targets and generators that keep to the rules of `PlainVersions`.  When
version `v` of the script was built with success,

* every target of it is what a build from scratch would leave;
* for every id of its generators the last callback succeeded and was given the present versions of the
  inputs, the outputs and the data of the id;
* every target that links the output of another target is linked with the present version of it, which
  is the result of its last link; nobody writes that output by hand, nor does a generator of another
  version. -/
theorem C100_project_partial {evs : List WEvent} {w : World} (h : PlainVersions p kinds V)
    (hw : w = (World.init kinds).steps evs) (hal : AllOfVersions (versionsOf V) (World.init kinds) evs)
    (ha : w.active = true) (hcalm : w.calm = true) (hres : (w.step .join).result = some true)
    {v : Version} (hv : V v) (his : v.Is w.graph w.setup) :
    (∀ t ∈ v.ts, ∃ σ, (w.step .join).comps t.id = .target t.made.fixed σ ∧ Clean t.made.fixed σ t.cfg) ∧
    (∀ g ∈ v.gs, ∃ σ, (w.step .join).comps g.name = .gen σ ∧
      ∀ id i, Generator.find id g.cfg = some i → Generator.Current (fun _ a b => a = b) σ id i) ∧
    ∀ a ∈ v.ts, ∀ b ∈ v.ts, a.output ∈ paths b.cfg.libs →
      (∀ v', V v' → ∀ t ∈ v'.ts, t.id = a.id → OwnName t) →
      (∀ v', V v' → ∀ g ∈ v'.gs, a.output ∉ g.outputs) →
      (∀ e ∈ evs, (∀ t, e ≠ .edit a.output t) ∧ e ≠ .delete a.output) →
      LinkedWith (w.step .join) a.id b.id a.output := by
  obtain ⟨-, hup, hlink⟩ := C100_versions_partial hw h.sound hal ha hcalm hres
  obtain ⟨-, -, hn⟩ := h.names hv
  obtain ⟨hg, hs⟩ := his
  have hids := (h.accepted v hv).2.2
  rw [hg] at hup hlink hs
  have hmt : ∀ t ∈ v.ts, t.id ∈ v.script.graph.ids := fun t ht =>
    hids.mem_iff.2 (List.mem_append.2 (.inl (List.mem_map_of_mem ht)))
  have hmg : ∀ g ∈ v.gs, g.name ∈ v.script.graph.ids := fun g hg =>
    hids.mem_iff.2 (List.mem_append.2 (.inr (List.mem_map_of_mem hg)))
  have hof : ∀ j, OfKind (kinds j) ((w.step .join).comps j) := by
    intro j
    rw [hw]
    exact ofKind_step _ (ofKind_steps evs _ (OfKind.init _))
  refine ⟨fun t ht => ?_, fun g hg => ?_, ?_⟩
  · have := upToDate_same (hs t.id (hmt t ht)) (hup t.id (hmt t ht))
    obtain ⟨k, st⟩ := target_eq hn ht
    rw [st] at this
    have hk := hof t.id
    rw [h.kind hv (hmt t ht), k] at hk
    cases hc : (w.step .join).comps t.id with
    | gen σ => rw [hc] at this; exact this.elim
    | target fx σ =>
      rw [hc] at this hk
      obtain rfl : fx = t.made.fixed := hk
      exact ⟨σ, rfl, this⟩
  · have := upToDate_same (hs g.name (hmg g hg)) (hup g.name (hmg g hg))
    rw [(gen_eq hn hg).2] at this
    cases hc : (w.step .join).comps g.name with
    | gen σ => rw [hc] at this; exact ⟨σ, rfl, this⟩
    | target fx σ => rw [hc] at this; exact this.elim
  · intro a haa b hbb hlib hown hgen hand
    have hb := hs b.id (hmt b hbb)
    rw [(target_eq hn hbb).2] at hb
    cases hst : w.setup b.id with
    | gen c => rw [hst] at hb; exact hb.elim
    | target c o =>
      rw [hst] at hb
      obtain rfl : c = b.cfg := hb
      have ka : kinds a.id = .target a.made.fixed := by rw [h.kind hv (hmt a haa), (target_eq hn haa).1]
      have pa := (h.plain v hv).placed haa
      have hin' : Inside a.made.buildDir a.output := by
        rw [pa.output.1]
        have := plain_ext pa.name pa.ext
        exact inside_name this.2.2.1 this.2.2.2
      refine hlink a.id (hmt a haa) b.id (hmt b hbb) a.made.fixed b.cfg o ?_ hst hlib
      refine ⟨ka, ?_, (hown v hv a haa rfl).2, ?_, hand⟩
      · rintro g s ⟨v', hv', rfl, hs'⟩ j hj hne hq
        obtain ⟨-, -, hn'⟩ := h.names hv'
        rw [outputs_same (hs' j hj), h.kind hv' hj] at hq
        rcases mem_names ((h.accepted v' hv').2.2.mem_iff.1 hj) with ⟨t, ht, rfl⟩ | ⟨x, hx, rfl⟩
        · obtain ⟨kt, st⟩ := target_eq hn' ht
          rw [kt, st] at hq
          have pt := (h.plain v' hv').placed ht
          exact hne (pt.same pa (pt.outputs hq) hin')
        · rw [(gen_eq hn' hx).1, (gen_eq hn' hx).2] at hq
          exact hgen v' hv' x hx hq
      · intro c hc q hq
        obtain ⟨v', t, h1, h2, h3, rfl⟩ := h.target hc
        have hf : t.made.fixed = a.made.fixed := by
          have := (h.targets a.id t.made.fixed).2 ⟨v', t, h1, h2, h3, rfl⟩
          rw [ka] at this
          exact (Kind.target.inj this).symm
        have := (hown v' h1 t h2 h3).1 q hq
        rw [ScriptTarget.output, hf] at this
        exact this

/-- A file generator: made by `FileGenerator` with these inputs, outputs and commands. -/
def IsFileGen (g : ScriptGen) (commands : List Str) : Prop :=
  Generator.Fits commands ∧ ∃ cmd ins outs, Generator.fileCfg cmd ins outs commands = some g.cfg

/-- For file generators the two rules about data hold. -/
theorem fileGens_data {g g' : ScriptGen} {commands commands' : List Str} (h : IsFileGen g commands)
    (h' : IsFileGen g' commands') : ∀ id i i', Generator.find id g.cfg = some i →
      Generator.find id g'.cfg = some i' → (i.handler = none → i'.handler = none) ∧
      ∀ hd a b, i.handler = some hd → Generator.blobOf i'.handler = some a →
        Generator.blobOf i.handler = some b → hd.isEqual a b = some true → a = b := by
  intro id i i' hi hi'
  obtain ⟨hf, _, _, _, hc⟩ := h
  obtain ⟨hf', _, _, _, hc'⟩ := h'
  obtain ⟨x, y, -, -, e⟩ := Generator.fileCfg_some hc
  obtain ⟨x', y', -, -, e'⟩ := Generator.fileCfg_some hc'
  rw [e] at hi
  rw [e'] at hi'
  have m := Generator.find_mem hi
  have m' := Generator.find_mem hi'
  simp only [List.mem_singleton, Prod.mk.injEq] at m m'
  obtain ⟨-, rfl⟩ := m
  obtain ⟨-, rfl⟩ := m'
  refine ⟨fun h => by simp at h, ?_⟩
  intro hd a b h1 ha hb he
  simp only [Option.some.injEq] at h1
  subst h1
  simp only [Generator.blobOf, (Generator.C36_roundtrip hf).1, (Generator.C36_roundtrip hf').1,
    Option.some.injEq] at ha hb
  obtain ⟨z, h2, h3⟩ := Generator.typed_equal he
  rw [← ha, Generator.deserialize_encode hf'] at h2
  rw [← hb, Generator.deserialize_encode hf] at h3
  rw [← ha, ← hb, Option.some.inj (h2.trans h3.symm)]

/-- C100, for a file generator: the commands of the present version of the script were last run to the
end, with the present versions of its inputs. -/
theorem C100_commands_partial {evs : List WEvent} {w : World} (h : PlainVersions p kinds V)
    (hw : w = (World.init kinds).steps evs) (hal : AllOfVersions (versionsOf V) (World.init kinds) evs)
    (ha : w.active = true) (hcalm : w.calm = true) (hres : (w.step .join).result = some true)
    {v : Version} (hv : V v) (his : v.Is w.graph w.setup) {g : ScriptGen} (hg : g ∈ v.gs)
    {commands : List Str} (hc : IsFileGen g commands) :
    ∃ σ, (w.step .join).comps g.name = .gen σ ∧ σ.files = (w.step .join).files ∧
      Generated σ g.inputs g.outputs commands := by
  obtain ⟨hf, _, _, _, hc⟩ := hc
  obtain ⟨σ, h1, h2⟩ := (C100_project_partial h hw hal ha hcalm hres hv his).2.1 g hg
  have hview := views_steps (w := w.step .join) (kinds := kinds) (evs := evs ++ [.join])
    (by rw [hw]; simp [World.steps]) g.name
  rw [h1] at hview
  obtain ⟨i, o, -, -, e⟩ := Generator.fileCfg_some hc
  obtain ⟨k, b, k1, k2, k3, k4, k5, rfl⟩ := h2 b!"Generate" ⟨i, o, some (Generator.typedHandler commands)⟩
    (by rw [e]; simp [Generator.find])
  refine ⟨σ, h1, hview, k, k1, k2, ?_, ?_, ?_⟩
  · rw [k3, ScriptGen.inputs, e]; simp
  · rw [k4, ScriptGen.outputs, e]; simp
  · intro sys
    have hb := (Generator.C36_roundtrip hf)
    simp only [Generator.blobOf, hb.1, Option.some.injEq] at k5
    rw [Generator.fileCb, ← k5, hb.2]; rfl

end

end Verif.Reg
