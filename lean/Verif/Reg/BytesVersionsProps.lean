import Verif.Reg.BytesVersions
import Verif.Reg.BytesProject
import Verif.Reg.ScriptsExamples

/-! # What an edited script of targets and generators leaves, in terms of contents (C101) -/

namespace Verif.Reg
open Verif Verif.Schema
open Verif.Target (Project outputPath text paths)
open Verif.Path (Inside)

variable {β : Type} {M : Makers β} {p : Project} {kinds : Str → Kind} {V : Version → Prop}

/-- The programs, libraries and generated files of the version. -/
def Version.Makes (v : Version) (q : Str) : Prop :=
  (∃ t ∈ v.ts, q = t.output) ∨ ∃ g ∈ v.gs, q ∈ g.outputs

/-- The version `v` makes no file twice, and what it makes is made by the same builder in all versions
in which it is made. -/
structure OwnVersion (V : Version → Prop) (v : Version) : Prop where
  once : MadeOnce v.ts v.gs
  /-- A target of `v` has an output of its own in all versions. -/
  names : ∀ v', V v' → ∀ t ∈ v.ts, ∀ t' ∈ v'.ts, t'.id = t.id → OwnName t'
  targets : ∀ v', V v' → ∀ t ∈ v.ts, ∀ g ∈ v'.gs, t.output ∉ g.outputs
  gens : ∀ v', V v' → ∀ g ∈ v.gs, ∀ x ∈ g.cfg, ∀ q ∈ x.2.outputs,
    (∀ t ∈ v'.ts, ¬ Inside t.made.buildDir q) ∧
    ∀ g' ∈ v'.gs, ∀ y ∈ g'.cfg, q ∈ y.2.outputs → g'.name = g.name ∧ y.1 = x.1

theorem buildAll_same {k k' : Str → Kind} {s s' : Str → Setup} {orders : Str → List Str} :
    ∀ (l : List Str) (d : Str → Option β), (∀ j ∈ l, k' j = k j ∧ SameSetup (s' j) (s j)) →
    buildAll M k' s' orders l d = buildAll M k s orders l d := by
  intro l
  induction l with
  | nil => intro d _; rfl
  | cons j l ih =>
    intro d h
    have h1 : buildOne M k' s' orders d j = buildOne M k s orders d j := by
      obtain ⟨h1, h2⟩ := h j List.mem_cons_self
      unfold buildOne
      rw [h1]
      generalize s j = x at h2
      generalize s' j = y at h2
      generalize k j = z
      match x, y, h2 with
      | .target c _, .target c' _, h2 => obtain rfl : c' = c := h2; cases z <;> rfl
      | .gen c, .gen c', h2 => obtain rfl : c' = c := h2; rfl
    show buildAll M k' s' orders l (buildOne M k' s' orders d j) = buildAll M k s orders l (buildOne M k s orders d j)
    rw [h1]
    exact ih _ fun k hk => h k (List.mem_cons_of_mem _ hk)

theorem isMade_same {k k' : Str → Kind} {g : Graph} {s s' : Str → Setup}
    (h : ∀ j ∈ g.ids, k' j = k j ∧ SameSetup (s' j) (s j)) : isMade k' g s' = isMade k g s := by
  funext q
  rw [Bool.eq_iff_iff]
  simp only [isMade, List.any_eq_true, decide_eq_true_eq]
  constructor <;> rintro ⟨j, hj, hq⟩ <;> refine ⟨j, hj, ?_⟩
  · rw [(h j hj).1, outputs_same (h j hj).2] at hq; exact hq
  · rw [(h j hj).1, outputs_same (h j hj).2]; exact hq

theorem products_same {k : Kind} {s s' : Setup} (h : SameSetup s' s) : products k s' = products k s := by
  cases k <;> cases s <;> cases s' <;> first | exact h.elim | rfl | (obtain rfl : _ = _ := h; rfl)

theorem OneMaker.congr {g : Graph} {s s' : Str → Setup} {k k' : Str → Kind} (h : OneMaker k g s)
    (hk : ∀ j ∈ g.ids, k' j = k j ∧ SameSetup (s' j) (s j)) : OneMaker k' g s' where
  others := by
    intro a ha b hb hne q hq
    rw [(hk a ha).1, products_same (hk a ha).2] at hq
    rw [(hk b hb).1, outputs_same (hk b hb).2]
    exact h.others a ha b hb hne q hq
  target := by
    intro a ha fx hx
    rw [(hk a ha).1] at hx
    obtain ⟨h1, h2⟩ := h.target a ha fx hx
    refine ⟨h1, fun c o hs => ?_⟩
    have := (hk a ha).2
    rw [hs] at this
    cases hsa : s a with
    | gen c' => rw [hsa] at this; exact this.elim
    | target c' o' =>
      rw [hsa] at this
      obtain rfl : c = c' := this
      exact h2 c o' hsa
  gen := by
    intro a ha c hs
    have := (hk a ha).2
    rw [hs] at this
    cases hsa : s a with
    | target c' o' => rw [hsa] at this; exact this.elim
    | gen c' =>
      rw [hsa] at this
      obtain rfl : c = c' := this
      exact h.gen a ha c hsa
  reads := by
    intro a ha b hb q hq hq'
    rw [(hk a ha).1, outputs_same (hk a ha).2] at hq
    rw [inputs_same (hk b hb).2] at hq'
    rw [(hk a ha).1, products_same (hk a ha).2]
    exact h.reads a ha b hb q hq hq'

section
variable {evs : List (BWEvent β)}

/-- What the version makes is its own. -/
theorem OwnVersion.own (h : PlainVersions p kinds V) {v : Version} (hv : V v) (ho : OwnVersion V v)
    (hand : ∀ e ∈ evs, ∀ q, v.Makes q → (∀ t x, e ≠ .edit q t x) ∧ e ≠ .delete q) {s : Str → Setup}
    (hs : ∀ j ∈ v.script.graph.ids, SameSetup (s j) (setupWith v.ts v.gs j)) {a id q : Str}
    (hm : Maker kinds v.script.graph s a id q) : OwnProduct kinds (versionsOf V) evs a id q := by
  obtain ⟨-, -, hn⟩ := h.names hv
  obtain ⟨haa, hm⟩ := hm
  have hsa := hs a haa
  rw [h.kind hv haa] at hm
  rcases mem_names ((h.accepted v hv).2.2.mem_iff.1 haa) with ⟨t, ht, rfl⟩ | ⟨x, hx, rfl⟩
  · obtain ⟨kt, st⟩ := target_eq hn ht
    rw [kt] at hm
    rw [st] at hsa
    cases hst : s t.id with
    | gen c => rw [hst] at hsa; exact hsa.elim
    | target c o =>
      rw [hst] at hm
      obtain rfl : outputPath t.made.fixed = q := hm
      have pt := (h.plain v hv).placed ht
      have hin : Inside t.made.buildDir t.output := by
        rw [pt.output.1]
        have := plain_ext pt.name pt.ext
        exact inside_name this.2.2.1 this.2.2.2
      have hkt : kinds t.id = .target t.made.fixed := (h.targets _ _).2 ⟨v, t, hv, ht, rfl, rfl⟩
      refine ⟨?_, ?_, ?_, fun e he => hand e he _ (.inl ⟨t, ht, rfl⟩)⟩
      · rintro g s' ⟨v', hv', rfl, hs'⟩ j hj hne hq
        obtain ⟨-, -, hn'⟩ := h.names hv'
        rw [outputs_same (hs' j hj), h.kind hv' hj] at hq
        rcases mem_names ((h.accepted v' hv').2.2.mem_iff.1 hj) with ⟨u, hu, rfl⟩ | ⟨y, hy, rfl⟩
        · obtain ⟨ku, su⟩ := target_eq hn' hu
          rw [ku, su] at hq
          have pu := (h.plain v' hv').placed hu
          exact hne (pu.same pt (pu.outputs hq) hin)
        · rw [(gen_eq hn' hy).1, (gen_eq hn' hy).2] at hq
          exact ho.targets v' hv' t ht y hy hq
      · intro fx hfx
        rw [hkt] at hfx
        cases hfx
        refine ⟨rfl, (ho.names v hv t ht t ht rfl).2, ?_⟩
        intro c hc r hr
        obtain ⟨v', t', h1, h2, h3, rfl⟩ := h.target hc
        have hf : t'.made.fixed = t.made.fixed := by
          have := (h.targets t.id t'.made.fixed).2 ⟨v', t', h1, h2, h3, rfl⟩
          rw [hkt] at this
          exact (Kind.target.inj this).symm
        have := (ho.names v' h1 t ht t' h2 h3).1 r hr
        rw [ScriptTarget.output, hf] at this
        exact this
      · intro hg
        rw [hkt] at hg
        cases hg
  · rw [(gen_eq hn hx).1] at hm
    rw [(gen_eq hn hx).2] at hsa
    cases hst : s x.name with
    | target c o => rw [hst] at hsa; exact hsa.elim
    | gen c =>
      rw [hst] at hm hsa
      obtain rfl : c = x.cfg := hsa
      obtain ⟨i, hi, hq⟩ := hm
      have hkx := h.gens v hv x hx
      refine ⟨?_, ?_, ?_, fun e he => hand e he _ (.inr ⟨x, hx, List.mem_flatMap.2 ⟨_, hi, hq⟩⟩)⟩
      · rintro g s' ⟨v', hv', rfl, hs'⟩ j hj hne hqj
        obtain ⟨-, -, hn'⟩ := h.names hv'
        rw [outputs_same (hs' j hj), h.kind hv' hj] at hqj
        obtain ⟨g1, g2⟩ := ho.gens v' hv' x hx _ hi q hq
        rcases mem_names ((h.accepted v' hv').2.2.mem_iff.1 hj) with ⟨u, hu, rfl⟩ | ⟨y, hy, rfl⟩
        · obtain ⟨ku, su⟩ := target_eq hn' hu
          rw [ku, su] at hqj
          exact g1 u hu (((h.plain v' hv').placed hu).outputs hqj)
        · rw [(gen_eq hn' hy).1, (gen_eq hn' hy).2] at hqj
          obtain ⟨z, hz, hqz⟩ := List.mem_flatMap.1 hqj
          exact hne (g2 y hy z hz hqz).1
      · intro fx hfx
        rw [hkx] at hfx
        cases hfx
      · intro _ c hc y hy hqy
        obtain ⟨v', g', h1, h2, h3, rfl⟩ := h.gen hc
        exact ((ho.gens v' h1 x hx _ hi q hq).2 g' h2 y hy hqy).2

/-- C101 for scripts made of targets and generators that keep to the rules of `PlainVersions`.  When
version `v` of the script was built with success, every target and every generated file of it holds what
one build from scratch of this version makes of the contents of the files that it does not make, no
matter which versions were built before. -/
theorem C101_project_partial {b : BWorld β} (h : PlainVersions p kinds V)
    (hb : b = (BWorld.init kinds).steps M evs)
    (hal : AllOfVersionsB M (versionsOf V) (BWorld.init kinds) evs)
    (ha : b.world.active = true) (hcalm : b.world.calm = true)
    (hres : (b.step M .join).world.result = some true)
    {v : Version} (hv : V v) (his : v.Is b.world.graph b.world.setup) (ho : OwnVersion V v)
    (hand : ∀ e ∈ evs, ∀ q, v.Makes q → (∀ t x, e ≠ .edit q t x) ∧ e ≠ .delete q) :
    ∃ orders : Str → List Str, (∀ t ∈ v.ts, (orders t.id).Perm (paths t.cfg.sources)) ∧
      ∀ o, InOrder v.script.graph o → ∀ q, v.Makes q →
        text (b.step M .join).files q = buildAll M (kindsOf v.ts) (setupWith v.ts v.gs) orders o
          (sourcesOnly (kindsOf v.ts) v.script.graph (setupWith v.ts v.gs) b.files) q := by
  obtain ⟨hval, hac, hn⟩ := h.names hv
  obtain ⟨hg, hs⟩ := his
  have hids := (h.accepted v hv).2.2
  rw [hg] at hs
  have hsame : ∀ j ∈ v.script.graph.ids, kinds j = kindsOf v.ts j ∧
      SameSetup (b.world.setup j) (setupWith v.ts v.gs j) := fun j hj => ⟨h.kind hv hj, hs j hj⟩
  have hone := ((h.plain v hv).oneMaker hval hids ho.once).congr hsame
  obtain ⟨-, orders, h1, h2⟩ := C101_contents_partial hb h.sound hal (by rw [hg]; exact hone)
    (fun a id q hm => ho.own h hv hand hs (by rw [hg] at hm; exact hm)) ha hcalm hres
  rw [hg] at h1 h2
  have hmt : ∀ t ∈ v.ts, t.id ∈ v.script.graph.ids := fun t ht =>
    hids.mem_iff.2 (List.mem_append.2 (.inl (List.mem_map_of_mem ht)))
  have hmg : ∀ g ∈ v.gs, g.name ∈ v.script.graph.ids := fun g hg =>
    hids.mem_iff.2 (List.mem_append.2 (.inr (List.mem_map_of_mem hg)))
  refine ⟨orders, ?_, ?_⟩
  · intro t ht
    have := hs t.id (hmt t ht)
    rw [(target_eq hn ht).2] at this
    cases hst : b.world.setup t.id with
    | gen c => rw [hst] at this; exact this.elim
    | target c o =>
      rw [hst] at this
      obtain rfl : c = t.cfg := this
      exact h1 t.id (hmt t ht) _ _ hst
  · intro o hor q hq
    have hsrc : sourcesOnly kinds v.script.graph b.world.setup b.files =
        sourcesOnly (kindsOf v.ts) v.script.graph (setupWith v.ts v.gs) b.files := by
      unfold sourcesOnly
      rw [isMade_same hsame]
    have hall := buildAll_same (M := M) (orders := orders) o
      (sourcesOnly kinds v.script.graph b.world.setup b.files)
      fun j hj => hsame j (hor.all.mem_iff.1 hj)
    rw [← hsrc, ← hall]
    rcases hq with ⟨t, ht, rfl⟩ | ⟨g, hg, hq⟩
    · refine h2 o hor t.id (hmt t ht) _ ?_
      rw [(hsame _ (hmt t ht)).1, products_same (hsame _ (hmt t ht)).2, (target_eq hn ht).1, (target_eq hn ht).2]
      exact List.mem_singleton.2 rfl
    · refine h2 o hor g.name (hmg g hg) q ?_
      rw [(hsame _ (hmg g hg)).1, products_same (hsame _ (hmg g hg)).2, (gen_eq hn hg).1, (gen_eq hn hg).2]
      exact hq

end

/-- C101: what a version of a script leaves does not depend on the versions that were built before.  A
directory in which any versions `V` were built, the last one being `v`, and another one in which any
versions `V'` were built, for example only `v`, and only once: when both builds end with success and the
files that `v` does not make have the same contents, so have those that it makes. -/
theorem C101_reproducible_partial {p' : Project} {kinds' : Str → Kind} {V' : Version → Prop}
    {evs evs' : List (BWEvent β)} {b b' : BWorld β} {v : Version}
    (hT : AnyOrder M.tools v.script.graph (setupWith v.ts v.gs))
    (h : PlainVersions p kinds V) (h' : PlainVersions p' kinds' V')
    (hb : b = (BWorld.init kinds).steps M evs) (hb' : b' = (BWorld.init kinds').steps M evs')
    (hal : AllOfVersionsB M (versionsOf V) (BWorld.init kinds) evs)
    (hal' : AllOfVersionsB M (versionsOf V') (BWorld.init kinds') evs')
    (ha : b.world.active = true) (ha' : b'.world.active = true)
    (hcalm : b.world.calm = true) (hcalm' : b'.world.calm = true)
    (hres : (b.step M .join).world.result = some true) (hres' : (b'.step M .join).world.result = some true)
    (hv : V v) (hv' : V' v) (his : v.Is b.world.graph b.world.setup)
    (his' : v.Is b'.world.graph b'.world.setup) (ho : OwnVersion V v) (ho' : OwnVersion V' v)
    (hand : ∀ e ∈ evs, ∀ q, v.Makes q → (∀ t x, e ≠ .edit q t x) ∧ e ≠ .delete q)
    (hand' : ∀ e ∈ evs', ∀ q, v.Makes q → (∀ t x, e ≠ .edit q t x) ∧ e ≠ .delete q)
    (hsame : ∀ q, isMade (kindsOf v.ts) v.script.graph (setupWith v.ts v.gs) q = false →
      text b.files q = text b'.files q) :
    ∀ q, v.Makes q → text (b.step M .join).files q = text (b'.step M .join).files q := by
  obtain ⟨o, h1, h2⟩ := C101_project_partial h hb hal ha hcalm hres hv his ho hand
  obtain ⟨o', h1', h2'⟩ := C101_project_partial h' hb' hal' ha' hcalm' hres' hv' his' ho' hand'
  obtain ⟨hval, hac, hn⟩ := h.names hv
  have hids := (h.accepted v hv).2.2
  obtain ⟨l, hl⟩ := inOrder_exists hval hac
  intro q hq
  rw [h2 l hl q hq, h2' l hl q hq]
  have hsrc : sourcesOnly (kindsOf v.ts) v.script.graph (setupWith v.ts v.gs) b.files =
      sourcesOnly (kindsOf v.ts) v.script.graph (setupWith v.ts v.gs) b'.files := by
    funext q
    simp only [sourcesOnly]
    split
    · rfl
    · rename_i hq
      exact hsame q (by simpa using hq)
  have hperm : ∀ o : Str → List Str, (∀ t ∈ v.ts, (o t.id).Perm (paths t.cfg.sources)) →
      ∀ j ∈ v.script.graph.ids, ∀ c x, setupWith v.ts v.gs j = .target c x → (o j).Perm (paths c.sources) := by
    intro o ho j hj c x hs
    rcases mem_names (hids.mem_iff.1 hj) with ⟨t, ht, rfl⟩ | ⟨y, hy, rfl⟩
    · rw [(target_eq hn ht).2] at hs
      cases hs
      exact ho t ht
    · rw [(gen_eq hn hy).2] at hs
      cases hs
  rw [hsrc, buildAll_orders hT (hperm o h1) (hperm o' h1') l _ fun k hk => hl.all.mem_iff.1 hk]

end Verif.Reg
