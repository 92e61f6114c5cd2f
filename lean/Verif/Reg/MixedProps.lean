import Verif.Reg.MixedSpec
import Verif.Reg.ProjectProps
import Verif.Generator.FileProps

/-! # Builds of scripts made of targets and generators (C88) -/

namespace Verif.Reg
open Verif Verif.Schema Verif.Toolchain Verif.Path
open Verif.Target (Fixed objPath outputPath paths Project Made targetGeneric PlainExt Clean)

variable {p : Project} {ts : List ScriptTarget} {gs : List ScriptGen}

theorem PlainProject.placed {deps : List (Str × Str)} (h : PlainProject p ts gs deps)
    {t : ScriptTarget} (ht : t ∈ ts) : Placed p t :=
  .of h.build (h.made t ht) (h.names t ht) (h.exts t ht)

theorem find_name (hn : (gs.map ScriptGen.name).Nodup) {g : ScriptGen} (hg : g ∈ gs) :
    gs.find? (·.name = g.name) = some g := by
  induction gs with
  | nil => simp at hg
  | cons a l ih =>
    simp only [List.map_cons, List.nodup_cons] at hn
    rcases List.mem_cons.1 hg with rfl | h
    · simp
    · rw [List.find?_cons_of_neg]
      · exact ih hn.2 h
      · simp only [decide_eq_true_eq]
        intro e
        exact hn.1 (e ▸ List.mem_map_of_mem h)

/-- The builders of the script are registered under different names. -/
abbrev Names (ts : List ScriptTarget) (gs : List ScriptGen) : List Str :=
  ts.map ScriptTarget.id ++ gs.map ScriptGen.name

theorem target_eq (hn : (Names ts gs).Nodup) {t : ScriptTarget} (ht : t ∈ ts) :
    kindsOf ts t.id = .target t.made.fixed ∧ setupWith ts gs t.id = .target t.cfg t.order := by
  have := List.nodup_append.1 hn
  rw [kindsOf, setupWith, find_id this.1 ht]; exact ⟨rfl, rfl⟩

theorem gen_eq (hn : (Names ts gs).Nodup) {g : ScriptGen} (hg : g ∈ gs) :
    kindsOf ts g.name = .gen ∧ setupWith ts gs g.name = .gen g.cfg := by
  obtain ⟨-, h2, h3⟩ := List.nodup_append.1 hn
  have : ts.find? (·.id = g.name) = none := by
    rw [List.find?_eq_none]
    intro t ht e
    exact h3 _ (List.mem_map_of_mem ht) _ (List.mem_map_of_mem hg) (by simpa using e)
  rw [kindsOf, setupWith, this, find_name h2 hg]; exact ⟨rfl, rfl⟩

theorem mem_names {j : Str} (h : j ∈ Names ts gs) :
    (∃ t ∈ ts, t.id = j) ∨ ∃ g ∈ gs, g.name = j := by
  simpa [Names] using h

/-- A script that keeps to the rules is sound. -/
theorem PlainProject.sound {g : Graph} (h : PlainProject p ts gs g.edges) (hv : Valid g)
    (ha : Acyclic g.edges) (hi : g.ids.Perm (Names ts gs)) :
    SoundScript (kindsOf ts) g (setupWith ts gs) := by
  have hn : (Names ts gs).Nodup := hi.nodup hv.ids
  have hj : ∀ {j}, j ∈ g.ids → (∃ t ∈ ts, t.id = j) ∨ ∃ x ∈ gs, x.name = j :=
    fun h => mem_names (hi.mem_iff.1 h)
  refine ⟨?_, hv, ha, ?_, ?_⟩
  · intro j fx hj
    rw [kindsOf] at hj
    split at hj
    · rename_i d hd
      have := (h.placed (List.mem_of_find?_eq_some hd)).shipped
      simp only [Kind.target.injEq] at hj
      exact hj ▸ this
    · simp at hj
  · intro a haa b hbb q hq hq'
    have hread : MayRead ts gs g.edges b q := by
      rcases hj hbb with ⟨t, ht, rfl⟩ | ⟨x, hx, rfl⟩
      · rw [(target_eq hn ht).2] at hq'
        refine h.targetReads t ht q ?_
        simp only [Setup.inputs, given, List.mem_append] at hq' ⊢
        rcases hq' with ((((hq' | hq') | hq') | hq') | hq') | hq' <;> simp [hq']
      · rw [(gen_eq hn hx).2] at hq'
        exact h.genReads x hx q hq'
    rcases hj haa with ⟨t, ht, rfl⟩ | ⟨x, hx, rfl⟩
    · rw [(target_eq hn ht).1, (target_eq hn ht).2] at hq
      exact (hread.1 t ht ((h.placed ht).outputs hq)).2
    · rw [(gen_eq hn hx).1, (gen_eq hn hx).2] at hq
      exact hread.2 x hx hq
  · intro j hjj
    rcases hj hjj with ⟨t, ht, rfl⟩ | ⟨x, hx, rfl⟩
    · obtain ⟨k, s⟩ := target_eq hn ht
      rw [k, s]
      exact h.sources t ht
    · rw [(gen_eq hn hx).1, (gen_eq hn hx).2]
      exact trivial

/-- C88: a script of targets and generators that keeps to the rules of `PlainProject`, that is
accepted by `Reg::Build` and `Reg::Dep`, and that is run again and again.  Files are edited and
deleted, between builds and during builds (but not at the moments named in `Delicate`), and state
files are dropped; builds fail, and are killed at any point.  Whenever `Reg::Run` returns with
success and no file was changed from outside since the process was started

* every target is what a build from scratch would leave, also when its sources are generated;
* for every id of a generator the last callback succeeded and was given the present versions of
  the inputs, the outputs and the data of the id;
* every target that links the output of another target is linked with the present version of it,
  which is the result of its last link; nobody writes that output by hand. -/
theorem C88_mixed {n : Nat} {l : List Call} {s : Script}
    (hreg : calls n ⟨Graph.empty, []⟩ l = .ok s) (hself : ∀ c ∈ l, c.selfDep = false)
    (hids : s.graph.ids.Perm (Names ts gs)) (hp : PlainProject p ts gs s.graph.edges)
    {evs : List WEvent} {w : World} (hw : w = (World.init (kindsOf ts)).steps evs)
    (hal : AllOfScript s.graph (setupWith ts gs) (World.init (kindsOf ts)) evs)
    (ha : w.active = true) (hcalm : w.calm = true) (hres : (w.step .join).result = some true) :
    (∀ t ∈ ts, ∃ σ, (w.step .join).comps t.id = .target t.made.fixed σ ∧
      Clean t.made.fixed σ t.cfg) ∧
    (∀ g ∈ gs, ∃ σ, (w.step .join).comps g.name = .gen σ ∧
      ∀ id i, Generator.find id g.cfg = some i → Generator.Current (fun _ a b => a = b) σ id i) ∧
    ∀ a ∈ ts, ∀ b ∈ ts, a.output ∈ paths b.cfg.libs → OwnName a →
      (∀ e ∈ evs, (∀ t, e ≠ .edit a.output t) ∧ e ≠ .delete a.output) →
      LinkedWith (w.step .join) a.id b.id a.output := by
  have hv := C37_valid n l s hreg
  have hn : (Names ts gs).Nodup := hids.nodup hv.ids
  have hs := hp.sound hv (C37_acyclic_partial n l s hreg hself) hids
  have hmt : ∀ t ∈ ts, t.id ∈ s.graph.ids := fun t ht =>
    hids.mem_iff.2 (List.mem_append.2 (.inl (List.mem_map_of_mem ht)))
  have hmg : ∀ g ∈ gs, g.name ∈ s.graph.ids := fun g hg =>
    hids.mem_iff.2 (List.mem_append.2 (.inr (List.mem_map_of_mem hg)))
  have key := C40_one_script_partial hw hs hal ha hcalm hres
  have hof : ∀ j, OfKind (kindsOf ts j) ((w.step .join).comps j) := by
    intro j
    rw [hw]
    exact ofKind_step _ (ofKind_steps evs _ (OfKind.init _))
  refine ⟨fun t ht => ?_, fun g hg => ?_, ?_⟩
  · have := key.1 t.id (hmt t ht)
    obtain ⟨k, st⟩ := target_eq hn ht
    rw [st] at this
    have hk := hof t.id
    rw [k] at hk
    cases hc : (w.step .join).comps t.id with
    | gen σ => rw [hc] at this; exact this.elim
    | target fx σ =>
      rw [hc] at this hk
      obtain rfl : fx = t.made.fixed := hk
      exact ⟨σ, rfl, this⟩
  · have := key.1 g.name (hmg g hg)
    rw [(gen_eq hn hg).2] at this
    cases hc : (w.step .join).comps g.name with
    | gen σ => rw [hc] at this; exact ⟨σ, rfl, this⟩
    | target fx σ => rw [hc] at this; exact this.elim
  · intro a haa b hbb hlib hown hand
    obtain ⟨ka, sa⟩ := target_eq hn haa
    obtain ⟨-, sb⟩ := target_eq hn hbb
    have pa := hp.placed haa
    have hin' : Inside a.made.buildDir a.output := by
      rw [pa.output.1]
      have := plain_ext pa.name pa.ext
      exact inside_name this.2.2.1 this.2.2.2
    refine key.2 a.id (hmt a haa) b.id (hmt b hbb) a.made.fixed b.cfg b.order ?_ sb hlib
    refine ⟨ka, ?_, hown.2, ?_, hand⟩
    · intro j hj hne hq
      rcases mem_names (hids.mem_iff.1 hj) with ⟨t, ht, rfl⟩ | ⟨x, hx, rfl⟩
      · obtain ⟨kt, st⟩ := target_eq hn ht
        rw [kt, st] at hq
        exact hne ((hp.placed ht).same pa ((hp.placed ht).outputs hq) hin')
      · rw [(gen_eq hn hx).1, (gen_eq hn hx).2] at hq
        exact hp.apart x hx _ hq a haa hin'
    · intro c o hc q hq
      rw [sa] at hc
      simp only [Setup.target.injEq] at hc
      obtain ⟨rfl, -⟩ := hc
      exact hown.1 q hq

/-- C88, for a file generator: its commands were last run to the end, with the present versions of
its inputs. -/
theorem C88_commands {n : Nat} {l : List Call} {s : Script}
    (hreg : calls n ⟨Graph.empty, []⟩ l = .ok s) (hself : ∀ c ∈ l, c.selfDep = false)
    (hids : s.graph.ids.Perm (Names ts gs)) (hp : PlainProject p ts gs s.graph.edges)
    {evs : List WEvent} {w : World} (hw : w = (World.init (kindsOf ts)).steps evs)
    (hal : AllOfScript s.graph (setupWith ts gs) (World.init (kindsOf ts)) evs)
    (ha : w.active = true) (hcalm : w.calm = true) (hres : (w.step .join).result = some true)
    {g : ScriptGen} (hg : g ∈ gs) {cmd : Command.Defaults} {ins outs commands : List Str}
    (hf : Generator.Fits commands)
    (hc : Generator.fileCfg cmd ins outs commands = some g.cfg) :
    ∃ σ, (w.step .join).comps g.name = .gen σ ∧ σ.files = (w.step .join).files ∧
      Generated σ g.inputs g.outputs commands := by
  obtain ⟨σ, h1, h2⟩ := (C88_mixed hreg hself hids hp hw hal ha hcalm hres).2.1 g hg
  have hview := views_steps (w := w.step .join) (kinds := kindsOf ts) (evs := evs ++ [.join])
    (by rw [hw]; simp [World.steps]) g.name
  rw [h1] at hview
  obtain ⟨i, o, -, -, e⟩ := Generator.fileCfg_some hc
  obtain ⟨k, b, k1, k2, k3, k4, k5, rfl⟩ := h2 b!"Generate" ⟨i, o, some (Generator.typedHandler commands)⟩
    (by rw [e]; simp [Generator.find])
  refine ⟨σ, h1, hview, k, k1, k2, ?_, ?_, ?_⟩
  · rw [k3, ScriptGen.inputs, e]; simp
  · rw [k4, ScriptGen.outputs, e]; simp
  · intro sys
    have hb := (Generator.C36_roundtrip hf)
    simp only [Generator.blobOf, hb.1, Option.some.injEq] at k5
    rw [Generator.fileCb, ← k5, hb.2]; rfl

end Verif.Reg
