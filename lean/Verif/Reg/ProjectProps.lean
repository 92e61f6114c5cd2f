import Verif.Reg.ProjectLemmas
import Verif.Reg.Props

/-! # Builds of scripts made of targets (C84) -/

namespace Verif.Reg
open Verif Verif.Schema Verif.Toolchain Verif.Path
open Verif.Target (Fixed objPath outputPath paths Project Made targetGeneric PlainExt Clean)

theorem find_id {ts : List ScriptTarget} (hn : (ts.map ScriptTarget.id).Nodup) {t : ScriptTarget}
    (ht : t ∈ ts) : ts.find? (·.id = t.id) = some t := by
  induction ts with
  | nil => simp at ht
  | cons a l ih =>
    simp only [List.map_cons, List.nodup_cons] at hn
    rcases List.mem_cons.1 ht with rfl | h
    · simp
    · rw [List.find?_cons_of_neg]
      · exact ih hn.2 h
      · simp only [decide_eq_true_eq]
        intro e
        exact hn.1 (e ▸ List.mem_map_of_mem h)

theorem kindsOf_eq {ts : List ScriptTarget} (hn : (ts.map ScriptTarget.id).Nodup) {t : ScriptTarget}
    (ht : t ∈ ts) : kindsOf ts t.id = .target t.made.fixed ∧ setupOf ts t.id = .target t.cfg t.order := by
  rw [kindsOf, setupOf, find_id hn ht]; exact ⟨rfl, rfl⟩

/-- A script that keeps to the rules is sound. -/
theorem PlainScript.sound {p : Project} {ts : List ScriptTarget} {g : Graph}
    (h : PlainScript p ts g.edges) (hv : Valid g) (ha : Acyclic g.edges)
    (hn : (ts.map ScriptTarget.id).Nodup) (hi : ∀ j ∈ g.ids, ∃ t ∈ ts, t.id = j) :
    SoundScript (kindsOf ts) g (setupOf ts) where
  shipped := by
    intro j fx hj
    rw [kindsOf] at hj
    split at hj
    · rename_i d hd
      have := (h.placed (List.mem_of_find?_eq_some hd)).shipped
      simp only [Kind.target.injEq] at hj
      exact hj ▸ this
    · simp at hj
  valid := hv
  acyclic := ha
  declared := by
    intro a haa b hbb q hq hq'
    obtain ⟨ta, hta, rfl⟩ := hi a haa
    obtain ⟨tb, htb, rfl⟩ := hi b hbb
    obtain ⟨ka, sa⟩ := kindsOf_eq hn hta
    obtain ⟨-, sb⟩ := kindsOf_eq hn htb
    rw [ka, sa] at hq
    rw [sb] at hq'
    have pa := h.placed hta
    have hin := pa.outputs hq
    have hb : Inside p.buildDir q := inside_trans pa.abs.1.last pa.abs.2 hin
    simp only [Setup.inputs, List.mem_append] at hq'
    have hlib : q ∈ paths tb.cfg.libs := by
      have ho := fun hg => h.outside tb htb q hg hb
      simp only [given, List.mem_append, not_or] at ho
      simp only [imp_false, not_or] at ho
      rcases hq' with ((((hq' | hq') | hq') | hq') | hq') | hq'
      · exact absurd hq' ho.1.1.1.1
      · exact absurd hq' ho.1.1.1.2
      · exact absurd hq' ho.1.1.2
      · exact hq'
      · exact absurd hq' ho.1.2
      · exact absurd hq' ho.2
    obtain ⟨d, hd, rfl, hr⟩ := h.libs tb htb q hlib hb
    have pd := h.placed hd
    have hin' : Inside d.made.buildDir d.output := by
      rw [pd.output.1]
      have := plain_ext pd.name pd.ext
      exact inside_name this.2.2.1 this.2.2.2
    rw [pa.same pd hin hin']
    exact hr
  fits := by
    intro j hj
    obtain ⟨t, ht, rfl⟩ := hi j hj
    obtain ⟨k, s⟩ := kindsOf_eq hn ht
    rw [k, s]
    exact h.sources t ht

theorem ofKind_steps {k : Kind} {j : Str} : ∀ (evs : List WEvent) (w : World),
    OfKind k (w.comps j) → OfKind k ((w.steps evs).comps j)
  | [], _, h => h
  | e :: l, _, h => ofKind_steps l _ (ofKind_step e h)

/-- The output of a target is neither one of its object files nor next to its precompiled
header. -/
def OwnName (t : ScriptTarget) : Prop :=
  (∀ q ∈ paths t.cfg.sources, objPath t.made.fixed q ≠ t.output) ∧ t.output ∉ pchFiles t.made.fixed

/-- Builds of a sound script made of targets. -/
theorem SoundScript.built {ts : List ScriptTarget} {g : Graph} (hids : g.ids = ts.map ScriptTarget.id)
    (hs : SoundScript (kindsOf ts) g (setupOf ts))
    {evs : List WEvent} {w : World} (hw : w = (World.init (kindsOf ts)).steps evs)
    (hal : AllOfScript g (setupOf ts) (World.init (kindsOf ts)) evs)
    (ha : w.active = true) (hcalm : w.calm = true) (hres : (w.step .join).result = some true) :
    (∀ t ∈ ts, ∃ σ, (w.step .join).comps t.id = .target t.made.fixed σ ∧
      Clean t.made.fixed σ t.cfg) ∧
    ∀ a ∈ ts, ∀ b ∈ ts, a.output ∈ paths b.cfg.libs → OwnName a →
      (∀ t ∈ ts, t.id ≠ a.id →
        a.output ∉ outputs (.target t.made.fixed Target.Sys.init) (.target t.cfg t.order)) →
      (∀ e ∈ evs, (∀ t, e ≠ .edit a.output t) ∧ e ≠ .delete a.output) →
      LinkedWith (w.step .join) a.id b.id a.output := by
  have hn : (ts.map ScriptTarget.id).Nodup := hids ▸ hs.valid.ids
  have hi : ∀ j ∈ g.ids, ∃ t ∈ ts, t.id = j := by
    intro j hj
    rw [hids, List.mem_map] at hj
    exact hj
  have hm : ∀ t ∈ ts, t.id ∈ g.ids := by
    intro t ht
    rw [hids]; exact List.mem_map_of_mem ht
  have key := C40_one_script_partial hw hs hal ha hcalm hres
  have hof : ∀ j, OfKind (kindsOf ts j) ((w.step .join).comps j) := by
    intro j
    rw [hw]
    exact ofKind_step _ (ofKind_steps evs _ (OfKind.init _))
  refine ⟨fun t ht => ?_, ?_⟩
  · have := key.1 t.id (hm t ht)
    obtain ⟨k, st⟩ := kindsOf_eq hn ht
    rw [st] at this
    have hk := hof t.id
    rw [k] at hk
    cases hc : (w.step .join).comps t.id with
    | gen σ => rw [hc] at this; exact this.elim
    | target fx σ =>
      rw [hc] at this hk
      obtain rfl : fx = t.made.fixed := hk
      exact ⟨σ, rfl, this⟩
  · intro a haa b hbb hlib hown hother hand
    obtain ⟨ka, sa⟩ := kindsOf_eq hn haa
    obtain ⟨-, sb⟩ := kindsOf_eq hn hbb
    refine key.2 a.id (hm a haa) b.id (hm b hbb) a.made.fixed b.cfg b.order ?_ sb hlib
    refine ⟨ka, ?_, hown.2, ?_, hand⟩
    · intro j hj hne hq
      obtain ⟨t, ht, rfl⟩ := hi j hj
      obtain ⟨kt, st⟩ := kindsOf_eq hn ht
      rw [kt, st] at hq
      exact hother t ht hne hq
    · intro c o hc q hq
      rw [sa] at hc
      simp only [Setup.target.injEq] at hc
      obtain ⟨rfl, -⟩ := hc
      exact hown.1 q hq

/-- C84: a script that keeps to the rules of `PlainScript`, that is accepted by `Reg::Build` and
`Reg::Dep`, and that is run again and again.  Files are edited and deleted, between builds and during
builds (but not at the moments named in `Delicate`), and state files are dropped; builds fail, and
are killed at any point.  Whenever `Reg::Run` returns with success and no file was changed from
outside since the process was started, every target is what a build from scratch would leave, and every target that links the
output of another target is linked with the present version of it, which is the result of its last
link; nobody writes that output by hand. -/
theorem C84_project {p : Project} {ts : List ScriptTarget} {n : Nat} {l : List Call} {s : Script}
    (hreg : calls n ⟨Graph.empty, []⟩ l = .ok s) (hself : ∀ c ∈ l, c.selfDep = false)
    (hids : s.graph.ids = ts.map ScriptTarget.id) (hp : PlainScript p ts s.graph.edges)
    {evs : List WEvent} {w : World} (hw : w = (World.init (kindsOf ts)).steps evs)
    (hal : AllOfScript s.graph (setupOf ts) (World.init (kindsOf ts)) evs)
    (ha : w.active = true) (hcalm : w.calm = true) (hres : (w.step .join).result = some true) :
    (∀ t ∈ ts, ∃ σ, (w.step .join).comps t.id = .target t.made.fixed σ ∧
      Clean t.made.fixed σ t.cfg) ∧
    ∀ a ∈ ts, ∀ b ∈ ts, a.output ∈ paths b.cfg.libs → OwnName a →
      (∀ e ∈ evs, (∀ t, e ≠ .edit a.output t) ∧ e ≠ .delete a.output) →
      LinkedWith (w.step .join) a.id b.id a.output := by
  have hv := C37_valid n l s hreg
  have hn : (ts.map ScriptTarget.id).Nodup := hids ▸ hv.ids
  have hi : ∀ j ∈ s.graph.ids, ∃ t ∈ ts, t.id = j := by
    intro j hj
    rw [hids, List.mem_map] at hj
    exact hj
  have key := (hp.sound hv (C37_acyclic_partial n l s hreg hself) hn hi).built hids hw hal ha hcalm hres
  refine ⟨key.1, fun a haa b hbb hlib hown hand => key.2 a haa b hbb hlib hown ?_ hand⟩
  intro t ht hne hq
  have pt := hp.placed ht
  have pa := hp.placed haa
  have hin' : Inside a.made.buildDir a.output := by
    rw [pa.output.1]
    have := plain_ext pa.name pa.ext
    exact inside_name this.2.2.1 this.2.2.2
  exact hne (pt.same pa (pt.outputs hq) hin')

end Verif.Reg
