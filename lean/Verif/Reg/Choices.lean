import Verif.Reg.ScriptsProps

/-!
# A script of which every run builds some of the targets

The user turns toolchains on and off from run to run (`ArgToolchainState`, `register.h:54-120`).  What a
builder is does not change, but whether it takes part.
-/

namespace Verif.Reg
open Verif Verif.Schema
open Verif.Target (objPath outputPath paths Clean containsCpp Project)

/-! ## Specification -/

/-- What may happen: as in `OfScript`, but every process registers one of the graphs `G`, with the
configurations `s` for what it registers. -/
def OfChoices (G : Graph → Prop) (s : Str → Setup) (w : World) : WEvent → Prop
  | .edit p t => t ∉ w.used p ∧ ∀ j, ¬ Delicate p (w.comps j)
  | .delete p => ∀ j, ¬ Delicate p (w.comps j)
  | .launch g' s' => G g' ∧ ∀ j ∈ g'.ids, SameSetup (s' j) (s j)
  | _ => True

def AllOfChoices (G : Graph → Prop) (s : Str → Setup) : World → List WEvent → Prop
  | _, [] => True
  | w, e :: l => OfChoices G s w e ∧ AllOfChoices G s (w.step e) l

theorem AllOfChoices.mono {G G' : Graph → Prop} (h : ∀ g, G g → G' g) {s : Str → Setup} :
    ∀ {evs : List WEvent} {w : World}, AllOfChoices G s w evs → AllOfChoices G' s w evs
  | [], _, _ => trivial
  | e :: l, w, ha => by
    refine ⟨?_, AllOfChoices.mono h ha.2⟩
    cases e with
    | launch g s' => exact ⟨h g ha.1.1, ha.1.2⟩
    | _ => exact ha.1

/-- `V` are choices of the targets `ts`, each with all of the generators `gs`. -/
structure Choices (p : Project) (ts : List ScriptTarget) (gs : List ScriptGen) (V : Version → Prop) :
    Prop where
  names : (Names ts gs).Nodup
  accepted : ∀ v, V v → (∃ n, calls n ⟨Graph.empty, []⟩ v.calls = .ok v.script) ∧
    (∀ c ∈ v.calls, c.selfDep = false) ∧ v.script.graph.ids.Perm (Names v.ts v.gs)
  plain : ∀ v, V v → PlainProject p v.ts v.gs v.script.graph.edges
  sub : ∀ v, V v → (∀ t ∈ v.ts, t ∈ ts) ∧ v.gs = gs
  /-- Each target is in one of them. -/
  all : ∀ t ∈ ts, ∃ v, V v ∧ t ∈ v.ts

/-! ## A builder has one configuration -/

theorem kComp_choice {G : Graph → Prop} {s : Str → Setup} {w : World} {e : WEvent}
    (h : ∀ j, KComp (s j) (w.comps j)) (he : OfChoices G s w e) :
    ∀ j, KComp (s j) ((w.step e).comps j) := by
  intro j
  cases e with
  | launch g' s' =>
    simp only [World.step]
    split
    · simp only
      split
      · rename_i hj
        exact (h j).start (he.2 j hj)
      · exact h j
    · exact h j
  | _ => refine kComp_step (g := ⟨[j], [], []⟩) (fun i _ => h i) ?_ j (by simp) <;> exact he

theorem kComp_init (kinds : Str → Kind) (s : Str → Setup) (j : Str) :
    KComp (s j) ((World.init kinds).comps j) := by
  simp only [World.init]
  cases kinds j with
  | gen =>
    cases s j with
    | target c o => trivial
    | gen c => simp [Kind.init, KComp, Generator.Sys.init]
  | target fx =>
    cases s j with
    | target c o => exact ⟨by simp [Target.Sys.init, loadTargetFile, loadFile],
        by simp [Target.Sys.init], by simp [Target.Sys.init]⟩
    | gen c => trivial

theorem KComp.resumes {s s' : Setup} {c : Comp} (h : KComp s c) (hs : SameSetup s' s) : Resumes c s' := by
  cases s <;> cases s' <;> cases c <;> first
    | exact trivial
    | exact hs.elim
    | skip
  · obtain rfl : _ = _ := hs
    exact h.lost
  · obtain rfl : _ = _ := hs
    exact h.1

/-- So nothing is ever configured otherwise after it was killed. -/
theorem choices_versions {G : Graph → Prop} {s : Str → Setup} {F : Versions}
    (hF : ∀ g s', G g → (∀ j ∈ g.ids, SameSetup (s' j) (s j)) → F g s') :
    ∀ (evs : List WEvent) (w : World), (∀ j, KComp (s j) (w.comps j)) → AllOfChoices G s w evs →
      AllOfVersions F w evs
  | [], _, _, _ => trivial
  | e :: l, w, h, ha => by
    refine ⟨?_, choices_versions hF l _ (kComp_choice h ha.1) ha.2⟩
    cases e with
    | launch g s' => exact fun _ => ⟨hF g s' ha.1.1 ha.1.2, fun j hj => (h j).resumes (ha.1.2 j hj)⟩
    | _ => exact ha.1

section
variable {p : Project} {ts : List ScriptTarget} {gs : List ScriptGen} {V : Version → Prop}

theorem unique_target (hn : (Names ts gs).Nodup) {a b : ScriptTarget} (ha : a ∈ ts) (hb : b ∈ ts)
    (h : a.id = b.id) : a = b := by
  have h1 : (ts.map ScriptTarget.id).Nodup := (List.nodup_append.1 hn).1
  obtain ⟨i, hi, rfl⟩ := List.getElem_of_mem ha
  obtain ⟨j, hj, rfl⟩ := List.getElem_of_mem hb
  have := (List.getElem_inj (h₀ := by simpa using hi) (h₁ := by simpa using hj) h1).1 (by simpa using h)
  subst this
  rfl

theorem unique_gen (hn : (Names ts gs).Nodup) {a b : ScriptGen} (ha : a ∈ gs) (hb : b ∈ gs)
    (h : a.name = b.name) : a = b := by
  have h1 : (gs.map ScriptGen.name).Nodup := (List.nodup_append.1 hn).2.1
  obtain ⟨i, hi, rfl⟩ := List.getElem_of_mem ha
  obtain ⟨j, hj, rfl⟩ := List.getElem_of_mem hb
  have := (List.getElem_inj (h₀ := by simpa using hi) (h₁ := by simpa using hj) h1).1 (by simpa using h)
  subst this
  rfl

/-- Choices are versions that keep to the rules. -/
theorem Choices.versions (h : Choices p ts gs V) : PlainVersions p (kindsOf ts) V where
  accepted := h.accepted
  plain := h.plain
  objects := by
    intro v v' hv hv' t ht t' ht' he a ha b hb hab
    obtain rfl := unique_target h.names ((h.sub v hv).1 t ht) ((h.sub v' hv').1 t' ht') he
    exact ((h.plain v hv).sources t ht).2 a ha b hb hab
  targets := by
    intro j fx
    constructor
    · intro hk
      unfold kindsOf at hk
      split at hk
      · rename_i d hd
        have hm := List.mem_of_find?_eq_some hd
        have he := List.find?_some hd
        obtain ⟨v, hv, ht⟩ := h.all d hm
        exact ⟨v, d, hv, ht, by simpa using he, by simpa using hk⟩
      · cases hk
    · rintro ⟨v, t, hv, ht, rfl, rfl⟩
      exact (target_eq h.names ((h.sub v hv).1 t ht)).1
  gens := by
    intro v hv g hg
    rw [(h.sub v hv).2] at hg
    exact (gen_eq h.names hg).1
  pch := by
    intro v v' hv hv' t ht t' ht' he
    obtain rfl := unique_target h.names ((h.sub v hv).1 t ht) ((h.sub v' hv').1 t' ht') he
    exact ⟨Iff.rfl, fun _ => rfl⟩
  handlers := by
    intro v v' hv hv' g hg g' hg' he id i i' hi hi' hh
    rw [(h.sub v hv).2] at hg
    rw [(h.sub v' hv').2] at hg'
    obtain rfl := unique_gen h.names hg hg' he
    obtain rfl := Option.some.inj (hi.symm.trans hi')
    exact hh
  data := by
    intro v v' hv hv' g hg g' hg' he id i i' hd a b hi hi' _ ha hb _
    rw [(h.sub v hv).2] at hg
    rw [(h.sub v' hv').2] at hg'
    obtain rfl := unique_gen h.names hg hg' he
    obtain rfl := Option.some.inj (hi.symm.trans hi')
    exact Option.some.inj (ha.symm.trans hb)

/-- What a choice registers is configured as in the whole script. -/
theorem Choices.setup (h : Choices p ts gs V) {v : Version} (hv : V v) {j : Str}
    (hj : j ∈ v.script.graph.ids) : setupWith v.ts v.gs j = setupWith ts gs j := by
  obtain ⟨-, -, hn⟩ := h.versions.names hv
  rcases mem_names ((h.accepted v hv).2.2.mem_iff.1 hj) with ⟨t, ht, rfl⟩ | ⟨x, hx, rfl⟩
  · rw [(target_eq hn ht).2, (target_eq h.names ((h.sub v hv).1 t ht)).2]
  · rw [(gen_eq hn hx).2, (gen_eq h.names ((h.sub v hv).2 ▸ hx)).2]

/-- C110: a script is run again and again, each time with another choice of its targets; the rest is as in
C88.  When the choice `v` was built with success

* every target of it is what a build from scratch would leave, whatever was built, killed and edited while
  the target took no part;
* for every id of the generators the last callback succeeded and was given the present versions of the
  inputs, the outputs and the data of the id;
* every target of it that links the output of another one is linked with the present version of that,
  which is the result of its last link; nobody writes that output by hand. -/
theorem C110_choices {evs : List WEvent} {w : World} (h : Choices p ts gs V)
    (hw : w = (World.init (kindsOf ts)).steps evs)
    (hal : AllOfChoices (fun g => ∃ v, V v ∧ g = v.script.graph) (setupWith ts gs)
      (World.init (kindsOf ts)) evs)
    (ha : w.active = true) (hcalm : w.calm = true) (hres : (w.step .join).result = some true)
    {v : Version} (hv : V v) (hg : w.graph = v.script.graph) :
    (∀ t ∈ v.ts, ∃ σ, (w.step .join).comps t.id = .target t.made.fixed σ ∧ Clean t.made.fixed σ t.cfg) ∧
    (∀ g ∈ gs, ∃ σ, (w.step .join).comps g.name = .gen σ ∧
      ∀ id i, Generator.find id g.cfg = some i → Generator.Current (fun _ a b => a = b) σ id i) ∧
    (∀ g ∈ gs, ∀ commands, IsFileGen g commands → ∃ σ, (w.step .join).comps g.name = .gen σ ∧
      σ.files = (w.step .join).files ∧ Generated σ g.inputs g.outputs commands) ∧
    ∀ a ∈ v.ts, ∀ b ∈ v.ts, a.output ∈ paths b.cfg.libs → OwnName a →
      (∀ e ∈ evs, (∀ t, e ≠ .edit a.output t) ∧ e ≠ .delete a.output) →
      LinkedWith (w.step .join) a.id b.id a.output := by
  have hF : ∀ (g : Graph) (s' : Str → Setup), (∃ v, V v ∧ g = v.script.graph) →
      (∀ j ∈ g.ids, SameSetup (s' j) (setupWith ts gs j)) → versionsOf V g s' := by
    rintro g s' ⟨v, hv, rfl⟩ hs
    refine ⟨v, hv, rfl, fun j hj => ?_⟩
    rw [h.setup hv hj]
    exact hs j hj
  have hav := choices_versions hF evs _ (kComp_init _ _) hal
  have hpv := h.versions
  have his : v.Is w.graph w.setup := by
    obtain ⟨v', hv', e1, e2⟩ := (C100_versions_partial hw hpv.sound hav ha hcalm hres).1
    refine ⟨hg, fun j hj => ?_⟩
    have := e2 j hj
    rw [h.setup hv' (e1 ▸ hj)] at this
    rw [h.setup hv (hg ▸ hj)]
    exact this
  have key := C100_project_partial hpv hw hav ha hcalm hres hv his
  have hvg := (h.sub v hv).2
  refine ⟨key.1, ?_, ?_, ?_⟩
  · rw [← hvg]; exact key.2.1
  · intro g hg' commands hc
    exact C100_commands_partial hpv hw hav ha hcalm hres hv his (hvg ▸ hg') hc
  · intro a haa b hbb hlib hown hand
    refine key.2.2 a haa b hbb hlib ?_ ?_ hand
    · intro v' hv' t ht he
      obtain rfl := unique_target h.names ((h.sub v' hv').1 t ht) ((h.sub v hv).1 a haa) he
      exact hown
    · intro v' hv' g hg' hq
      have hp := h.plain v hv
      have pa := hp.placed haa
      have hin' : Path.Inside a.made.buildDir a.output := by
        rw [pa.output.1]
        have := plain_ext pa.name pa.ext
        exact inside_name this.2.2.1 this.2.2.2
      refine hp.apart g ?_ _ hq a haa hin'
      rw [hvg, ← (h.sub v' hv').2]
      exact hg'

end

end Verif.Reg
