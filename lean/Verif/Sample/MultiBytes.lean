import Verif.Sample.MultiChoices
import Verif.Reg.BytesChoices

/-!
# Contents of files after builds of scripts given by their text (C111)
-/

namespace Verif.Sample
open Verif Verif.Schema Verif.Target Verif.Toolchain Verif.Path
open Verif.Reg (Graph Call calls ScriptTarget ScriptGen Version Makers BWEvent BWorld InOrder buildAll
  sourcesOnly isMade kindsOf setupWith)
open Verif.Boot (Filled)

/-! ## Specification -/

/-- The programs and libraries for the toolchains that are on, and the generated files. -/
def Makes (gs : List GenMade) (r : List (Part × List Filled)) (c : Str → Reg.Condition) (q : Str) : Prop :=
  (∃ x ∈ r, (c x.1.tc.name).build = true ∧ ∃ f ∈ x.2, q = outputPath f.made.fixed) ∨
  ∃ g ∈ gs, q ∈ ScriptGen.outputs ⟨g.name, g.cfg⟩

/-! ## No file is made twice -/

variable {junk : Str → Nat → TargetSchema} {p : Project} {list : Str → Option (List Str)}
  {ord : List Str → List Str} {m : Multi} {gs : List GenMade} {r : List (Part × List Filled)}

theorem fileCfg_one {cmd : Command.Defaults} {ins outs commands : List Str} {cfg : Generator.Cfg}
    (h : Generator.fileCfg cmd ins outs commands = some cfg) : ∃ x, cfg = [x] := by
  simp only [Generator.fileCfg, Generator.addIdInfo, Generator.find, Option.isSome_none, Bool.false_eq_true,
    if_false, Bool.not_true] at h
  split at h
  · cases h; exact ⟨_, rfl⟩
  · cases h

theorem multi_once (h : m.run junk p list ord = some (gs, r)) (hn : NeatMulti m) (hp : MultiPlace p m)
    (hord : ∀ l, (ord l).Perm l) (order : Str → List Str) :
    Reg.MadeOnce (multiTargets r order) (scriptGens gs) where
  targets := by
    obtain ⟨-, hon, hrun⟩ := multi_parts h
    intro t ht
    obtain ⟨x, hx, ht⟩ := List.mem_flatMap.1 ht
    obtain ⟨f, hf, rfl⟩ := List.mem_map.1 ht
    have hxm : x.1 ∈ m.on := by rw [← hon]; exact List.mem_map_of_mem hx
    exact mixed_own (hrun x hx) (hn.parts _ hxm) (hp.place _ hxm) hf _
  ids := by
    obtain ⟨hg, -⟩ := multi_parts h
    intro g hm
    obtain ⟨g, hm1, rfl⟩ := List.mem_map.1 hm
    obtain ⟨cmd, ins, outs, h3⟩ := gen_data hg hm1
    obtain ⟨x, hx⟩ := fileCfg_one h3
    simp [hx]
  gens := by
    obtain ⟨hg, -⟩ := multi_parts h
    intro g hm g' hm' hne q hq hq'
    obtain ⟨g, hm1, rfl⟩ := List.mem_map.1 hm
    obtain ⟨g', hm1', rfl⟩ := List.mem_map.1 hm'
    obtain ⟨h1, h2⟩ := gens_outputs hn.gens hp.build hord hg hm1
    obtain ⟨h1', h2'⟩ := gens_outputs hn.gens hp.build hord hg hm1'
    obtain ⟨n, -, e⟩ := h2 q hq
    obtain ⟨n', -, e'⟩ := h2' q hq'
    exact hne (same_gen h1.2.2.2 h1'.2.2.2 (e.symm.trans e'))

/-! ## The script with all toolchains -/

theorem with_edges {c : Str → Reg.Condition} : ∀ e ∈ (m.with c).graph.edges, e ∈ (m.with allOn).graph.edges := by
  intro e he
  obtain ⟨x, hx, he⟩ := List.mem_flatMap.1 he
  exact List.mem_flatMap.2 ⟨_, mem_with hx, he⟩

/-- Nothing that is on depends on a target for a toolchain that is off. -/
theorem with_closed (hn : NeatMulti (m.with allOn)) (hp : MultiPlace p (m.with allOn)) {c : Str → Reg.Condition} :
    ∀ e ∈ (m.with allOn).graph.edges, e.2 ∈ (m.with c).graph.ids → e.1 ∈ (m.with c).graph.ids := by
  intro e he h2
  obtain ⟨y, hy, he⟩ := List.mem_flatMap.1 he
  obtain ⟨e1, e2⟩ := graph_edges (hn.parts y hy) y.state.test e he
  rcases e1 with e1 | e1
  · exact List.mem_append_left _ e1
  obtain ⟨d, hd, hd'⟩ := List.mem_map.1 e2
  rcases List.mem_append.1 h2 with h2 | h2
  · obtain ⟨g, hg, hg'⟩ := List.mem_map.1 h2
    refine absurd ?_ (hn.gens g hg).2.1
    rw [hg', ← hd']
    exact List.mem_cons_self
  · obtain ⟨x, hx, h2⟩ := List.mem_flatMap.1 h2
    obtain ⟨d', hm, hm'⟩ := List.mem_map.1 h2
    have hx' := mem_with hx
    have hname := (target_id_injective _ _ _ _ (hp.brackets _ hx') (hp.brackets _ hy) (hm'.trans hd'.symm)).1
    have hxy : { x with state := allOn x.tc.name } = y := by
      obtain ⟨i, hi⟩ := List.getElem?_of_mem hx'
      obtain ⟨j, hj⟩ := List.getElem?_of_mem hy
      have hij : i = j := by
        refine (List.getElem?_inj ?_ hp.names).1 ?_
        · rw [List.length_map]; exact (List.getElem?_eq_some_iff.1 hi).1
        · rw [List.getElem?_map, List.getElem?_map, hi, hj]
          exact congrArg some hname
      subst hij
      exact Option.some.inj (hi.symm.trans hj)
    subst hxy
    exact List.mem_append_right _ (List.mem_flatMap.2 ⟨x, hx, e1⟩)

theorem choices_whole (h : (m.with allOn).run junk p list ord = some (gs, r))
    (hn : NeatMulti (m.with allOn)) (hp : MultiPlace p (m.with allOn)) (order : Str → List Str) (clean : Bool) :
    ∃ u, Reg.Whole (multiTargets r order) (choiceOf m clean gs r order) u ∧
      u.script.graph = (m.with allOn).graph := by
  obtain ⟨n, hc⟩ := C109_accepted hn hp clean
  obtain ⟨ran, hreg⟩ := hc n (Nat.le_refl n)
  refine ⟨_, ⟨⟨allOn, ran, ⟨n, hreg⟩, rfl⟩, chosen_all r order, ?_, ?_⟩, rfl⟩
  · rintro v ⟨c, ran, -, rfl⟩
    exact with_edges
  · rintro v ⟨c, ran, -, rfl⟩
    exact with_closed hn hp

theorem makes_choice {c : Str → Reg.Condition} {order : Str → List Str} {q : Str} {l : List Call} {s : Reg.Script} :
    Makes gs r c q ↔ Version.Makes ⟨l, s, multiTargets (chosen c r) order, scriptGens gs⟩ q := by
  unfold Makes Version.Makes
  refine or_congr ?_ ?_
  · simp only [chosen_targets]
    constructor
    · rintro ⟨x, hx, hc, f, hf, rfl⟩
      exact ⟨_, List.mem_flatMap.2 ⟨x, List.mem_filter.2 ⟨hx, hc⟩, List.mem_map_of_mem hf⟩, rfl⟩
    · rintro ⟨t, ht, rfl⟩
      obtain ⟨x, hx, ht⟩ := List.mem_flatMap.1 ht
      obtain ⟨f, hf, rfl⟩ := List.mem_map.1 ht
      exact ⟨x, (List.mem_filter.1 hx).1, (List.mem_filter.1 hx).2, f, hf, rfl⟩
  · constructor
    · rintro ⟨g, hg, hq⟩
      exact ⟨_, List.mem_map_of_mem hg, hq⟩
    · rintro ⟨t, ht, hq⟩
      obtain ⟨g, hg, rfl⟩ := List.mem_map.1 ht
      exact ⟨g, hg, hq⟩

section
variable {β : Type} {M : Makers β} {order : Str → List Str}

theorem choicesB_all (hn : NeatMulti (m.with allOn)) (hp : MultiPlace p (m.with allOn))
    {s : Str → Reg.Setup} {b : BWorld β} {evs : List (BWEvent β)}
    (hal : Reg.AllOfChoicesB M (fun g => ∃ c, g = (m.with c).graph) s b evs) :
    Reg.AllOfChoicesB M (fun g => ∃ v, choiceOf m false gs r order v ∧ g = v.script.graph) s b evs := by
  refine Reg.AllOfChoicesB.mono ?_ hal
  rintro g ⟨c, rfl⟩
  obtain ⟨n, hc⟩ := C109_accepted (with_neat hn c) (with_place hp c) false
  obtain ⟨ran, hreg⟩ := hc n (Nat.le_refl n)
  exact ⟨_, ⟨c, ran, ⟨n, hreg⟩, rfl⟩, rfl⟩

/-- C111: a script with file generators and any number of toolchains, whose text keeps to the rules of
`NeatMulti`.  In each run the user turns on other toolchains.  Files are edited and deleted, state files are
dropped, builds fail, leave anything in their outputs, and are killed at any point.  Whenever `Reg::Run`
returns with success in a run with the toolchains in the states `c`, no file was changed from outside since
the process was started and nobody has changed by hand what the script makes, every target for every toolchain
that is on and every generated file holds what one build from scratch with all toolchains makes of the contents
of the files that the script does not make. -/
theorem C111_contents (h : (m.with allOn).run junk p list ord = some (gs, r))
    (hn : NeatMulti (m.with allOn)) (hp : MultiPlace p (m.with allOn)) (hord : ∀ l, (ord l).Perm l)
    (hout : OutsideAll p (m.with allOn) gs r) (order : Str → List Str) {evs : List (BWEvent β)} {b : BWorld β}
    (hb : b = (BWorld.init (kindsOf (multiTargets r order))).steps M evs)
    (hal : Reg.AllOfChoicesB M (fun g => ∃ c, g = (m.with c).graph)
      (setupWith (multiTargets r order) (scriptGens gs)) (BWorld.init (kindsOf (multiTargets r order))) evs)
    (ha : b.world.active = true) (hcalm : b.world.calm = true)
    (hres : (b.step M .join).world.result = some true)
    {c : Str → Reg.Condition} (hc : b.world.graph = (m.with c).graph)
    (hand : ∀ e ∈ evs, ∀ q, Makes gs r c q → (∀ t x, e ≠ .edit q t x) ∧ e ≠ .delete q) :
    ∃ orders : Str → List Str,
      (∀ x ∈ r, ∀ f ∈ x.2, (orders (targetId x.1.tc.name f.made.name)).Perm (paths f.cfg.sources)) ∧
      ∀ o, InOrder (m.with allOn).graph o → ∀ q, Makes gs r c q →
        text (b.step M .join).files q =
          buildAll M (kindsOf (multiTargets r order)) (setupWith (multiTargets r order) (scriptGens gs)) orders o
            (sourcesOnly (kindsOf (multiTargets r order)) (m.with allOn).graph
              (setupWith (multiTargets r order) (scriptGens gs)) b.files) q := by
  have hch := choices_sound h hn hp hord hout order false
  obtain ⟨u, hu, hug⟩ := choices_whole h hn hp order false
  obtain ⟨n, hcn⟩ := C109_accepted (with_neat hn c) (with_place hp c) false
  obtain ⟨ran, hreg⟩ := hcn n (Nat.le_refl n)
  obtain ⟨orders, h1, h2⟩ := Reg.C111_choices hch (multi_once h hn hp hord order) hu hb
    (choicesB_all hn hp hal) ha hcalm hres ⟨c, ran, ⟨n, hreg⟩, rfl⟩ hc
    (fun e he q hq => hand e he q (makes_choice.2 hq))
  rw [hug] at h2
  refine ⟨orders, ?_, fun o ho q hq => h2 o ho q (makes_choice.1 hq)⟩
  intro x hx f hf
  have := h1 ⟨f.made, f.cfg, order (targetId x.1.tc.name f.made.name)⟩
    (List.mem_flatMap.2 ⟨x, hx, List.mem_map_of_mem hf⟩)
  rw [ScriptTarget.id, part_toolchain h hn hp hx hf] at this
  exact this

/-- C111: two directories in which the script was run with toolchains turned on and off in any way, the last
runs being with the states `c` and `c'`.  When both end with success and the files that the script does not
make have the same contents, so have the targets for the toolchains that are on in both, and the generated
files.  Linkers do not depend on the order of the objects. -/
theorem C111_reproducible (h : (m.with allOn).run junk p list ord = some (gs, r))
    (hn : NeatMulti (m.with allOn)) (hp : MultiPlace p (m.with allOn)) (hord : ∀ l, (ord l).Perm l)
    (hout : OutsideAll p (m.with allOn) gs r) (order : Str → List Str)
    (hT : Reg.AnyOrder M.tools (m.with allOn).graph (setupWith (multiTargets r order) (scriptGens gs)))
    {evs evs' : List (BWEvent β)} {b b' : BWorld β}
    (hb : b = (BWorld.init (kindsOf (multiTargets r order))).steps M evs)
    (hb' : b' = (BWorld.init (kindsOf (multiTargets r order))).steps M evs')
    (hal : Reg.AllOfChoicesB M (fun g => ∃ c, g = (m.with c).graph)
      (setupWith (multiTargets r order) (scriptGens gs)) (BWorld.init (kindsOf (multiTargets r order))) evs)
    (hal' : Reg.AllOfChoicesB M (fun g => ∃ c, g = (m.with c).graph)
      (setupWith (multiTargets r order) (scriptGens gs)) (BWorld.init (kindsOf (multiTargets r order))) evs')
    (ha : b.world.active = true) (ha' : b'.world.active = true)
    (hcalm : b.world.calm = true) (hcalm' : b'.world.calm = true)
    (hres : (b.step M .join).world.result = some true) (hres' : (b'.step M .join).world.result = some true)
    {c c' : Str → Reg.Condition} (hc : b.world.graph = (m.with c).graph) (hc' : b'.world.graph = (m.with c').graph)
    (hand : ∀ e ∈ evs, ∀ q, Makes gs r c q → (∀ t x, e ≠ .edit q t x) ∧ e ≠ .delete q)
    (hand' : ∀ e ∈ evs', ∀ q, Makes gs r c' q → (∀ t x, e ≠ .edit q t x) ∧ e ≠ .delete q)
    (hsame : ∀ q, isMade (kindsOf (multiTargets r order)) (m.with allOn).graph
      (setupWith (multiTargets r order) (scriptGens gs)) q = false → text b.files q = text b'.files q) :
    ∀ q, Makes gs r c q → Makes gs r c' q →
      text (b.step M .join).files q = text (b'.step M .join).files q := by
  have hch := choices_sound h hn hp hord hout order false
  obtain ⟨u, hu, hug⟩ := choices_whole h hn hp order false
  have hacc := fun c => C109_accepted (with_neat hn c) (with_place hp c) false
  obtain ⟨n, hcn⟩ := hacc c
  obtain ⟨ran, hreg⟩ := hcn n (Nat.le_refl n)
  obtain ⟨n', hcn'⟩ := hacc c'
  obtain ⟨ran', hreg'⟩ := hcn' n' (Nat.le_refl n')
  rw [← hug] at hT hsame
  intro q hq hq'
  exact Reg.C111_same hch (multi_once h hn hp hord order) hu hT hb hb' (choicesB_all hn hp hal)
    (choicesB_all hn hp hal') ha ha' hcalm hcalm' hres hres' ⟨c, ran, ⟨n, hreg⟩, rfl⟩
    ⟨c', ran', ⟨n', hreg'⟩, rfl⟩ hc hc' (fun e he q hq => hand e he q (makes_choice.2 hq))
    (fun e he q hq => hand' e he q (makes_choice.2 hq)) hsame q (makes_choice.1 hq) (makes_choice.1 hq')

end

end Verif.Sample
