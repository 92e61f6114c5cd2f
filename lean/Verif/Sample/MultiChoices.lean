import Verif.Sample.MultiProps
import Verif.Reg.Choices

/-!
# Scripts whose toolchains are turned on and off from run to run (C110)
-/

namespace Verif.Sample
open Verif Verif.Schema Verif.Target Verif.Toolchain Verif.Path
open Verif.Reg (Graph Call calls ScriptTarget ScriptGen PlainProject Version)
open Verif.Boot (Filled)

/-! ## Specification -/

/-- The script with its toolchains in these states, given by the names of the toolchains. -/
def Multi.with (m : Multi) (c : Str → Reg.Condition) : Multi :=
  ⟨m.gens, m.parts.map fun x => { x with state := c x.tc.name }⟩

/-- All toolchains are on. -/
def allOn : Str → Reg.Condition := fun _ => ⟨true, true⟩

/-- What is left of the parts when the toolchains are in the states `c`. -/
def chosen (c : Str → Reg.Condition) (r : List (Part × List Filled)) : List (Part × List Filled) :=
  (r.filter fun x => (c x.1.tc.name).build).map fun x => ({ x.1 with state := c x.1.tc.name }, x.2)

/-! ## The run of a choice -/

variable {junk : Str → Nat → TargetSchema} {p : Project} {list : Str → Option (List Str)}
  {ord : List Str → List Str} {m : Multi} {gs : List GenMade} {r : List (Part × List Filled)}

theorem runTargets_made {j : Nat → TargetSchema} {tc : Toolchain} {infos : List TargetSchema} :
    ∀ {l : List Decl} {ts fs : List Filled}, runTargets j p list tc infos ts l = some fs →
      ∀ d ∈ l, (targetGeneric j p d.name d.type tc (TargetEnv.relative p d.dir)).isSome = true
  | [], _, _, _ => by simp
  | d :: l, ts, fs, h => by
    rw [runTargets] at h
    split at h
    · cases h
    · rename_i m hm
      split at h
      · cases h
      · intro e he
        rcases List.mem_cons.1 he with rfl | he
        · rw [hm]; rfl
        · exact runTargets_made h e he

/-- The targets of a part that ran can be made. -/
theorem part_made {j : Nat → TargetSchema} {tc : Toolchain} {l : List MDecl} {ds : List Decl} {fs : List Filled}
    {infos : List (Str × List ApiOp)} {deps : List (Nat × Nat)} {tests : List Nat}
    (hd : plainDecls p gs l = some ds) (h : Text.run j p list tc ⟨infos, ds, deps, tests⟩ = some fs) :
    (l.all fun d => (targetGeneric j p d.name d.type tc (TargetEnv.relative p d.dir)).isSome) = true := by
  rw [Text.run] at h
  split at h
  · cases h
  · rw [List.all_eq_true]
    intro d hm
    obtain ⟨k, hk⟩ := List.getElem?_of_mem hm
    obtain ⟨steps, -, hs⟩ := (plainDecls_spec hd).2 k d hk
    exact runTargets_made h _ (List.mem_of_getElem? hs)

theorem runParts_with (c : Str → Reg.Condition) : ∀ {l : List Part} {r : List (Part × List Filled)},
    runParts junk p list gs (l.map fun x => { x with state := allOn x.tc.name }) = some r →
    runParts junk p list gs (l.map fun x => { x with state := c x.tc.name }) = some (chosen c r)
  | [], r, h => by cases h; rfl
  | x :: l, r, h => by
    simp only [List.map_cons, runParts] at h ⊢
    rw [if_pos (by rfl)] at h
    split at h
    · cases h
    · rename_i ds hds
      split at h
      · cases h
      · rename_i fs hfs
        obtain ⟨r', hr, rfl⟩ := Option.map_eq_some_iff.1 h
        have ih := runParts_with c hr
        by_cases hc : (c x.tc.name).build = true
        · rw [if_pos hc, ih]
          simp only [hds, hfs, chosen, List.filter_cons, hc, if_true, List.map_cons, Option.map_some]
        · rw [if_neg hc, if_pos (part_made hds hfs), ih]
          simp only [chosen, List.filter_cons, hc, Bool.false_eq_true, if_false]

/-- C110: the script with its toolchains in any states gets through if it does with all of them on, and the
targets are the same. -/
theorem C110_run (h : (m.with allOn).run junk p list ord = some (gs, r)) (c : Str → Reg.Condition) :
    (m.with c).run junk p list ord = some (gs, chosen c r) := by
  rw [Multi.run] at h ⊢
  split at h
  · cases h
  · rename_i g hg
    obtain ⟨r', hr, e⟩ := Option.map_eq_some_iff.1 h
    cases e
    have hg' : runGens p ord (m.with c).gens = some gs := hg
    rw [hg']
    simp only
    rw [show (m.with c).parts = m.parts.map fun x => { x with state := c x.tc.name } from rfl,
      runParts_with c hr]
    rfl

theorem with_all : (m.with allOn).on = (m.with allOn).parts :=
  List.filter_eq_self.2 fun x hx => by
    obtain ⟨y, -, rfl⟩ := List.mem_map.1 hx
    rfl

theorem mem_with {c : Str → Reg.Condition} {x : Part} (hx : x ∈ (m.with c).on) :
    { x with state := allOn x.tc.name } ∈ (m.with allOn).on := by
  obtain ⟨y, hy, rfl⟩ := List.mem_map.1 (List.mem_filter.1 hx).1
  rw [with_all]
  exact List.mem_map.2 ⟨y, hy, rfl⟩

theorem with_neat (hn : NeatMulti (m.with allOn)) (c : Str → Reg.Condition) : NeatMulti (m.with c) where
  gens := hn.gens
  names := hn.names
  parts x hx := by have := hn.parts _ (mem_with hx); exact this

theorem with_place (hp : MultiPlace p (m.with allOn)) (c : Str → Reg.Condition) : MultiPlace p (m.with c) where
  build := hp.build
  place x hx := by have := hp.place _ (mem_with hx); exact this
  names := by
    have h := hp.names
    rw [with_all] at h
    have e : ∀ c, (m.with c).parts.map (·.tc.name) = m.parts.map (·.tc.name) := fun c => by
      rw [Multi.with, List.map_map]; rfl
    rw [e] at h
    rw [← e c] at h
    exact h.sublist (List.filter_sublist.map _)
  brackets x hx := by have := hp.brackets _ (mem_with hx); exact this

theorem with_outside (ho : OutsideAll p (m.with allOn) gs r) (c : Str → Reg.Condition) :
    OutsideAll p (m.with c) gs (chosen c r) := by
  refine ⟨ho.1, fun x hx => ?_⟩
  obtain ⟨y, hy, rfl⟩ := List.mem_map.1 hx
  exact ho.2 y (List.mem_filter.1 hy).1

theorem chosen_targets (c : Str → Reg.Condition) (r : List (Part × List Filled)) (order : Str → List Str) :
    multiTargets (chosen c r) order = multiTargets (r.filter fun x => (c x.1.tc.name).build) order := by
  rw [multiTargets, chosen, List.flatMap_map, multiTargets]

theorem chosen_all (r : List (Part × List Filled)) (order : Str → List Str) :
    multiTargets (chosen allOn r) order = multiTargets r order := by
  rw [chosen_targets, List.filter_eq_self.2]
  intro x _; rfl

/-- The choices that the user has. -/
def choiceOf (m : Multi) (clean : Bool) (gs : List GenMade) (r : List (Part × List Filled))
    (order : Str → List Str) (v : Version) : Prop :=
  ∃ c ran, (∃ n, calls n ⟨Graph.empty, []⟩ ((m.with c).calls clean) = .ok ⟨(m.with c).graph, ran⟩) ∧
    v = ⟨(m.with c).calls clean, ⟨(m.with c).graph, ran⟩, multiTargets (chosen c r) order, scriptGens gs⟩

theorem multi_perm (h : m.run junk p list ord = some (gs, r)) (hn : NeatMulti m) (hp : MultiPlace p m)
    (order : Str → List Str) : m.graph.ids.Perm (Reg.Names (multiTargets r order) (scriptGens gs)) := by
  obtain ⟨hg, -⟩ := multi_parts h
  have hgn : (scriptGens gs).map ScriptGen.name = m.gens.map (·.name) := by
    rw [← (runGens_spec hg).1, scriptGens, List.map_map]
    rfl
  rw [Reg.Names, multi_ids h hn hp, hgn]
  exact List.perm_append_comm

theorem choices_sound (h : (m.with allOn).run junk p list ord = some (gs, r))
    (hn : NeatMulti (m.with allOn)) (hp : MultiPlace p (m.with allOn)) (hord : ∀ l, (ord l).Perm l)
    (hout : OutsideAll p (m.with allOn) gs r) (order : Str → List Str) (clean : Bool) :
    Reg.Choices p (multiTargets r order) (scriptGens gs) (choiceOf m clean gs r order) where
  names := by
    obtain ⟨n, hc⟩ := C109_accepted hn hp clean
    obtain ⟨ran, hreg⟩ := hc n (Nat.le_refl n)
    exact (multi_perm h hn hp order).nodup (Reg.C37_valid _ _ _ hreg).ids
  accepted := by
    rintro v ⟨c, ran, hc, rfl⟩
    exact ⟨hc, multi_selfDep (with_neat hn c) clean,
      multi_perm (C110_run h c) (with_neat hn c) (with_place hp c) order⟩
  plain := by
    rintro v ⟨c, ran, -, rfl⟩
    exact C109_plain (C110_run h c) (with_neat hn c) (with_place hp c) hord (with_outside hout c) order
  sub := by
    rintro v ⟨c, ran, -, rfl⟩
    refine ⟨fun t ht => ?_, rfl⟩
    have ht : t ∈ multiTargets (chosen c r) order := ht
    rw [chosen_targets] at ht
    obtain ⟨x, hx, hx'⟩ := List.mem_flatMap.1 ht
    exact List.mem_flatMap.2 ⟨x, (List.mem_filter.1 hx).1, hx'⟩
  all := by
    intro t ht
    obtain ⟨n, hc⟩ := C109_accepted hn hp clean
    obtain ⟨ran, hreg⟩ := hc n (Nat.le_refl n)
    exact ⟨_, ⟨allOn, ran, ⟨n, hreg⟩, rfl⟩, by rw [chosen_all]; exact ht⟩

/-- C110: a script with file generators and any number of toolchains, whose text keeps to the rules of
`NeatMulti`.  In each run the user turns on other toolchains.  Files are edited and deleted, state files are
dropped, builds fail and are killed at any point.  Whenever `Reg::Run` returns with success in a run with the
toolchains in the states `c`, and no file was changed from outside since the process was started

* every target for every toolchain that is on is what a build from scratch would leave, whatever happened
  while it was off,
* the commands of every generator were last run to the end with the present versions of its inputs, and
* every target to which another one was given with `AddLibDep` is linked with the present version of it,
  which is the result of its last link; nobody writes that file by hand. -/
theorem C110_built (h : (m.with allOn).run junk p list ord = some (gs, r))
    (hn : NeatMulti (m.with allOn)) (hp : MultiPlace p (m.with allOn)) (hord : ∀ l, (ord l).Perm l)
    (hout : OutsideAll p (m.with allOn) gs r) (order : Str → List Str)
    {evs : List Reg.WEvent} {w : Reg.World}
    (hw : w = (Reg.World.init (Reg.kindsOf (multiTargets r order))).steps evs)
    (hal : Reg.AllOfChoices (fun g => ∃ c, g = (m.with c).graph)
      (Reg.setupWith (multiTargets r order) (scriptGens gs))
      (Reg.World.init (Reg.kindsOf (multiTargets r order))) evs)
    (ha : w.active = true) (hcalm : w.calm = true) (hres : (w.step .join).result = some true)
    {c : Str → Reg.Condition} (hc : w.graph = (m.with c).graph) :
    (∀ clean, ∃ n, ∀ k, n ≤ k → ∃ ran,
      calls k ⟨Graph.empty, []⟩ ((m.with c).calls clean) = .ok ⟨(m.with c).graph, ran⟩) ∧
    (∀ x ∈ r, (c x.1.tc.name).build = true → ∀ f ∈ x.2, ∃ σ,
      (w.step .join).comps (targetId x.1.tc.name f.made.name) = .target f.made.fixed σ ∧
      Clean f.made.fixed σ f.cfg) ∧
    (∀ g ∈ gs, Generator.Fits g.commands → ∃ σ, (w.step .join).comps g.name = .gen σ ∧
      σ.files = (w.step .join).files ∧
      Reg.Generated σ (ScriptGen.inputs ⟨g.name, g.cfg⟩) (ScriptGen.outputs ⟨g.name, g.cfg⟩) g.commands) ∧
    ∀ x ∈ r, (c x.1.tc.name).build = true → ∀ (i k : Nat) (d : MDecl) (a b : Filled),
      x.1.targets[k]? = some d → .step (.libDep i) ∈ d.steps → x.2[i]? = some a → x.2[k]? = some b →
      (∀ e ∈ evs, (∀ v, e ≠ .edit (outputPath a.made.fixed) v) ∧ e ≠ .delete (outputPath a.made.fixed)) →
      Reg.LinkedWith (w.step .join) (targetId x.1.tc.name a.made.name) (targetId x.1.tc.name b.made.name)
        (outputPath a.made.fixed) := by
  have hacc := fun (c : Str → Reg.Condition) clean => C109_accepted (with_neat hn c) (with_place hp c) clean
  have hch := choices_sound h hn hp hord hout order false
  obtain ⟨hg, hon, hrun⟩ := multi_parts h
  have hxm : ∀ {x}, x ∈ r → x.1 ∈ (m.with allOn).on := fun hx => by
    rw [← hon]; exact List.mem_map_of_mem hx
  have hG : ∀ g, (∃ c, g = (m.with c).graph) →
      ∃ v, choiceOf m false gs r order v ∧ g = v.script.graph := by
    rintro g ⟨c, rfl⟩
    obtain ⟨n, hc⟩ := hacc c false
    obtain ⟨ran, hreg⟩ := hc n (Nat.le_refl n)
    exact ⟨_, ⟨c, ran, ⟨n, hreg⟩, rfl⟩, rfl⟩
  have hal' : Reg.AllOfChoices (fun g => ∃ v, choiceOf m false gs r order v ∧ g = v.script.graph)
      (Reg.setupWith (multiTargets r order) (scriptGens gs))
      (Reg.World.init (Reg.kindsOf (multiTargets r order))) evs := Reg.AllOfChoices.mono hG hal
  obtain ⟨n, hcn⟩ := hacc c false
  obtain ⟨ran, hreg⟩ := hcn n (Nat.le_refl n)
  have key := Reg.C110_choices hch hw hal' ha hcalm hres ⟨c, ran, ⟨n, hreg⟩, rfl⟩ hc
  have hmem : ∀ x ∈ r, (c x.1.tc.name).build = true → ∀ f ∈ x.2,
      (⟨f.made, f.cfg, order (targetId x.1.tc.name f.made.name)⟩ : ScriptTarget) ∈
        multiTargets (chosen c r) order := fun x hx hb f hf => by
    rw [chosen_targets]
    exact List.mem_flatMap.2 ⟨x, List.mem_filter.2 ⟨hx, hb⟩, List.mem_map_of_mem hf⟩
  have hid : ∀ x ∈ r, ∀ f ∈ x.2,
      ScriptTarget.id ⟨f.made, f.cfg, order (targetId x.1.tc.name f.made.name)⟩ =
        targetId x.1.tc.name f.made.name := fun x hx f hf => by
    rw [ScriptTarget.id, part_toolchain h hn hp hx hf]
  refine ⟨hacc c, ?_, ?_, ?_⟩
  · intro x hx hb f hf
    have := key.1 _ (hmem x hx hb f hf)
    rw [hid x hx f hf] at this
    exact this
  · intro g hm hfits
    obtain ⟨cmd, ins, outs, h3⟩ := gen_data hg hm
    exact key.2.2.1 ⟨g.name, g.cfg⟩ (List.mem_map_of_mem hm) g.commands ⟨hfits, cmd, ins, outs, h3⟩
  · intro x hx hbd i k d a b hk hs hi hb hand
    have ha' := List.mem_of_getElem? hi
    have hb' := List.mem_of_getElem? hb
    obtain ⟨h1, h2⟩ := linked_given (hrun x hx) (hn.parts _ (hxm hx)) (hp.place _ (hxm hx)) hk hs hi hb
    have := key.2.2.2 _ (hmem x hx hbd a ha') _ (hmem x hx hbd b hb') h1 (h2 _) hand
    rw [hid x hx a ha', hid x hx b hb'] at this
    exact this

end Verif.Sample
