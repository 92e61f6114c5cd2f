import Verif.Sample.MultiChoices
import Verif.Reg.Again

/-!
# Building again what a script with several toolchains has built (C113)
-/

namespace Verif.Sample
open Verif Verif.Schema Verif.Target Verif.Toolchain Verif.Path
open Verif.Reg (Reaches Graph Call calls ScriptTarget ScriptGen Version Executed Working Undisturbed SameSetup
  SameStored)
open Verif.Boot (Filled)

/-! ## Specification -/

/-- The script is started again with no other toolchains on, processes may be killed, and no file is changed
from outside. -/
def AgainMulti (m : Multi) (c : Str → Reg.Condition) (s : Str → Reg.Setup) : Reg.WEvent → Prop
  | .edit _ _ | .delete _ | .dropState _ => False
  | .launch g s' => ∃ c', (∀ n, (c' n).build = true → (c n).build = true) ∧ g = (m.with c').graph ∧
      ∀ j ∈ g.ids, SameSetup (s' j) (s j)
  | _ => True

/-- Whatever is not about the target `id` for the toolchain `tc`: files are edited and deleted, other state
files are dropped, the script is run with this toolchain off, and processes are killed. -/
def Elsewhere (m : Multi) (tc id : Str) : Reg.WEvent → Prop
  | .dropState i => i ≠ id
  | .launch g _ => ∃ c, g = (m.with c).graph ∧ (c tc).build = false
  | _ => True

/-- The files that a target reads. -/
def reads (c : TargetSchema) : List Str := Reg.given c ++ paths c.libs

/-! ## Dependencies stay within a toolchain -/

variable {junk : Str → Nat → TargetSchema} {p : Project} {list : Str → Option (List Str)}
  {ord : List Str → List Str} {m : Multi} {gs : List GenMade} {r : List (Part × List Filled)}

theorem same_part (hp : MultiPlace p m) {x y : Part} (hx : x ∈ m.on) (hy : y ∈ m.on)
    (h : x.tc.name = y.tc.name) : x = y := by
  obtain ⟨i, hi, rfl⟩ := List.getElem_of_mem hx
  obtain ⟨j, hj, rfl⟩ := List.getElem_of_mem hy
  have := (List.getElem_inj (h₀ := by simpa using hi) (h₁ := by simpa using hj) hp.names).1 (by simpa using h)
  subst this
  rfl

theorem edge_part (hn : NeatMulti m) (hp : MultiPlace p m) {x : Part} (hx : x ∈ m.on) {a b : Str}
    (he : (a, b) ∈ m.graph.edges) (hb : b ∈ x.ids) : a ∈ m.gens.map (·.name) ∨ a ∈ x.ids := by
  obtain ⟨y, hy, he⟩ := List.mem_flatMap.1 he
  obtain ⟨h1, h2⟩ := graph_edges (hn.parts y hy) _ _ he
  obtain ⟨d, -, hd⟩ := List.mem_map.1 hb
  obtain ⟨d', -, hd'⟩ := List.mem_map.1 h2
  obtain ⟨e, -⟩ := target_id_injective _ _ _ _ (hp.brackets x hx) (hp.brackets y hy) (hd.trans hd'.symm)
  obtain rfl := same_part hp hx hy e
  exact h1

theorem gen_last (hn : NeatMulti m) {a b : Str} (he : (a, b) ∈ m.graph.edges) : b ∉ m.gens.map (·.name) := by
  obtain ⟨y, hy, he⟩ := List.mem_flatMap.1 he
  obtain ⟨-, h2⟩ := graph_edges (hn.parts y hy) _ _ he
  obtain ⟨d, -, hd⟩ := List.mem_map.1 h2
  intro hb
  obtain ⟨g, hg, e⟩ := List.mem_map.1 hb
  have := (hn.gens g hg).2.1
  rw [e] at this
  have hd : targetId y.tc.name d.name = b := hd
  rw [← hd] at this
  exact this (by simp [targetId])

theorem gen_first (hn : NeatMulti m) {a b : Str} (h : Reaches m.graph.edges a b) :
    b ∉ m.gens.map (·.name) := by
  induction h with
  | edge he => exact gen_last hn he
  | step _ _ ih => exact ih

/-- A target depends on generators and on targets for its toolchain only. -/
theorem reaches_part (hn : NeatMulti m) (hp : MultiPlace p m) {x : Part} (hx : x ∈ m.on) {a b : Str}
    (h : Reaches m.graph.edges a b) : b ∈ x.ids → a ∈ m.gens.map (·.name) ∨ a ∈ x.ids := by
  induction h with
  | edge he => exact edge_part hn hp hx he
  | step he _ ih =>
    intro hb
    rcases ih hb with h | h
    · exact absurd h (gen_last hn he)
    · exact edge_part hn hp hx he h

theorem elsewhere_out (hp : MultiPlace p (m.with allOn)) (hn : NeatMulti (m.with allOn)) {x : Part}
    (hx : x ∈ (m.with allOn).on) {n : Str} {e : Reg.WEvent}
    (h : Elsewhere m x.tc.name (targetId x.tc.name n) e) : e.leavesOut (targetId x.tc.name n) = true := by
  cases e with
  | dropState i => exact decide_eq_true h
  | launch g s =>
    obtain ⟨c, rfl, hc⟩ := h
    refine decide_eq_true fun hj => ?_
    rcases List.mem_append.1 hj with hj | hj
    · obtain ⟨g, hg, e⟩ := List.mem_map.1 hj
      have := (hn.gens g hg).2.1
      rw [e] at this
      exact this (by simp [targetId])
    · obtain ⟨y, hy, hj⟩ := List.mem_flatMap.1 hj
      obtain ⟨d, -, hd⟩ := List.mem_map.1 hj
      have hb : c!"]" ∉ y.tc.name := by have := hp.brackets _ (mem_with hy); exact this
      obtain ⟨e, -⟩ := target_id_injective _ _ _ _ hb (hp.brackets x hx) hd
      obtain ⟨hm, ho⟩ := List.mem_filter.1 hy
      obtain ⟨z, -, rfl⟩ := List.mem_map.1 hm
      have e : z.tc.name = x.tc.name := e
      have ho : (c z.tc.name).build = true := ho
      rw [e, hc] at ho
      cases ho
  | _ => rfl

theorem with_ids {c c' : Str → Reg.Condition} (h : ∀ n, (c' n).build = true → (c n).build = true) {j : Str}
    (hj : j ∈ (m.with c').graph.ids) : j ∈ (m.with c).graph.ids := by
  rcases List.mem_append.1 hj with hj | hj
  · exact List.mem_append_left _ hj
  · refine List.mem_append_right _ ?_
    obtain ⟨y, hy, hj⟩ := List.mem_flatMap.1 hj
    obtain ⟨hm, ho⟩ := List.mem_filter.1 hy
    obtain ⟨z, hz, rfl⟩ := List.mem_map.1 hm
    exact List.mem_flatMap.2 ⟨{ z with state := c z.tc.name },
      List.mem_filter.2 ⟨List.mem_map_of_mem hz, h _ ho⟩, hj⟩

/-- The choice with the toolchains in these states. -/
theorem choice_of (hn : NeatMulti (m.with allOn)) (hp : MultiPlace p (m.with allOn)) (order : Str → List Str)
    (c : Str → Reg.Condition) :
    ∃ v, choiceOf m false gs r order v ∧ v.script.graph = (m.with c).graph := by
  obtain ⟨n, hc⟩ := C109_accepted (with_neat hn c) (with_place hp c) false
  obtain ⟨ran, hreg⟩ := hc n (Nat.le_refl n)
  exact ⟨_, ⟨c, ran, ⟨n, hreg⟩, rfl⟩, rfl⟩

theorem gens_reflexive (h : (m.with allOn).run junk p list ord = some (gs, r))
    (hf : ∀ g ∈ gs, Generator.Fits g.commands) : ∀ g ∈ scriptGens gs, Generator.Reflexive g.cfg := by
  intro g hg
  obtain ⟨g', hm, rfl⟩ := List.mem_map.1 hg
  obtain ⟨cmd, ins, outs, h3⟩ := gen_data (multi_parts h).1 hm
  exact Generator.file_reflexive (hf g' hm) h3

theorem steps_run {kinds : Str → Reg.Kind} {hist mid : List Reg.WEvent} {w w' : Reg.World} {g : Graph}
    {s : Str → Reg.Setup} (hw : w = (Reg.World.init kinds).steps hist)
    (hu : Undisturbed w g s mid w') : w' = (Reg.World.init kinds).steps (hist ++ .launch g s :: mid) := by
  rw [← hu.result, hw, Reg.World.steps, Reg.World.steps, Reg.World.steps, List.foldl_append, List.foldl_cons]

/-! ## C113 -/

/-- C113: a script with file generators and any number of toolchains, whose text keeps to the rules of
`NeatMulti`.  After any history it is run with the toolchains in the states `c`, and the build succeeds.
From then on it is run any number of times, each time with any of these toolchains on, and processes are
killed at any point, but no file is changed from outside.  Then no command of any target and no command of
any generator is run, no file, no state file and nothing that was built changes, and no build fails. -/
theorem C113_again (h : (m.with allOn).run junk p list ord = some (gs, r))
    (hn : NeatMulti (m.with allOn)) (hp : MultiPlace p (m.with allOn)) (hord : ∀ l, (ord l).Perm l)
    (hout : OutsideAll p (m.with allOn) gs r) (hf : ∀ g ∈ gs, Generator.Fits g.commands)
    (order : Str → List Str) {hist mid later : List Reg.WEvent} {w₀ w₁ w₂ : Reg.World}
    {c : Str → Reg.Condition} {s : Str → Reg.Setup}
    (hw₀ : w₀ = (Reg.World.init (Reg.kindsOf (multiTargets r order))).steps hist)
    (hs : ∀ j ∈ (m.with c).graph.ids,
      SameSetup (s j) (Reg.setupWith (multiTargets r order) (scriptGens gs) j))
    (h₁ : Undisturbed w₀ (m.with c).graph s mid w₁) (hok : (w₁.step .join).result = some true)
    (hl : ∀ e ∈ later, AgainMulti m c s e) (hw₂ : w₂ = (w₁.step .join).steps later) :
    w₂.files = w₁.files ∧ w₂.result ≠ some false ∧
      (∀ j ∈ (m.with c).graph.ids, SameStored (w₂.comps j) (w₁.comps j)) ∧
      (w₂.active = true → w₂.ok = true ∧
        ∀ j ∈ w₂.graph.ids, ¬ Executed (w₂.comps j) ∧ ¬ Working (w₂.comps j)) := by
  have hch := choices_sound h hn hp hord hout order false
  have hr := gens_reflexive h hf
  obtain ⟨v, hv, hg⟩ := choice_of (gs := gs) (r := r) hn hp order c
  rw [← hg] at hs h₁
  have hag : ∀ e ∈ later, Reg.Again w₁ v.script.graph s e := by
    intro e he
    have := hl e he
    cases e with
    | launch g' s' =>
      obtain ⟨c', hle, rfl, hs'⟩ := this
      obtain ⟨v', hv', hg'⟩ := choice_of (gs := gs) (r := r) hn hp order c'
      have hin : ∀ j ∈ v'.script.graph.ids, j ∈ v.script.graph.ids := fun j hj => by
        rw [hg'] at hj; rw [hg]; exact with_ids hle hj
      have hsame : ∀ j ∈ v'.script.graph.ids, SameSetup (s' j) (s j) := fun j hj =>
        hs' j (by rw [← hg']; exact hj)
      show Reg.Plan w₁ (m.with c').graph s' ∧ _
      rw [← hg']
      exact ⟨hch.plan hv' (fun j hj => (hsame j hj).trans (hs j (hin j hj))) (steps_run hw₀ h₁), hin, hsame⟩
    | edit | delete | dropState => exact this.elim
    | _ => trivial
  have := Reg.C93_null_rebuild hw₀ (hch.runs hv hs hw₀ h₁) hok (fun j hj => hch.regular hr hv hs hj) hag hw₂
  rw [← hg]
  exact ⟨this.1, this.2.2.1, this.2.2.2.1, this.2.2.2.2⟩

theorem setup_target (h : (m.with allOn).run junk p list ord = some (gs, r))
    (hn : NeatMulti (m.with allOn)) (hp : MultiPlace p (m.with allOn)) (order : Str → List Str)
    {x : Part × List Filled} (hx : x ∈ r) {f : Filled} (hf : f ∈ x.2) :
    ∃ o, Reg.setupWith (multiTargets r order) (scriptGens gs) (targetId x.1.tc.name f.made.name) =
      .target f.cfg o := by
  obtain ⟨n, hc⟩ := C109_accepted hn hp false
  obtain ⟨ran, hreg⟩ := hc n (Nat.le_refl n)
  have hnd := (multi_perm h hn hp order).nodup (Reg.C37_valid _ _ _ hreg).ids
  have hm : (⟨f.made, f.cfg, order (targetId x.1.tc.name f.made.name)⟩ : ScriptTarget) ∈
      multiTargets r order := List.mem_flatMap.2 ⟨x, hx, List.mem_map_of_mem hf⟩
  have := (Reg.target_eq hnd hm).2
  rw [ScriptTarget.id, part_toolchain h hn hp hx hf] at this
  exact ⟨_, this⟩

theorem setup_gen (h : (m.with allOn).run junk p list ord = some (gs, r))
    (hn : NeatMulti (m.with allOn)) (hp : MultiPlace p (m.with allOn)) (order : Str → List Str)
    {g : GenMade} (hg : g ∈ gs) :
    Reg.setupWith (multiTargets r order) (scriptGens gs) g.name = .gen g.cfg := by
  obtain ⟨n, hc⟩ := C109_accepted hn hp false
  obtain ⟨ran, hreg⟩ := hc n (Nat.le_refl n)
  have hnd := (multi_perm h hn hp order).nodup (Reg.C37_valid _ _ _ hreg).ids
  exact (Reg.gen_eq hnd (g := ⟨g.name, g.cfg⟩) (List.mem_map_of_mem hg)).2

theorem target_inputs {s : Reg.Setup} {c : TargetSchema} {o : List Str} (h : SameSetup s (.target c o))
    {q : Str} (hq : q ∈ s.inputs) : q ∈ reads c := by
  rw [h.inputs] at hq
  simp only [Reg.Setup.inputs, reads, Reg.given, List.mem_append] at hq ⊢
  grind

theorem gen_names (h : (m.with allOn).run junk p list ord = some (gs, r)) :
    m.gens.map (·.name) = gs.map (·.name) :=
  (runGens_spec (multi_parts h).1).1.symm

theorem part_ids (h : (m.with allOn).run junk p list ord = some (gs, r))
    (hn : NeatMulti (m.with allOn)) (hp : MultiPlace p (m.with allOn))
    {x : Part × List Filled} (hx : x ∈ r) :
    x.1.ids = x.2.map fun f => targetId x.1.tc.name f.made.name := by
  obtain ⟨-, hon, hrun⟩ := multi_parts h
  have hxm : x.1 ∈ (m.with allOn).on := by rw [← hon]; exact List.mem_map_of_mem hx
  have := (target_ids (hrun x hx) (hn.parts _ hxm) (hp.place _ hxm) fun _ => []).2
  rw [show x.1.ids = (scriptTargets x.2 fun _ => []).map ScriptTarget.id from this.symm, scriptTargets,
    List.map_map]
  refine List.map_congr_left fun f hf => ?_
  show ScriptTarget.id ⟨f.made, f.cfg, []⟩ = _
  rw [ScriptTarget.id, part_toolchain h hn hp hx hf]

theorem part_on (h : (m.with allOn).run junk p list ord = some (gs, r)) {x : Part × List Filled} (hx : x ∈ r)
    {c : Str → Reg.Condition} (hc : (c x.1.tc.name).build = true) :
    ∃ y ∈ (m.with c).on, y.tc = x.1.tc ∧ y.ids = x.1.ids := by
  obtain ⟨-, hon, -⟩ := multi_parts (C110_run h c)
  have hm : ({ x.1 with state := c x.1.tc.name }, x.2) ∈ chosen c r :=
    List.mem_map.2 ⟨x, List.mem_filter.2 ⟨hx, hc⟩, rfl⟩
  refine ⟨{ x.1 with state := c x.1.tc.name }, ?_, rfl, rfl⟩
  rw [← hon]
  exact List.mem_map_of_mem (f := Prod.fst) hm

/-- C113: in between the script is run with other toolchains on, files are edited and deleted, and builds are
killed.  Then a target runs a command in a later build only if

* one of the files it reads is not what it was at the end of the earlier build, or
* a generator runs a command in the later build on which the target is declared to depend, directly or
  through others, or
* so does a target for the same toolchain.

What is built for other toolchains plays no part. -/
theorem C113_aside (h : (m.with allOn).run junk p list ord = some (gs, r))
    (hn : NeatMulti (m.with allOn)) (hp : MultiPlace p (m.with allOn)) (hord : ∀ l, (ord l).Perm l)
    (hout : OutsideAll p (m.with allOn) gs r) (hf : ∀ g ∈ gs, Generator.Fits g.commands)
    (order : Str → List Str) {hist mid₁ between mid₂ : List Reg.WEvent} {w₀ w₁ w₂ w₃ : Reg.World}
    {c₁ c₂ : Str → Reg.Condition} {s₁ s₂ : Str → Reg.Setup}
    (hw₀ : w₀ = (Reg.World.init (Reg.kindsOf (multiTargets r order))).steps hist)
    (hs₁ : ∀ j ∈ (m.with c₁).graph.ids,
      SameSetup (s₁ j) (Reg.setupWith (multiTargets r order) (scriptGens gs) j))
    (hs₂ : ∀ j ∈ (m.with c₂).graph.ids,
      SameSetup (s₂ j) (Reg.setupWith (multiTargets r order) (scriptGens gs) j))
    (h₁ : Undisturbed w₀ (m.with c₁).graph s₁ mid₁ w₁) (hok : (w₁.step .join).result = some true)
    (hw₂ : w₂ = (w₁.step .join).steps between) (h₂ : Undisturbed w₂ (m.with c₂).graph s₂ mid₂ w₃)
    {x : Part × List Filled} (hx : x ∈ r) {f : Filled} (hfx : f ∈ x.2)
    (hon₁ : (c₁ x.1.tc.name).build = true) (hon₂ : (c₂ x.1.tc.name).build = true)
    (hel : ∀ e ∈ between, Elsewhere m x.1.tc.name (targetId x.1.tc.name f.made.name) e)
    (he : Executed (w₃.comps (targetId x.1.tc.name f.made.name)) ∨
      Working (w₃.comps (targetId x.1.tc.name f.made.name))) :
    (∃ q ∈ reads f.cfg, w₂.files q ≠ w₁.files q) ∨
    (∃ g ∈ gs, Reaches (m.with c₂).graph.edges g.name (targetId x.1.tc.name f.made.name) ∧
      Executed (w₃.comps g.name)) ∨
    ∃ y ∈ x.2, Reaches (m.with c₂).graph.edges (targetId x.1.tc.name y.made.name)
        (targetId x.1.tc.name f.made.name) ∧
      Executed (w₃.comps (targetId x.1.tc.name y.made.name)) := by
  have hch := choices_sound h hn hp hord hout order false
  have hr := gens_reflexive h hf
  obtain ⟨v₁, hv₁, hg₁⟩ := choice_of (gs := gs) (r := r) hn hp order c₁
  obtain ⟨v₂, hv₂, hg₂⟩ := choice_of (gs := gs) (r := r) hn hp order c₂
  have hids := part_ids h hn hp hx
  have hj : targetId x.1.tc.name f.made.name ∈ x.1.ids := by
    rw [hids]; exact List.mem_map_of_mem (f := fun f : Filled => targetId x.1.tc.name f.made.name) hfx
  have hin : ∀ {c : Str → Reg.Condition}, (c x.1.tc.name).build = true →
      targetId x.1.tc.name f.made.name ∈ (m.with c).graph.ids := by
    intro c hc
    obtain ⟨y, hy, -, e⟩ := part_on h hx hc
    exact List.mem_append_right _ (List.mem_flatMap.2 ⟨y, hy, by rw [← e] at hj; exact hj⟩)
  obtain ⟨-, hon, -⟩ := multi_parts h
  have hxm : x.1 ∈ (m.with allOn).on := by rw [← hon]; exact List.mem_map_of_mem hx
  have hw₂' : w₂ = (Reg.World.init (Reg.kindsOf (multiTargets r order))).steps
      ((hist ++ .launch (m.with c₁).graph s₁ :: mid₁) ++ .join :: between) := by
    rw [hw₂, steps_run hw₀ h₁]
    simp only [Reg.World.steps, List.foldl_append, List.foldl_cons]
  have hj₁ := hin hon₁
  have hj₂ := hin hon₂
  have hsame : SameSetup (s₂ (targetId x.1.tc.name f.made.name)) (s₁ (targetId x.1.tc.name f.made.name)) :=
    (hs₂ _ hj₂).trans (hs₁ _ hj₁).symm
  have hs₂' := hs₂ _ hj₂
  rw [← hg₁] at hs₁ h₁ hj₁
  rw [← hg₂] at hs₂ h₂ hj₂
  obtain ⟨o, ho⟩ := setup_target h hn hp order hx hfx
  rcases Reg.C94_cause hw₀ (hch.runs hv₁ hs₁ hw₀ h₁) hok hw₂
    (fun e he => elsewhere_out hp hn hxm (hel e he)) (hch.runs hv₂ hs₂ hw₂' h₂) hj₁ hj₂ hsame
    (hch.regular hr hv₁ hs₁ hj₁) he with ⟨q, hq, hne⟩ | ⟨a, -, hre, hex⟩
  · rw [ho] at hs₂'
    exact .inl ⟨q, target_inputs hs₂' hq, hne⟩
  · right
    rw [hg₂] at hre
    obtain ⟨y, hy, -, e⟩ := part_on h hx hon₂
    rcases reaches_part (with_neat hn c₂) (with_place hp c₂) hy hre (by rw [e]; exact hj) with ha | ha
    · left
      have ha : a ∈ m.gens.map (·.name) := ha
      rw [gen_names h] at ha
      obtain ⟨g, hg, rfl⟩ := List.mem_map.1 ha
      exact ⟨g, hg, hre, hex⟩
    · right
      rw [e, hids] at ha
      obtain ⟨z, hz, rfl⟩ := List.mem_map.1 ha
      exact ⟨z, hz, hre, hex⟩

/-- C113: as in `C113_aside`, for the single commands.  A source is compiled in the later build only if it is
not what it was, or a header, a precompiled header or another file that all sources depend on is not.  The
precompiled header is made again only if one of its headers or one of the other headers is not what it was. -/
theorem C113_commands (h : (m.with allOn).run junk p list ord = some (gs, r))
    (hn : NeatMulti (m.with allOn)) (hp : MultiPlace p (m.with allOn)) (hord : ∀ l, (ord l).Perm l)
    (hout : OutsideAll p (m.with allOn) gs r) (hf : ∀ g ∈ gs, Generator.Fits g.commands)
    (order : Str → List Str) {hist mid₁ between mid₂ : List Reg.WEvent} {w₀ w₁ w₂ w₃ : Reg.World}
    {c₁ c₂ : Str → Reg.Condition} {s₁ s₂ : Str → Reg.Setup}
    (hw₀ : w₀ = (Reg.World.init (Reg.kindsOf (multiTargets r order))).steps hist)
    (hs₁ : ∀ j ∈ (m.with c₁).graph.ids,
      SameSetup (s₁ j) (Reg.setupWith (multiTargets r order) (scriptGens gs) j))
    (hs₂ : ∀ j ∈ (m.with c₂).graph.ids,
      SameSetup (s₂ j) (Reg.setupWith (multiTargets r order) (scriptGens gs) j))
    (h₁ : Undisturbed w₀ (m.with c₁).graph s₁ mid₁ w₁) (hok : (w₁.step .join).result = some true)
    (hw₂ : w₂ = (w₁.step .join).steps between) (h₂ : Undisturbed w₂ (m.with c₂).graph s₂ mid₂ w₃)
    {x : Part × List Filled} (hx : x ∈ r) {f : Filled} (hfx : f ∈ x.2)
    (hon₁ : (c₁ x.1.tc.name).build = true) (hon₂ : (c₂ x.1.tc.name).build = true)
    (hel : ∀ e ∈ between, Elsewhere m x.1.tc.name (targetId x.1.tc.name f.made.name) e)
    {fx : Fixed} {σ : Sys} (hσ : w₃.comps (targetId x.1.tc.name f.made.name) = .target fx σ) :
    (∀ b, .pch b ∈ σ.log → ∃ q ∈ paths f.cfg.headers ++ paths f.cfg.pchs, w₃.files q ≠ w₁.files q) ∧
    ∀ q b, .obj q b ∈ σ.log → ∃ q' ∈ q :: (paths f.cfg.headers ++ paths f.cfg.pchs ++
      paths f.cfg.compileDeps), w₃.files q' ≠ w₁.files q' := by
  have hch := choices_sound h hn hp hord hout order false
  have hr := gens_reflexive h hf
  obtain ⟨v₁, hv₁, hg₁⟩ := choice_of (gs := gs) (r := r) hn hp order c₁
  obtain ⟨v₂, hv₂, hg₂⟩ := choice_of (gs := gs) (r := r) hn hp order c₂
  have hids := part_ids h hn hp hx
  have hj : targetId x.1.tc.name f.made.name ∈ x.1.ids := by
    rw [hids]; exact List.mem_map_of_mem (f := fun f : Filled => targetId x.1.tc.name f.made.name) hfx
  have hin : ∀ {c : Str → Reg.Condition}, (c x.1.tc.name).build = true →
      targetId x.1.tc.name f.made.name ∈ (m.with c).graph.ids := by
    intro c hc
    obtain ⟨y, hy, -, e⟩ := part_on h hx hc
    exact List.mem_append_right _ (List.mem_flatMap.2 ⟨y, hy, by rw [← e] at hj; exact hj⟩)
  obtain ⟨-, hon, -⟩ := multi_parts h
  have hxm : x.1 ∈ (m.with allOn).on := by rw [← hon]; exact List.mem_map_of_mem hx
  have hw₂' : w₂ = (Reg.World.init (Reg.kindsOf (multiTargets r order))).steps
      ((hist ++ .launch (m.with c₁).graph s₁ :: mid₁) ++ .join :: between) := by
    rw [hw₂, steps_run hw₀ h₁]
    simp only [Reg.World.steps, List.foldl_append, List.foldl_cons]
  have hj₁ := hin hon₁
  have hj₂ := hin hon₂
  have hsame : SameSetup (s₂ (targetId x.1.tc.name f.made.name)) (s₁ (targetId x.1.tc.name f.made.name)) :=
    (hs₂ _ hj₂).trans (hs₁ _ hj₁).symm
  have hs₂' := hs₂ _ hj₂
  rw [← hg₁] at hs₁ h₁ hj₁
  rw [← hg₂] at hs₂ h₂ hj₂
  obtain ⟨o, ho⟩ := setup_target h hn hp order hx hfx
  rw [ho] at hs₂'
  have hc : ∃ o', s₂ (targetId x.1.tc.name f.made.name) = .target f.cfg o' := by
    cases hs : s₂ (targetId x.1.tc.name f.made.name) with
    | gen c => rw [hs] at hs₂'; exact hs₂'.elim
    | target c o' => rw [hs] at hs₂'; exact ⟨o', by rw [show c = f.cfg from hs₂']⟩
  obtain ⟨o', hc⟩ := hc
  exact Reg.C94_commands hw₀ (hch.runs hv₁ hs₁ hw₀ h₁) hok hw₂
    (fun e he => elsewhere_out hp hn hxm (hel e he)) (hch.runs hv₂ hs₂ hw₂' h₂) hj₁ hj₂ hsame
    (hch.regular hr hv₁ hs₁ hj₁) hc hσ

/-- C113: in between files are edited and deleted only.  Then

* a generator runs its commands in a later build only if one of its inputs is not what it was, and
* a target runs a command only if that is so for one of the files that it reads itself, or that are read by a
  target for the same toolchain or by a generator on which it is declared to depend, directly or through
  others. -/
theorem C113_affected (h : (m.with allOn).run junk p list ord = some (gs, r))
    (hn : NeatMulti (m.with allOn)) (hp : MultiPlace p (m.with allOn)) (hord : ∀ l, (ord l).Perm l)
    (hout : OutsideAll p (m.with allOn) gs r) (hf : ∀ g ∈ gs, Generator.Fits g.commands)
    (order : Str → List Str) {hist mid₁ between mid₂ : List Reg.WEvent} {w₀ w₁ w₂ w₃ : Reg.World}
    {c₁ c₂ : Str → Reg.Condition} {s₁ s₂ : Str → Reg.Setup}
    (hw₀ : w₀ = (Reg.World.init (Reg.kindsOf (multiTargets r order))).steps hist)
    (hs₁ : ∀ j ∈ (m.with c₁).graph.ids,
      SameSetup (s₁ j) (Reg.setupWith (multiTargets r order) (scriptGens gs) j))
    (hs₂ : ∀ j ∈ (m.with c₂).graph.ids,
      SameSetup (s₂ j) (Reg.setupWith (multiTargets r order) (scriptGens gs) j))
    (h₁ : Undisturbed w₀ (m.with c₁).graph s₁ mid₁ w₁) (hok : (w₁.step .join).result = some true)
    (hto : ∀ e ∈ between, e.touches = true) (hw₂ : w₂ = (w₁.step .join).steps between)
    (h₂ : Undisturbed w₂ (m.with c₂).graph s₂ mid₂ w₃)
    (hle : ∀ n, (c₂ n).build = true → (c₁ n).build = true) :
    (∀ g ∈ gs, Executed (w₃.comps g.name) ∨ Working (w₃.comps g.name) →
      ∃ q ∈ ScriptGen.inputs ⟨g.name, g.cfg⟩, w₂.files q ≠ w₁.files q) ∧
    ∀ x ∈ r, (c₂ x.1.tc.name).build = true → ∀ f ∈ x.2,
      Executed (w₃.comps (targetId x.1.tc.name f.made.name)) ∨
        Working (w₃.comps (targetId x.1.tc.name f.made.name)) →
      (∃ y ∈ x.2, (y = f ∨ Reaches (m.with c₂).graph.edges (targetId x.1.tc.name y.made.name)
          (targetId x.1.tc.name f.made.name)) ∧ ∃ q ∈ reads y.cfg, w₂.files q ≠ w₁.files q) ∨
      ∃ g ∈ gs, Reaches (m.with c₂).graph.edges g.name (targetId x.1.tc.name f.made.name) ∧
        ∃ q ∈ ScriptGen.inputs ⟨g.name, g.cfg⟩, w₂.files q ≠ w₁.files q := by
  have hch := choices_sound h hn hp hord hout order false
  have hr := gens_reflexive h hf
  obtain ⟨v₁, hv₁, hg₁⟩ := choice_of (gs := gs) (r := r) hn hp order c₁
  obtain ⟨v₂, hv₂, hg₂⟩ := choice_of (gs := gs) (r := r) hn hp order c₂
  have hw₂' : w₂ = (Reg.World.init (Reg.kindsOf (multiTargets r order))).steps
      ((hist ++ .launch (m.with c₁).graph s₁ :: mid₁) ++ .join :: between) := by
    rw [hw₂, steps_run hw₀ h₁]
    simp only [Reg.World.steps, List.foldl_append, List.foldl_cons]
  have hsub : ∀ j ∈ (m.with c₂).graph.ids, j ∈ (m.with c₁).graph.ids := fun j hj => with_ids hle hj
  have hsame : ∀ j ∈ (m.with c₂).graph.ids, SameSetup (s₂ j) (s₁ j) := fun j hj =>
    (hs₂ j hj).trans (hs₁ j (hsub j hj)).symm
  have hset := hs₂
  rw [← hg₁] at hs₁ h₁ hsub
  rw [← hg₂] at hs₂ h₂ hsub hsame
  have key : ∀ j ∈ (m.with c₂).graph.ids, Executed (w₃.comps j) ∨ Working (w₃.comps j) →
      ∃ a ∈ (m.with c₂).graph.ids, (a = j ∨ Reaches (m.with c₂).graph.edges a j) ∧
        ∃ q ∈ (s₂ a).inputs, w₂.files q ≠ w₁.files q := by
    rw [← hg₂]
    intro j hj he
    refine Reg.C94_root hw₀ (hch.runs hv₁ hs₁ hw₀ h₁) hok hw₂ ?_ (hch.runs hv₂ hs₂ hw₂' h₂)
      (fun a ha => ⟨hsub a ha, hsame a ha, hch.regular hr hv₁ hs₁ (hsub a ha)⟩) hj he
    intro e he a _
    have := hto e he
    cases e <;> first | rfl | cases this
  have hgin : ∀ g ∈ gs, g.name ∈ (m.with c₂).graph.ids := fun g hg => by
    refine List.mem_append_left _ ?_
    show g.name ∈ m.gens.map (·.name)
    rw [gen_names h]
    exact List.mem_map_of_mem hg
  have hgread : ∀ g ∈ gs, ∀ q ∈ (s₂ g.name).inputs, q ∈ ScriptGen.inputs ⟨g.name, g.cfg⟩ := by
    intro g hg q hq
    have := hset _ (hgin g hg)
    rw [setup_gen h hn hp order hg] at this
    rw [this.inputs] at hq
    exact hq
  refine ⟨fun g hg he => ?_, fun x hx hon f hfx he => ?_⟩
  · obtain ⟨a, -, hre, q, hq, hne⟩ := key _ (hgin g hg) he
    rcases hre with rfl | hre
    · exact ⟨q, hgread g hg q hq, hne⟩
    · refine absurd ?_ (gen_first (with_neat hn c₂) hre)
      show g.name ∈ m.gens.map (·.name)
      rw [gen_names h]
      exact List.mem_map_of_mem hg
  · have hids := part_ids h hn hp hx
    obtain ⟨y, hy, -, e⟩ := part_on h hx hon
    have hxin : ∀ z ∈ x.2, targetId x.1.tc.name z.made.name ∈ y.ids := fun z hz => by
      rw [e, hids]
      exact List.mem_map_of_mem (f := fun f : Filled => targetId x.1.tc.name f.made.name) hz
    have hin : ∀ z ∈ x.2, targetId x.1.tc.name z.made.name ∈ (m.with c₂).graph.ids := fun z hz =>
      List.mem_append_right _ (List.mem_flatMap.2 ⟨y, hy, hxin z hz⟩)
    have hread : ∀ z ∈ x.2, ∀ q ∈ (s₂ (targetId x.1.tc.name z.made.name)).inputs, q ∈ reads z.cfg := by
      intro z hz q hq
      obtain ⟨o, ho⟩ := setup_target h hn hp order hx hz
      have := hset _ (hin z hz)
      rw [ho] at this
      exact target_inputs this hq
    obtain ⟨a, -, hre, q, hq, hne⟩ := key _ (hin f hfx) he
    rcases hre with rfl | hre
    · exact .inl ⟨f, hfx, .inl rfl, q, hread f hfx q hq, hne⟩
    · rcases reaches_part (with_neat hn c₂) (with_place hp c₂) hy hre (hxin f hfx) with ha | ha
      · have ha : a ∈ m.gens.map (·.name) := ha
        rw [gen_names h] at ha
        obtain ⟨g, hg, rfl⟩ := List.mem_map.1 ha
        exact .inr ⟨g, hg, hre, q, hgread g hg q hq, hne⟩
      · rw [e, hids] at ha
        obtain ⟨z, hz, rfl⟩ := List.mem_map.1 ha
        exact .inl ⟨z, hz, .inr hre, q, hread z hz q hq, hne⟩

end Verif.Sample
