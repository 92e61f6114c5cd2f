import Verif.Sample.MultiAgain
import Verif.Reg.OutcomeProps
import Verif.Reg.StoredData

/-!
# When scripts with several toolchains build (C114)
-/

namespace Verif.Sample
open Verif Verif.Schema Verif.Target Verif.Toolchain Verif.Path
open Verif.Reg (Reaches Graph ScriptTarget ScriptGen Undisturbed SameSetup Unbuilt Faulty Thorough)
open Verif.Boot (Filled)

/-! ## Specification -/

/-- The files are there with which the script can be built for the toolchains that are on. -/
structure Ready (p : Project) (gs : List GenMade) (r : List (Part × List Filled)) (c : Str → Reg.Condition)
    (w : Reg.World) : Prop where
  /-- Inputs of generators. -/
  inputs : ∀ g ∈ gs, ∀ q ∈ ScriptGen.inputs ⟨g.name, g.cfg⟩, ∃ t, w.files q = some t
  /-- Files that are given to targets, outside the build directory. -/
  given : ∀ x ∈ r, (c x.1.tc.name).build = true → ∀ f ∈ x.2, ∀ q ∈ Reg.given f.cfg,
    ¬ Inside p.buildDir q → ∃ t, w.files q = some t
  /-- What earlier runs have made is still there. -/
  gens : ∀ g ∈ gs, Unbuilt (w.comps g.name) ∨
    ∀ q ∈ ScriptGen.outputs ⟨g.name, g.cfg⟩, ∃ t, w.files q = some t
  targets : ∀ x ∈ r, (c x.1.tc.name).build = true → ∀ f ∈ x.2,
    Unbuilt (w.comps (targetId x.1.tc.name f.made.name)) ∨ ∃ t, w.files (outputPath f.made.fixed) = some t

/-- In the scripts that were run before, whatever else they build, the generators with these names are file
generators too. -/
def FileGens (gs : List GenMade) : Reg.WEvent → Prop
  | .launch g s => ∀ x ∈ gs, x.name ∈ g.ids → ∀ c, s x.name = .gen c →
      ∃ cmd ins outs commands, Generator.Fits commands ∧ Generator.fileCfg cmd ins outs commands = some c
  | _ => True

variable {junk : Str → Nat → TargetSchema} {p : Project} {list : Str → Option (List Str)}
  {ord : List Str → List Str} {m : Multi} {gs : List GenMade} {r : List (Part × List Filled)}

/-- A file that a target takes from a generator is an output of the generator. -/
theorem generated_output {s : MText} (hn : NeatMixed s) (hp : Reg.Absolute p.buildDir)
    (hord : ∀ l, (ord l).Perm l) (hg : runGens p ord s.gens = some gs) {k : Nat} {q : Str}
    (hq : q ∈ s.generated p k) : ∃ g ∈ gs, q ∈ ScriptGen.outputs ⟨g.name, g.cfg⟩ := by
  rw [MText.generated] at hq
  obtain ⟨x, hx, he⟩ := List.mem_filterMap.1 hq
  cases hk : s.targets[k]? with
  | none => rw [hk] at hx; cases hx
  | some d =>
    rw [hk] at hx
    cases x with
    | step x => cases he
    | genSource i id =>
      obtain ⟨-, -, g, pat, hgi, hname, hpat, hop, ho⟩ := source_parts hn hk hx
      have hf := hn.gens g (List.mem_of_getElem? hgi)
      cases he
      have hlen : gs.length = s.gens.length := by
        have := congrArg List.length (runGens_spec hg).1
        simpa using this
      have hlt : i < gs.length := by rw [hlen]; exact (List.getElem?_eq_some_iff.1 hgi).1
      obtain ⟨h1, fg, h2, h3, -⟩ := (runGens_spec hg).2 i g _ hgi (List.getElem?_eq_getElem hlt)
      refine ⟨gs[i], List.getElem_mem hlt, ?_⟩
      rw [MText.fileAt, hname, hpat]
      have := (outputs_local hord hf hp h2 h3).2 id pat hop ho
      exact this

/-- The data of a file generator can be compared with what a file generator has stored. -/
theorem file_accepts {cmd : Command.Defaults} {ins outs commands : List Str} {c : Generator.Cfg} {σ : Generator.Sys}
    (hf : Generator.Fits commands) (hc : Generator.fileCfg cmd ins outs commands = some c)
    (hd : ∀ x prev, loadGenFile σ.stateFile = some x → Generator.find b!"Generate" x.ids = some prev →
      ∃ l, Generator.Fits l ∧ prev.userblob = Generator.encode l) : Reg.Accepts (.gen σ) (.gen c) := by
  obtain ⟨i, o, -, -, rfl⟩ := Generator.fileCfg_some hc
  intro id i' h hi hh
  have := Generator.find_mem hi
  simp only [List.mem_singleton, Prod.mk.injEq] at this
  obtain ⟨rfl, rfl⟩ := this
  simp only [Option.some.injEq] at hh
  subst hh
  refine ⟨Generator.encode commands, ?_, fun x prev hx hp => ?_⟩
  · simp [Generator.Handler.getSerializedData, Generator.typedHandler, Generator.parse_encode hf]
  · obtain ⟨l, hl, e⟩ := hd x prev hx hp
    refine ⟨!(l == commands), ?_⟩
    simp [Generator.Handler.checkChanged, Generator.typedHandler, e, Generator.parse_encode hf,
      Generator.parse_encode hl, Generator.deserialize_encode hf, Generator.deserialize_encode hl]

/-- The data that such a generator has stored is a list of commands. -/
theorem stored_commands {kinds : Str → Reg.Kind} {hist : List Reg.WEvent} (h : ∀ e ∈ hist, FileGens gs e)
    {g : GenMade} (hg : g ∈ gs) {σ : Generator.Sys}
    (hσ : ((Reg.World.init kinds).steps hist).comps g.name = .gen σ) {x : GenSchema} {prev : IdInfo}
    (hx : loadGenFile σ.stateFile = some x) (hp : Generator.find b!"Generate" x.ids = some prev) :
    ∃ l, Generator.Fits l ∧ prev.userblob = Generator.encode l := by
  refine Reg.stored_history (kinds := kinds) (hist := hist)
    (Q := fun j _ b => (∃ g ∈ gs, j = g.name) → ∃ l, Generator.Fits l ∧ b = Generator.encode l)
    (fun e he => ?_) hσ (id := b!"Generate") (x := prev) (by simp [Generator.storedId, hx, hp]) ⟨g, hg, rfl⟩
  have := h e he
  cases e with
  | launch g' s =>
    rintro j hj c hc id i b hi hb ⟨g, hg, rfl⟩
    obtain ⟨cmd, ins, outs, commands, hf, hcfg⟩ := this g hg hj c hc
    obtain ⟨i', o, -, -, rfl⟩ := Generator.fileCfg_some hcfg
    have := Generator.find_mem hi
    simp only [List.mem_singleton, Prod.mk.injEq] at this
    obtain ⟨rfl, rfl⟩ := this
    refine ⟨commands, hf, ?_⟩
    simp [Generator.blobOf, Generator.Handler.getSerializedData, Generator.typedHandler,
      Generator.parse_encode hf] at hb
    exact hb.symm
  | _ => trivial

/-- The libraries of a target are outputs of targets for the same toolchain. -/
theorem part_libs (h : (m.with allOn).run junk p list ord = some (gs, r))
    (hn : NeatMulti (m.with allOn)) (hp : MultiPlace p (m.with allOn)) {x : Part × List Filled} (hx : x ∈ r)
    {f : Filled} (hf : f ∈ x.2) {q : Str} (hq : q ∈ paths f.cfg.libs) :
    ∃ e ∈ x.2, q = outputPath e.made.fixed := by
  obtain ⟨-, hon, hrun⟩ := multi_parts h
  have hxm : x.1 ∈ (m.with allOn).on := by rw [← hon]; exact List.mem_map_of_mem hx
  obtain ⟨hg, ds, hd, hr⟩ := run_parts (hrun x hx)
  have hneat := plain_neat (hn.parts _ hxm) (hp.place _ hxm) hg hd
  have hran := run_spec hr hneat (mixed_declared (tc := x.1.tc) hd hneat false)
  obtain ⟨e, he, h1, -⟩ := libs_at hran (fun f hf => hran.placed hneat (hp.place _ hxm).place hf [])
    (fun _ => []) hf hq
  exact ⟨e, he, h1⟩

/-- C114: a script with file generators and any number of toolchains, whose text keeps to the rules of
`NeatMulti`, is run after any history, with any of its toolchains on.  The files that are given to the script
outside the build directory exist, nothing that an earlier run has made was deleted, no command fails, no
command removes files, the commands of generators write the declared outputs, and states can be stored.  Then
under every schedule the build succeeds once it has come to its end. -/
theorem C114_script (h : (m.with allOn).run junk p list ord = some (gs, r))
    (hn : NeatMulti (m.with allOn)) (hp : MultiPlace p (m.with allOn)) (hord : ∀ l, (ord l).Perm l)
    (hout : OutsideAll p (m.with allOn) gs r) (hf : ∀ g ∈ gs, Generator.Fits g.commands)
    (order : Str → List Str) {hist mid : List Reg.WEvent} {w₀ w₁ : Reg.World}
    {c : Str → Reg.Condition} {s : Str → Reg.Setup}
    (hw₀ : w₀ = (Reg.World.init (Reg.kindsOf (multiTargets r order))).steps hist)
    (hs : ∀ j ∈ (m.with c).graph.ids,
      SameSetup (s j) (Reg.setupWith (multiTargets r order) (scriptGens gs) j))
    (hfile : ∀ e ∈ hist, FileGens gs e)
    (h₁ : Undisturbed w₀ (m.with c).graph s mid w₁) (hready : Ready p gs r c w₀)
    (hth : ∀ e ∈ mid, Thorough s e) (hfault : ∀ j ∈ (m.with c).graph.ids, ¬ Faulty (w₁.comps j))
    (hj : (w₁.step .join).active = false) : (w₁.step .join).result = some true := by
  have hch := choices_sound h hn hp hord hout order false
  have hr := gens_reflexive h hf
  obtain ⟨v, hv, hg⟩ := choice_of (gs := gs) (r := r) hn hp order c
  obtain ⟨hgens, hon, hrun⟩ := multi_parts h
  have hnd : (Reg.Names (multiTargets r order) (scriptGens gs)).Nodup := by
    obtain ⟨n, hc⟩ := C109_accepted hn hp false
    obtain ⟨ran, hreg⟩ := hc n (Nat.le_refl n)
    exact (multi_perm h hn hp order).nodup (Reg.C37_valid _ _ _ hreg).ids
  have hkind : ∀ j, Reg.OfKind (Reg.kindsOf (multiTargets r order) j) (w₀.comps j) := fun j => by
    rw [hw₀]; exact Reg.ofKind_steps hist _ (Reg.OfKind.init _)
  -- generators
  have hgin : ∀ g ∈ gs, g.name ∈ (m.with c).graph.ids := fun g hg => by
    refine List.mem_append_left _ ?_
    show g.name ∈ m.gens.map (·.name)
    rw [gen_names h]
    exact List.mem_map_of_mem hg
  have hgset : ∀ g ∈ gs, s g.name = .gen g.cfg ∧ ∃ σ, w₀.comps g.name = .gen σ := by
    intro g hg
    have h1 := hs _ (hgin g hg)
    rw [setup_gen h hn hp order hg] at h1
    have h2 := hkind g.name
    rw [(Reg.gen_eq hnd (g := ⟨g.name, g.cfg⟩) (List.mem_map_of_mem hg)).1] at h2
    constructor
    · revert h1
      cases s g.name with
      | target => exact fun h => h.elim
      | gen c => exact fun h => congrArg _ h
    · revert h2
      cases w₀.comps g.name with
      | target => exact fun h => h.elim
      | gen σ => exact fun _ => ⟨σ, rfl⟩
  -- targets
  have htin : ∀ x ∈ r, (c x.1.tc.name).build = true → ∀ f ∈ x.2,
      targetId x.1.tc.name f.made.name ∈ (m.with c).graph.ids := by
    intro x hx hc f hf
    obtain ⟨y, hy, -, e⟩ := part_on h hx hc
    have hj : targetId x.1.tc.name f.made.name ∈ y.ids := by
      rw [e, part_ids h hn hp hx]
      exact List.mem_map_of_mem (f := fun f : Filled => targetId x.1.tc.name f.made.name) hf
    exact List.mem_append_right _ (List.mem_flatMap.2 ⟨y, hy, hj⟩)
  have htset : ∀ x ∈ r, (c x.1.tc.name).build = true → ∀ f ∈ x.2, ∃ o σ,
      s (targetId x.1.tc.name f.made.name) = .target f.cfg o ∧
      w₀.comps (targetId x.1.tc.name f.made.name) = .target f.made.fixed σ := by
    intro x hx hc f hfx
    have h1 := hs _ (htin x hx hc f hfx)
    obtain ⟨o, ho⟩ := setup_target h hn hp order hx hfx
    rw [ho] at h1
    have hm : (⟨f.made, f.cfg, order (targetId x.1.tc.name f.made.name)⟩ : ScriptTarget) ∈
        multiTargets r order := List.mem_flatMap.2 ⟨x, hx, List.mem_map_of_mem hfx⟩
    have h2 := hkind (targetId x.1.tc.name f.made.name)
    have h3 := (Reg.target_eq hnd hm).1
    rw [ScriptTarget.id, part_toolchain h hn hp hx hfx] at h3
    rw [h3] at h2
    cases hsx : s (targetId x.1.tc.name f.made.name) with
    | gen c' => rw [hsx] at h1; exact h1.elim
    | target c' o' =>
      rw [hsx] at h1
      have h1 : c' = f.cfg := h1
      subst h1
      cases hwx : w₀.comps (targetId x.1.tc.name f.made.name) with
      | gen σ => rw [hwx] at h2; exact h2.elim
      | target fx σ =>
        rw [hwx] at h2
        have h2 : fx = f.made.fixed := h2
        subst h2
        exact ⟨o', σ, rfl, rfl⟩
  -- all builders
  have hall : ∀ j ∈ (m.with c).graph.ids, (∃ g ∈ gs, j = g.name) ∨
      ∃ x ∈ r, (c x.1.tc.name).build = true ∧ ∃ f ∈ x.2, j = targetId x.1.tc.name f.made.name := by
    intro j hj
    rcases List.mem_append.1 hj with hj | hj
    · left
      have hj : j ∈ m.gens.map (·.name) := hj
      rw [gen_names h] at hj
      obtain ⟨g, hg, rfl⟩ := List.mem_map.1 hj
      exact ⟨g, hg, rfl⟩
    · right
      obtain ⟨y, hy, hj⟩ := List.mem_flatMap.1 hj
      obtain ⟨hm, ho⟩ := List.mem_filter.1 hy
      obtain ⟨z, hz, rfl⟩ := List.mem_map.1 hm
      have hz' : ({ z with state := allOn z.tc.name } : Part) ∈ (m.with allOn).on :=
        List.mem_filter.2 ⟨List.mem_map_of_mem hz, rfl⟩
      rw [← hon] at hz'
      obtain ⟨x, hx, e⟩ := List.mem_map.1 hz'
      have htc : x.1.tc = z.tc := by rw [e]
      have hid : x.1.ids = z.ids := by rw [e]; rfl
      refine ⟨x, hx, by rw [htc]; exact ho, ?_⟩
      have hj : j ∈ z.ids := hj
      rw [← hid, part_ids h hn hp hx] at hj
      obtain ⟨f, hf, rfl⟩ := List.mem_map.1 hj
      exact ⟨f, hf, rfl⟩
  have hacc : ∀ j ∈ (m.with c).graph.ids, Reg.Accepts (w₀.comps j) (s j) := by
    intro j hj
    rcases hall j hj with ⟨g, hg, rfl⟩ | ⟨x, hx, hc, f, hfx, rfl⟩
    · obtain ⟨h1, σ, h2⟩ := hgset g hg
      obtain ⟨cmd, ins, outs, h3⟩ := gen_data hgens hg
      rw [h1, h2]
      refine file_accepts (hf g hg) h3 fun x prev => stored_commands (kinds := Reg.kindsOf (multiTargets r order))
        (hist := hist) hfile hg (by rw [← hw₀]; exact h2)
    · obtain ⟨o, σ, h1, h2⟩ := htset x hx hc f hfx
      rw [h1, h2]
      trivial
  have hprov : Reg.Provided w₀ (m.with c).graph s := by
    intro b hb q hq
    rcases hall b hb with ⟨g, hg, rfl⟩ | ⟨x, hx, hc, f, hfx, rfl⟩
    · rw [(hgset g hg).1] at hq
      exact .inl (hready.inputs g hg q hq)
    · obtain ⟨o, σ, h1, -⟩ := htset x hx hc f hfx
      have hxm : x.1 ∈ (m.with allOn).on := by rw [← hon]; exact List.mem_map_of_mem hx
      have hq := target_inputs (o := o) (by rw [h1]; exact SameSetup.refl _) hq
      rcases List.mem_append.1 hq with hq | hq
      · by_cases hi : Inside p.buildDir q
        · obtain ⟨k, hk⟩ := List.getElem?_of_mem hfx
          have hgen := (hout.2 x hx).2 k f hk q hq hi
          obtain ⟨g, hg, ho⟩ := generated_output (hn.parts _ hxm) hp.build hord hgens hgen
          rcases hready.gens g hg with hu | hu
          · obtain ⟨h1, σ, h2⟩ := hgset g hg
            refine .inr ⟨g.name, hgin g hg, hu, ?_⟩
            rw [h1, h2]
            exact ho
          · exact .inl (hu q ho)
        · exact .inl (hready.given x hx hc f hfx q hq hi)
      · obtain ⟨e, he, rfl⟩ := part_libs h hn hp hx hfx hq
        rcases hready.targets x hx hc e he with hu | hu
        · obtain ⟨o, σ, h1, h2⟩ := htset x hx hc e he
          refine .inr ⟨_, htin x hx hc e he, hu, ?_⟩
          rw [h1, h2]
          exact List.mem_singleton.2 rfl
        · exact .inl hu
  rw [← hg] at hs h₁ hprov hacc hfault
  exact (Reg.C114_succeeds hw₀ (hch.runs hv hs hw₀ h₁) (fun j hj => hch.regular hr hv hs hj) hacc hprov hth
    hfault hj).1

/-- C114: the first build.  Before it only files were edited and deleted. -/
theorem C114_first (h : (m.with allOn).run junk p list ord = some (gs, r))
    (hn : NeatMulti (m.with allOn)) (hp : MultiPlace p (m.with allOn)) (hord : ∀ l, (ord l).Perm l)
    (hout : OutsideAll p (m.with allOn) gs r) (hf : ∀ g ∈ gs, Generator.Fits g.commands)
    (order : Str → List Str) {hist mid : List Reg.WEvent} {w₀ w₁ : Reg.World}
    {c : Str → Reg.Condition} {s : Str → Reg.Setup}
    (hw₀ : w₀ = (Reg.World.init (Reg.kindsOf (multiTargets r order))).steps hist)
    (hto : ∀ e ∈ hist, e.touches = true)
    (hs : ∀ j ∈ (m.with c).graph.ids,
      SameSetup (s j) (Reg.setupWith (multiTargets r order) (scriptGens gs) j))
    (h₁ : Undisturbed w₀ (m.with c).graph s mid w₁)
    (hin : ∀ g ∈ gs, ∀ q ∈ ScriptGen.inputs ⟨g.name, g.cfg⟩, ∃ t, w₀.files q = some t)
    (hgiven : ∀ x ∈ r, (c x.1.tc.name).build = true → ∀ f ∈ x.2, ∀ q ∈ Reg.given f.cfg,
      ¬ Inside p.buildDir q → ∃ t, w₀.files q = some t)
    (hth : ∀ e ∈ mid, Thorough s e) (hfault : ∀ j ∈ (m.with c).graph.ids, ¬ Faulty (w₁.comps j))
    (hj : (w₁.step .join).active = false) : (w₁.step .join).result = some true := by
  have hnew : ∀ (evs : List Reg.WEvent) (w : Reg.World), (∀ e ∈ evs, e.touches = true) →
      (∀ j, Unbuilt (w.comps j)) → ∀ j, Unbuilt ((w.steps evs).comps j) := by
    intro evs
    induction evs with
    | nil => exact fun _ _ h => h
    | cons e l ih =>
      intro w he hw
      refine ih (w.step e) (fun x hx => he x (List.mem_cons_of_mem _ hx)) fun j => ?_
      have := he e List.mem_cons_self
      have hwr : ∀ q x, Unbuilt ((w.comps j).write q x) := by
        intro q x
        have := hw j
        cases hc : w.comps j <;> rw [hc] at this <;> cases x <;> exact this
      cases e with
      | edit q t => exact hwr q (some t)
      | delete q => exact hwr q none
      | _ => cases this
  have hun : ∀ j, Unbuilt (w₀.comps j) := by
    rw [hw₀]
    refine hnew hist _ hto fun j => ?_
    show Unbuilt (Reg.kindsOf (multiTargets r order) j).init
    cases Reg.kindsOf (multiTargets r order) j <;> rfl
  refine C114_script h hn hp hord hout hf order hw₀ hs (fun e he => ?_) h₁ ⟨hin, hgiven, fun g _ => .inl (hun _),
    fun x _ _ f _ => .inl (hun _)⟩ hth hfault hj
  have := hto e he
  cases e with
  | launch g s => cases this
  | _ => trivial

end Verif.Sample
