import Verif.Reg.UnnamedProps
import Verif.Sample.MultiChoices

/-! # Scripts and files that they do not name -/

namespace Verif.Reg
open Verif Verif.Schema
open Verif.Target (Fixed BinArt objPath outputPath upd paths inputPaths Clean)

theorem versions_near {f g : Str → Option Nat} {l : List PathInfo} (h : ∀ p ∈ paths l, f p = g p) :
    Target.versions f l = Target.versions g l := by
  simp only [Target.versions]
  refine List.map_congr_left fun i hi => ?_
  rw [Target.version, Target.version, h i.path (Target.mem_paths.2 ⟨i, hi, rfl⟩)]

/-- To be as after a build from scratch is about the inputs only. -/
theorem clean_near {fx : Fixed} {σ : Target.Sys} {c : TargetSchema} {f : Str → Option Nat} {u : Str → List Nat}
    {b : Bool} {s : Str → List (Option Nat)} {v : Str → Option Nat} (hf : ∀ p ∈ inputPaths c, f p = σ.files p)
    (h : Clean fx (σ.withFiles f u b s v) c) : Clean fx σ c := by
  have e1 : Target.versions f c.pchs = Target.versions σ.files c.pchs :=
    versions_near fun p hp => hf p (by simp [inputPaths, hp])
  have e2 : Target.versions f c.headers = Target.versions σ.files c.headers :=
    versions_near fun p hp => hf p (by simp [inputPaths, hp])
  have e3 : Target.versions f c.compileDeps = Target.versions σ.files c.compileDeps :=
    versions_near fun p hp => hf p (by simp [inputPaths, hp])
  have e4 : Target.versions f c.libs = Target.versions σ.files c.libs :=
    versions_near fun p hp => hf p (by simp [inputPaths, hp])
  have e5 : Target.versions f c.linkDeps = Target.versions σ.files c.linkDeps :=
    versions_near fun p hp => hf p (by simp [inputPaths, hp])
  have p1 : Target.cleanPch fx f c = Target.cleanPch fx σ.files c := by simp only [Target.cleanPch, e1, e2]
  have p2 : Target.cleanPch? fx f c = Target.cleanPch? fx σ.files c := by simp only [Target.cleanPch?, p1]
  have p3 : ∀ p ∈ paths c.sources, Target.cleanObj fx f c p = Target.cleanObj fx σ.files c p := fun p hp => by
    simp only [Target.cleanObj, e2, e3, p2, Target.version, hf p (by simp [inputPaths, hp])]
  obtain ⟨h1, h2, order, h3, h4⟩ := h
  refine ⟨fun hp => (h1 hp).trans (congrArg some p1), fun p hp => (h2 p hp).trans (congrArg some (p3 p hp)),
    order, h3, h4.trans (congrArg some ?_)⟩
  have : order.map (fun s => some (Target.cleanObj fx f c s)) =
      order.map fun s => some (Target.cleanObj fx σ.files c s) :=
    List.map_congr_left fun s hs => by rw [p3 s (h3.mem_iff.1 hs)]
  simp only [Target.cleanBin, Target.Sys.withFiles, this, e4, e5, p2]

theorem sameSetup_files {k : Kind} {a b : Setup} (h : SameSetup a b) : k.files a = k.files b := by
  cases a <;> cases b <;> simp only [SameSetup] at h
  · subst h; cases k <;> rfl
  · subst h; rfl

/-- Processes that run the script stay among its files. -/
theorem within_of {G : Graph → Prop} {s : Str → Setup} {kinds : Str → Kind} {P : Str → Bool}
    (hP : ∀ j, ∀ p ∈ (kinds j).files (s j), P p = true) : ∀ {evs : List WEvent} {w : World},
    AllOfChoices G s w (evs.filter (·.within P)) → Within P kinds evs := by
  have key : ∀ {evs : List WEvent} {w : World}, AllOfChoices G s w evs → Within P kinds evs := by
    intro evs
    induction evs with
    | nil => intro w _ g s' hm; simp at hm
    | cons e l ih =>
      intro w h g s' hm j hj p hp
      rcases List.mem_cons.1 hm with rfl | hm
      · rw [sameSetup_files (h.1.2 j hj)] at hp
        exact hP j p hp
      · exact ih h.2 g s' hm j hj p hp
  intro evs w h g s' hm
  exact key h g s' (List.mem_filter.2 ⟨hm, rfl⟩)

end Verif.Reg

namespace Verif.Sample
open Verif Verif.Schema Verif.Target Verif.Toolchain Verif.Path
open Verif.Reg (Graph Call calls ScriptTarget ScriptGen)
open Verif.Boot (Filled)

variable {junk : Str → Nat → TargetSchema} {p : Project} {list : Str → Option (List Str)}
  {ord : List Str → List Str} {m : Multi} {gs : List GenMade} {r : List (Part × List Filled)}

/-- All files that the targets and generators of the script read or may write are in `P`. -/
structure CoversScript (P : Str → Bool) (gs : List GenMade) (r : List (Part × List Filled)) : Prop where
  targets : ∀ x ∈ r, ∀ f ∈ x.2, ∀ q ∈ (Reg.Kind.target f.made.fixed).files (.target f.cfg []), P q = true
  gens : ∀ g ∈ gs, ∀ q ∈ ScriptGen.inputs ⟨g.name, g.cfg⟩ ++ ScriptGen.outputs ⟨g.name, g.cfg⟩, P q = true

theorem CoversScript.all {P : Str → Bool} (h : CoversScript P gs r) (order : Str → List Str) (j : Str) :
    ∀ q ∈ (Reg.kindsOf (multiTargets r order) j).files (Reg.setupWith (multiTargets r order) (scriptGens gs) j),
      P q = true := by
  intro q hq
  simp only [Reg.kindsOf, Reg.setupWith] at hq
  cases ht : (multiTargets r order).find? (·.id = j) with
  | some d =>
    rw [ht] at hq
    obtain ⟨x, hx, hd⟩ := List.mem_flatMap.1 (List.mem_of_find?_eq_some ht)
    obtain ⟨f, hf, rfl⟩ := List.mem_map.1 hd
    exact h.targets x hx f hf q hq
  | none =>
    rw [ht] at hq
    cases hg : (scriptGens gs).find? (·.name = j) with
    | none => rw [hg] at hq; simp [Reg.Kind.files, Reg.Setup.inputs, Reg.outputs, Reg.Kind.init] at hq
    | some g =>
      rw [hg] at hq
      obtain ⟨g', hg', rfl⟩ := List.mem_map.1 (List.mem_of_find?_eq_some hg)
      exact h.gens g' hg' q hq

/-- **C117** `C110_built` for builds during which other files change.  The files of the script are in `P`;
files outside `P` are edited and deleted at any time, also during the build, and with any time stamps.  What is
asked of the history is asked of it without these changes. -/
theorem C117_built (h : (m.with allOn).run junk p list ord = some (gs, r))
    (hn : NeatMulti (m.with allOn)) (hp : MultiPlace p (m.with allOn)) (hord : ∀ l, (ord l).Perm l)
    (hout : OutsideAll p (m.with allOn) gs r) (order : Str → List Str)
    {P : Str → Bool} (hP : CoversScript P gs r)
    {evs evs' : List Reg.WEvent} (hevs : evs' = evs.filter (·.within P)) {w : Reg.World}
    (hw : w = (Reg.World.init (Reg.kindsOf (multiTargets r order))).steps evs)
    (hal : Reg.AllOfChoices (fun g => ∃ c, g = (m.with c).graph)
      (Reg.setupWith (multiTargets r order) (scriptGens gs))
      (Reg.World.init (Reg.kindsOf (multiTargets r order))) evs')
    (ha : w.active = true)
    (hcalm : ((Reg.World.init (Reg.kindsOf (multiTargets r order))).steps evs').calm = true)
    (hres : (w.step .join).result = some true)
    {c : Str → Reg.Condition} (hc : w.graph = (m.with c).graph) :
    (∀ x ∈ r, (c x.1.tc.name).build = true → ∀ f ∈ x.2, ∃ σ,
      (w.step .join).comps (targetId x.1.tc.name f.made.name) = .target f.made.fixed σ ∧
      Clean f.made.fixed σ f.cfg) ∧
    (∀ g ∈ gs, Generator.Fits g.commands → ∃ σ, (w.step .join).comps g.name = .gen σ ∧
      σ.files = (w.step .join).files ∧
      Reg.Generated σ (ScriptGen.inputs ⟨g.name, g.cfg⟩) (ScriptGen.outputs ⟨g.name, g.cfg⟩) g.commands) ∧
    ∀ x ∈ r, (c x.1.tc.name).build = true → ∀ (i k : Nat) (d : MDecl) (a b : Filled),
      x.1.targets[k]? = some d → .step (.libDep i) ∈ d.steps → x.2[i]? = some a → x.2[k]? = some b →
      (∀ e ∈ evs, (∀ v, e ≠ .edit (outputPath a.made.fixed) v) ∧ e ≠ .delete (outputPath a.made.fixed)) →
      Reg.LinkedWith (w.step .join) (targetId x.1.tc.name a.made.name) (targetId x.1.tc.name b.made.name)
        (outputPath a.made.fixed) := by
  subst hevs
  have hwithin : Reg.Within P (Reg.kindsOf (multiTargets r order)) evs := Reg.within_of (hP.all order) hal
  have hb := Reg.Beside.steps evs (Reg.beside_init P (Reg.kindsOf (multiTargets r order))) hwithin
  rw [← hw] at hb
  have hbj := hb.step .join (fun _ _ e => by cases e)
  obtain ⟨-, k1, k2, k3⟩ := C110_built h hn hp hord hout order rfl hal (hb.active.trans ha) hcalm
    (hbj.result.trans hres) (hb.graph.trans hc)
  have hfiles : ∀ j, ((w.step .join).comps j).files = (w.step .join).files := fun j =>
    Reg.views_steps (kinds := Reg.kindsOf (multiTargets r order)) (evs := evs ++ [.join])
      (by simp [Reg.World.steps, hw]) j
  refine ⟨?_, ?_, ?_⟩
  · intro x hx hbd f hf
    obtain ⟨σ', e1, e2⟩ := k1 x hx hbd f hf
    have hnear := hbj.near (targetId x.1.tc.name f.made.name)
    rw [e1] at hnear
    cases hc' : (w.step .join).comps (targetId x.1.tc.name f.made.name) with
    | gen σ => rw [hc'] at hnear; exact hnear.elim
    | target fx σ =>
      rw [hc'] at hnear
      obtain ⟨rfl, f', u, b, s, v, rfl, hf'⟩ := hnear
      refine ⟨σ, rfl, Reg.clean_near (fun q hq => (hf' q ?_).1) e2⟩
      exact hP.targets x hx f hf q (List.mem_append.2 (.inl hq))
  · intro g hg hfit
    obtain ⟨σ', e1, -, kk, l1, l2, l3, l4, l5⟩ := k2 g hg hfit
    have hnear := hbj.near g.name
    rw [e1] at hnear
    have hv := hfiles g.name
    cases hc' : (w.step .join).comps g.name with
    | target fx σ => rw [hc'] at hnear; exact hnear.elim
    | gen σ =>
      rw [hc'] at hnear hv
      obtain ⟨f', u, s, v, rfl, hf'⟩ := hnear
      refine ⟨σ, rfl, hv, kk, l1, l2, l3.trans ?_, l4, l5⟩
      refine List.map_congr_left fun q hq => ?_
      have := (hf' q (hP.gens g hg q (List.mem_append.2 (.inl hq)))).1
      simp only [Generator.Sys.withFiles, fileHash, this]
  · intro x hx hbd i k d a b hk hs hi hkb hand
    have ha' := List.mem_of_getElem? hi
    obtain ⟨t, bA, bB, l1, l2, l3, l4, l5⟩ := k3 x hx hbd i k d a b hk hs hi hkb
      fun e he => hand e (List.mem_filter.1 he).1
    have hbin : ∀ j, ((((Reg.World.init (Reg.kindsOf (multiTargets r order))).steps
        (evs.filter (·.within P))).step .join).comps j).bin = ((w.step .join).comps j).bin := by
      intro j
      have := (hbj.near j).same
      generalize (w.step .join).comps j = c1 at this
      generalize (((Reg.World.init (Reg.kindsOf (multiTargets r order))).steps
        (evs.filter (·.within P))).step .join).comps j = c2 at this
      cases c1 <;> cases c2 <;> first | exact this.elim | skip
      · exact this.2.2.2.2.2.2.2.2.symm
      · rfl
    have hq : P (outputPath a.made.fixed) = true := by
      refine hP.targets x hx a ha' _ (List.mem_append.2 (.inr ?_))
      simp [Reg.outputs, Reg.Kind.init, Reg.linkFiles]
    refine ⟨t, bA, bB, ?_, ?_, l3, ?_, ?_⟩
    · rw [← (hbj.files _ hq).1]; exact l1
    · rw [← hbin]; exact l2
    · rw [← hbin]; exact l4
    · rw [← hbj.content]; exact l5

end Verif.Sample
