import Verif.Reg.WorldProps
import Verif.Target.Discipline

/-! # One build script that is run again and again -/

namespace Verif.Reg
open Verif Verif.Schema
open Verif.Target (Fixed BinArt objPath outputPath upd paths Clean SameCfg)

/-! ## Specification -/

/-- The configuration fits the kind of the builder. -/
def Fits : Kind → Setup → Prop
  | .target fx, .target c _ =>
    (paths c.sources).Nodup ∧
    ∀ p ∈ paths c.sources, ∀ q ∈ paths c.sources, objPath fx p = objPath fx q → p = q
  | .gen, .gen _ => True
  | _, _ => False

/-- A sound build script: `g` is what it registers, `s` what it configures. -/
structure SoundScript (kinds : Str → Kind) (g : Graph) (s : Str → Setup) : Prop where
  /-- Only the shipped command templates. -/
  shipped : ShippedAll kinds
  /-- Builders are registered once, and dependencies are declared between registered ones. -/
  valid : Valid g
  /-- No builder depends on itself, directly or through others. -/
  acyclic : Acyclic g.edges
  /-- A builder that reads what another one writes depends on it. -/
  declared : ∀ a ∈ g.ids, ∀ b ∈ g.ids, ∀ p, p ∈ outputs (kinds a).init (s a) →
    p ∈ (s b).inputs → Reaches g.edges a b
  /-- Targets are configured as targets and have no two sources with one object file. -/
  fits : ∀ j ∈ g.ids, Fits (kinds j) (s j)

/-- The same configuration; the order in which the objects are linked may differ. -/
def SameSetup : Setup → Setup → Prop
  | .target c _, .target c' _ => c = c'
  | .gen c, .gen c' => c = c'
  | _, _ => False

/-- The builder is just using the file in a way that a change of it would not be noticed later: a
target is between the start of its PCH command and the start of its compile commands and the file is
one of its headers; or a generator has called a callback for the file, or found its id unchanged,
and has not stored its state. -/
def Delicate (p : Str) : Comp → Prop
  | .target _ σ => ∃ r, σ.run = some r ∧ r.cfg.pchs ≠ [] ∧ (r.phase = .pchRun ∨ r.phase = .obj) ∧
      p ∈ paths r.cfg.headers
  | .gen σ => Generator.Relied σ p

/-- The only thing that changes is files: every process runs the script, files are edited and deleted
between builds and also during builds, except those that are just in delicate use, and no file gets
a stamp back that it had before. -/
def OfScript (g : Graph) (s : Str → Setup) (w : World) : WEvent → Prop
  | .edit p t => t ∉ w.used p ∧ ∀ j, ¬ Delicate p (w.comps j)
  | .delete p => ∀ j, ¬ Delicate p (w.comps j)
  | .launch g' s' => g' = g ∧ ∀ j ∈ g.ids, SameSetup (s' j) (s j)
  | _ => True

def AllOfScript (g : Graph) (s : Str → Setup) : World → List WEvent → Prop
  | _, [] => True
  | w, e :: l => OfScript g s w e ∧ AllOfScript g s (w.step e) l

/-! ## The history of one target -/

/-- All configurations in sight are `c`. -/
structure KPart (c : TargetSchema) (σ : Target.Sys) : Prop where
  saved : ∀ s, loadTargetFile σ.stateFile = some s → SameCfg σ.saved c
  lost : ∀ l ∈ σ.lost, l = c
  run : ∀ r, σ.run = some r → r.cfg = c ∧ SameCfg r.user c

theorem KPart.inner {fx : Fixed} {c : TargetSchema} {σ : Target.Sys} {e : Target.Event}
    (h : KPart c σ) (he : e.inner = true) : KPart c (Target.step fx σ e) := by
  obtain ⟨h1, h2, h3, _, h5⟩ := Target.step_frame fx σ e he
  refine ⟨by rw [h1, h2]; exact h.saved, by rw [h3]; exact h.lost, ?_⟩
  intro r hr
  have hcfg : r.cfg = c := by
    rw [hr] at h5
    obtain ⟨r0, hr0, e0⟩ := Option.map_eq_some_iff.1 h5.symm
    exact e0.symm.trans (h.run r0 hr0).1
  refine ⟨hcfg, ?_⟩
  revert hr
  cases e <;> simp only [Target.Event.inner, Bool.false_eq_true] at he
  all_goals simp only [Target.step, Target.inPhase, Target.Sys.put, Target.lookAt,
          Target.pchTask, Target.pchExec, Target.objTask,
    Target.execObj, Target.addObj, Target.linkTask, Target.linkExec, Target.Sys.fail]
  all_goals repeat' split
  all_goals first
    | exact fun hr => (h.run r hr).2
    | (intro hr
       have h0 := (h.run _ ‹σ.run = some _›).2
       simp only [Option.some.injEq] at hr
       subst hr
       first
         | exact h0
         | exact h0.hashHeaders
         | exact h0.hashHeaders.hashPchs
         | exact h0.hashSources
         | exact h0.hashSources.hashHeaders
         | exact h0.hashSources.hashHeaders.hashDeps
         | exact h0.hashLibs
         | exact h0.hashLibs.hashLinkDeps)

theorem KPart.step {fx : Fixed} {c : TargetSchema} {σ : Target.Sys} {e : Target.Event}
    (h : KPart c σ) (hst : ∀ c' o, e = .start c' o → c' = c) : KPart c (Target.step fx σ e) := by
  by_cases he : e.inner = true
  · exact h.inner he
  · cases e <;> simp only [Target.Event.inner, not_true_eq_false] at he
    · -- dropState
      simp only [Target.step]
      split
      · exact ⟨by simp [loadTargetFile, loadFile], h.lost, h.run⟩
      · exact h
    · rename_i c' o
      obtain rfl := hst c' o rfl
      simp only [Target.step, Target.startRun]
      split
      · exact h
      · split
        · refine ⟨h.saved, h.lost, ?_⟩
          intro r hr
          simp only [Option.some.injEq] at hr
          rw [← hr]; exact ⟨rfl, SameCfg.refl _⟩
        · exact h
    · rename_i b
      simp only [Target.step, Target.inPhase]
      split
      · rename_i r hr
        split
        · obtain ⟨hk, hs⟩ := h.run r hr
          simp only [Target.finishRun]
          split
          · cases htx : targetText r.toStore with
            | none =>
              simp only [storeText, Target.Sys.fail]
              exact ⟨h.saved, by simpa [or_imp, forall_and] using ⟨h.lost, hk⟩, by simp⟩
            | some t =>
              cases b with
              | false =>
                simp only [storeText, Target.Sys.fail, Bool.false_eq_true, if_false]
                exact ⟨h.saved, by simpa [or_imp, forall_and] using ⟨h.lost, hk⟩, by simp⟩
              | true =>
                simp only [storeText, if_true]
                exact ⟨fun _ _ => hs, by simp, by simp⟩
          · exact ⟨h.saved, h.lost, by simp⟩
        · exact h
      · exact h
    · rename_i w
      simp only [Target.step]
      split
      · rename_i r hr
        obtain ⟨hk, hs⟩ := h.run r hr
        have hlost : ∀ l ∈ (if r.dirty then σ.lost ++ [r.cfg] else σ.lost), l = c := by
          intro l hl
          split at hl
          · rcases List.mem_append.1 hl with hl | hl
            · exact h.lost l hl
            · simp only [List.mem_singleton] at hl; rw [hl]; exact hk
          · exact h.lost l hl
        simp only [Target.crashRun]
        split
        · exact ⟨h.saved, hlost, by simp⟩
        · split
          · rename_i htx
            split
            · rename_i n _ _ _ text hph hdirty hn
              refine ⟨?_, by simpa [hdirty] using hlost, by simp⟩
              intro s hs2
              have hnone : loadTargetFile (some (text.take n)) = none := by
                simp only [loadTargetFile, loadFile, Option.bind_some]
                refine loadTarget_prefix htx (List.take_append_drop n text).symm ?_
                intro e
                have := congrArg List.length e
                simp at this
                omega
              rw [hnone] at hs2; simp at hs2
            · exact ⟨fun _ _ => hs, by simp, by simp⟩
          · exact ⟨h.saved, hlost, by simp⟩
      · exact h

theorem KPart.kInv {fx : Fixed} {c : TargetSchema} {σ : Target.Sys} (h : KPart c σ)
    (hi : Target.SysInv fx σ) : Target.KInv fx (· = c) σ :=
  ⟨hi, fun s hs => ⟨c, rfl, h.saved s hs⟩, h.lost, fun r hr => (h.run r hr).1,
    .inl fun _ _ ha hb => ha.trans hb.symm⟩

/-! ## All builders -/

/-- The builder has had no other configuration. -/
def KComp : Setup → Comp → Prop
  | .target c _, .target _ σ => KPart c σ
  | .gen c, .gen σ => (∀ l ∈ σ.lost, l = c) ∧ ∀ r, σ.run = some r → r.cfg = c
  | _, _ => True

/-- The event starts no builder with another configuration. -/
def Ev.startsOnly (s : Setup) : Ev → Prop
  | .t (.start c o) => SameSetup (.target c o) s
  | .g (.start c) => SameSetup (.gen c) s
  | _ => True

theorem KComp.step {s : Setup} {c : Comp} {e : Ev} (h : KComp s c) (he : e.startsOnly s) :
    KComp s (c.step e) := by
  cases s <;> cases c <;> cases e <;> try exact trivial
  all_goals try exact h
  · rename_i c o fx σ e
    refine KPart.step h ?_
    rintro c' o' rfl
    exact he
  · rename_i c σ e
    refine Generator.lost_step h ?_
    rintro c' rfl
    exact he

theorem KComp.write {s : Setup} {c : Comp} {p : Str} {x : Option Nat} (h : KComp s c) :
    KComp s (c.write p x) := by
  cases x
  · exact KComp.step (KComp.step h trivial) trivial
  · exact KComp.step (KComp.step h trivial) trivial

theorem KComp.start {s s' : Setup} {c : Comp} (h : KComp s c) (hs : SameSetup s' s) :
    KComp s (c.start s') := by
  cases s'
  · exact KComp.step h hs
  · exact KComp.step h hs

theorem KComp.writes {s : Setup} {j : Str} : ∀ (ws : Writes) (w : World), KComp s (w.comps j) →
    KComp s ((w.writes ws).comps j) := by
  intro ws
  induction ws with
  | nil => intro w h; exact h
  | cons x l ih => intro w h; exact ih (w.write x.1 x.2) (KComp.write h)

theorem startsOnly_task {s : Setup} {e : Ev} (h : e.isTask = true) : e.startsOnly s := by
  cases e with
  | t e => cases e <;> first | trivial | simp [Ev.isTask, Target.Event.progress] at h
  | g e => cases e <;> first | trivial | simp [Ev.isTask, Generator.Event.progress] at h

theorem startsOnly_look {s : Setup} {e : Ev} (h : e.isLook = true) : e.startsOnly s := by
  cases e with
  | t e => cases e <;> first | trivial | simp [Ev.isLook] at h
  | g e => cases e <;> first | trivial | simp [Ev.isLook] at h

theorem kComp_step {g : Graph} {s : Str → Setup} {w : World} {e : WEvent}
    (h : ∀ j ∈ g.ids, KComp (s j) (w.comps j)) (he : OfScript g s w e) :
    ∀ j ∈ g.ids, KComp (s j) ((w.step e).comps j) := by
  intro j hj
  have h0 := h j hj
  cases e with
  | edit p t =>
    · exact KComp.write (p := p) (x := some t) h0
  | delete p => exact KComp.write (p := p) (x := none) h0
  | dropState id =>
    simp only [World.step]
    split
    · exact h0
    · simp only [upd]
      split
      · rename_i e; subst e; exact (h0.step (e := .t .dropState) trivial).step (e := .g .dropState) trivial
      · exact h0
  | launch g' s' =>
    obtain ⟨rfl, hs⟩ := he
    simp only [World.step]
    split
    · simp only [if_pos hj]
      exact h0.start (hs j hj)
    · exact h0
  | «begin» id =>
    simp only [World.step]
    split <;> exact h0
  | task id e ws =>
    simp only [World.step]
    split
    · rename_i hg
      simp only [Bool.and_eq_true, decide_eq_true_eq] at hg
      rw [task_eq]
      refine KComp.writes ws _ ?_
      simp only [World.stepped]
      split
      · rename_i e'; subst e'; exact h0.step (startsOnly_task hg.1.2)
      · split
        · exact (h0.step (e := .t .otherFail) trivial).step (e := .g .otherFail) trivial
        · exact h0
    · exact h0
  | look id e =>
    simp only [World.step]
    split
    · rename_i hg
      simp only [Bool.and_eq_true, decide_eq_true_eq] at hg
      simp only [upd]
      split
      · rename_i e'; subst e'; exact h0.step (startsOnly_look hg.2)
      · exact h0
    · exact h0
  | join =>
    simp only [World.step]
    split
    · simp only
      split
      · exact (h0.step (e := .t (.crash none)) trivial).step (e := .g (.crash [] none)) trivial
      · exact h0
    · exact h0
  | kill order written =>
    simp only [World.step]
    split
    · simp only
      split
      · exact (h0.step (e := .t (.crash (written j))) trivial).step
          (e := .g (.crash (order j) (written j))) trivial
      · exact h0
    · exact h0

/-! ## The kinds do not change -/

/-- The builder is of this kind. -/
def OfKind : Kind → Comp → Prop
  | .target fx, .target fx' _ => fx' = fx
  | .gen, .gen _ => True
  | _, _ => False

theorem OfKind.step {k : Kind} {c : Comp} {e : Ev} (h : OfKind k c) : OfKind k (c.step e) := by
  cases k <;> cases c <;> cases e <;> exact h

theorem OfKind.init (k : Kind) : OfKind k k.init := by cases k <;> trivial

theorem OfKind.outputs {k : Kind} {c : Comp} (h : OfKind k c) (s : Setup) :
    outputs c s = outputs k.init s := by
  cases k <;> cases c <;> try exact h.elim
  · obtain rfl : _ = _ := h
    cases s <;> rfl
  · cases s <;> rfl

theorem OfKind.writes {k : Kind} {j : Str} : ∀ (ws : Writes) (w : World), OfKind k (w.comps j) →
    OfKind k ((w.writes ws).comps j) := by
  intro ws
  induction ws with
  | nil => intro w h; exact h
  | cons x l ih =>
    intro w h
    refine ih (w.write x.1 x.2) ?_
    simp only [World.write]
    cases x.2 <;> exact h.step.step

theorem ofKind_step {k : Kind} {j : Str} {w : World} (e : WEvent) (h : OfKind k (w.comps j)) :
    OfKind k ((w.step e).comps j) := by
  cases e with
  | edit p t =>
    exact h.step.step
  | delete p => exact h.step.step
  | dropState id =>
    simp only [World.step]
    split
    · exact h
    · simp only [upd]
      split
      · rename_i e; subst e; exact h.step.step
      · exact h
  | launch g s =>
    simp only [World.step]
    split
    · simp only
      split
      · cases s j <;> exact h.step
      · exact h
    · exact h
  | «begin» id =>
    simp only [World.step]
    split <;> exact h
  | task id e ws =>
    simp only [World.step]
    split
    · rw [task_eq]
      refine OfKind.writes ws _ ?_
      simp only [World.stepped]
      split
      · rename_i e'; subst e'; exact h.step
      · split
        · exact h.step.step
        · exact h
    · exact h
  | look id e =>
    simp only [World.step]
    split
    · simp only [upd]
      split
      · rename_i e'; subst e'; exact h.step
      · exact h
    · exact h
  | join =>
    simp only [World.step]
    split
    · simp only
      split
      · exact h.step.step
      · exact h
    · exact h
  | kill order written =>
    simp only [World.step]
    split
    · simp only
      split
      · exact h.step.step
      · exact h
    · exact h

/-! ## The history keeps to the rules -/

/-- Data of generators means the same when it is equal. -/
def scriptRules (s : Str → Setup) : Rules where
  means := fun _ _ a b => a = b
  configs := fun j c => s j = .gen c

theorem scriptRules_sound (s : Str → Setup) : (scriptRules s).Sound := by
  intro j
  refine ⟨fun _ _ => rfl, fun _ _ _ _ h1 h2 => h1.trans h2, ?_, ?_⟩
  · intro c c' hc hc' id i i' h a b hi hi' hh ha hb _
    obtain rfl : c = c' := by
      have : Setup.gen c = Setup.gen c' := hc.symm.trans hc'
      exact Setup.gen.inj this
    rw [hi] at hi'; simp only [Option.some.injEq] at hi'; subst hi'
    rw [hb] at ha; exact (Option.some.inj ha).symm
  · intro c c' hc hc' id i i' hi hi' hh
    obtain rfl : c = c' := by
      have : Setup.gen c = Setup.gen c' := hc.symm.trans hc'
      exact Setup.gen.inj this
    rw [hi] at hi'; simp only [Option.some.injEq] at hi'; subst hi'; exact hh

/-- What a history of the script keeps true. -/
structure ScriptInv (kinds : Str → Kind) (g : Graph) (s : Str → Setup) (w : World) : Prop where
  inv : WInv (scriptRules s) w
  kind : ∀ j, OfKind (kinds j) (w.comps j)
  only : ∀ j ∈ g.ids, KComp (s j) (w.comps j)
  plan : w.active = true → w.graph = g ∧ ∀ j ∈ g.ids, SameSetup (w.setup j) (s j)

theorem startRule_of {kinds : Str → Kind} {g : Graph} {s : Str → Setup} {w : World}
    (hsc : SoundScript kinds g s) (h : ScriptInv kinds g s w) {j : Str} (hj : j ∈ g.ids)
    {s' : Setup} (hs : SameSetup s' (s j)) : StartRule (scriptRules s) j (w.comps j) s' := by
  have hfit := hsc.fits j hj
  have hkind := h.kind j
  have honly := h.only j hj
  have hgood := h.inv.good j
  revert hfit hkind honly hgood
  generalize w.comps j = c
  cases hsj : s j with
  | target cfg o =>
    rw [hsj] at hs
    cases s' with
    | gen c' => exact hs.elim
    | target cfg' o' =>
      obtain rfl : cfg' = cfg := hs
      cases c with
      | gen σ => intros; exact trivial
      | target fx σ =>
        cases kinds j with
        | gen => intro _ hk; exact hk.elim
        | target fx' =>
          intro hfit hkind honly hgood
          obtain rfl : fx = fx' := hkind
          intro _
          refine Target.startOk_of ?_ (KPart.kInv honly hgood.2.2.1) rfl
          exact {
            nodup := by rintro c rfl; exact hfit.1
            inj := by rintro a b rfl rfl; exact hfit.2
            pchKept := by rintro a b rfl rfl h1 h2; exact absurd h2 h1
            pchLang := by rintro a b rfl rfl _ _ _; rfl }
  | gen cfg =>
    rw [hsj] at hs
    cases s' with
    | target c' o' => exact hs.elim
    | gen cfg' =>
      obtain rfl : cfg' = cfg := hs
      cases c with
      | target fx σ => intros; exact trivial
      | gen σ =>
        intro _ _ honly _
        refine ⟨hsj, ?_⟩
        intro id i t hi _ l hl i' hi' hch
        rw [honly.1 l hl, hi] at hi'
        simp only [Option.some.injEq] at hi'
        subst hi'
        exact hch

theorem outputs_same {k : Kind} {s s' : Setup} (h : SameSetup s s') :
    outputs k.init s = outputs k.init s' := by
  cases s <;> cases s' <;> first | exact h.elim | (obtain rfl : _ = _ := h; cases k <;> rfl)

theorem inputs_same {s s' : Setup} (h : SameSetup s s') : s.inputs = s'.inputs := by
  cases s <;> cases s' <;> first | exact h.elim | (obtain rfl : _ = _ := h; rfl)

theorem allowed_of {kinds : Str → Kind} {g : Graph} {s : Str → Setup} {w : World}
    (hsc : SoundScript kinds g s) (h : ScriptInv kinds g s w) {e : WEvent}
    (he : OfScript g s w e) : WAllowed (scriptRules s) w e := by
  cases e with
  | edit p t =>
    obtain ⟨hu, hd⟩ := he
    intro j
    have hr := hd j
    rw [← (h.inv.base.views j).2] at hu
    revert hr hu
    generalize w.comps j = c
    cases c with
    | target fx σ => exact fun hu hr => ⟨⟨hu, fun r h1 h2 h3 h4 => hr ⟨r, h1, h2, h3, h4⟩⟩, trivial⟩
    | gen σ => exact fun hu hr => ⟨trivial, hu, hr⟩
  | delete p =>
    intro j
    have hr := he j
    revert hr
    generalize w.comps j = c
    cases c with
    | target fx σ => intro _; exact trivial
    | gen σ => exact fun hr => hr
  | launch g' s' =>
    obtain ⟨rfl, hs⟩ := he
    intro _
    refine ⟨hsc.valid, hsc.acyclic, ?_, fun j hj => startRule_of hsc h hj (hs j hj)⟩
    intro a ha b hb p hp hp'
    rw [(h.kind a).outputs, outputs_same (hs a ha)] at hp
    rw [inputs_same (hs b hb)] at hp'
    exact hsc.declared a ha b hb p hp hp'
  | _ => exact trivial

theorem scriptInv_init {kinds : Str → Kind} {g : Graph} {s : Str → Setup}
    (hsc : SoundScript kinds g s) : ScriptInv kinds g s (World.init kinds) where
  inv := wInv_init hsc.shipped
  kind := fun j => OfKind.init _
  only := by
    intro j hj
    simp only [World.init]
    cases s j <;> cases kinds j <;> try exact trivial
    · exact ⟨by simp [Target.Sys.init, loadTargetFile, loadFile], by simp [Target.Sys.init],
        by simp [Target.Sys.init]⟩
    · exact ⟨by simp [Generator.Sys.init], by simp [Generator.Sys.init]⟩
  plan := by simp [World.init]

theorem scriptInv_step {kinds : Str → Kind} {g : Graph} {s : Str → Setup} {w : World}
    (hsc : SoundScript kinds g s) (h : ScriptInv kinds g s w) {e : WEvent}
    (he : OfScript g s w e) : ScriptInv kinds g s (w.step e) where
  inv := wInv_step (scriptRules_sound s) h.inv (allowed_of hsc h he)
  kind := fun j => ofKind_step e (h.kind j)
  only := kComp_step h.only he
  plan := by
    have hp := h.plan
    cases e with
    | edit p t => exact hp
    | delete p => exact hp
    | launch g' s' =>
      obtain ⟨rfl, hs⟩ := he
      simp only [World.step]
      split
      · exact fun _ => ⟨rfl, hs⟩
      · exact hp
    | task id e ws =>
      simp only [World.step]
      split
      · rw [task_eq]
        obtain ⟨h1, h2, h3, -, -, h6, -⟩ := writes_frame ws (w.stepped id e ws)
        rw [h1, h2, h3]
        exact hp
      · exact hp
    | look id e => simp only [World.step]; split <;> exact hp
    | join => simp only [World.step]; split; · simp
              · exact hp
    | kill o n => simp only [World.step]; split; · simp
                  · exact hp
    | dropState id => simp only [World.step]; split <;> exact hp
    | «begin» id => simp only [World.step]; split <;> exact hp

theorem scriptInv_steps {kinds : Str → Kind} {g : Graph} {s : Str → Setup}
    (hsc : SoundScript kinds g s) : ∀ (evs : List WEvent) (w : World), ScriptInv kinds g s w →
    AllOfScript g s w evs →
    ScriptInv kinds g s (w.steps evs) ∧ AllWAllowed (scriptRules s) w evs := by
  intro evs
  induction evs with
  | nil => intro w h _; exact ⟨h, trivial⟩
  | cons e l ih =>
    intro w h ha
    obtain ⟨h1, h2⟩ := ih _ (scriptInv_step hsc h ha.1) ha.2
    exact ⟨h1, allowed_of hsc h ha.1, h2⟩

/-! ## Outputs that nobody else writes -/

/-- The output of the target `a` is written by no other builder and is not one of the
intermediate files of `a`; nobody changes it by hand. -/
structure Owned (kinds : Str → Kind) (g : Graph) (s : Str → Setup) (evs : List WEvent) (a : Str)
    (fx : Fixed) : Prop where
  kind : kinds a = .target fx
  others : ∀ j ∈ g.ids, j ≠ a → outputPath fx ∉ outputs (kinds j).init (s j)
  pch : outputPath fx ∉ pchFiles fx
  objs : ∀ c o, s a = .target c o → ∀ q ∈ paths c.sources, objPath fx q ≠ outputPath fx
  byHand : ∀ e ∈ evs, (∀ t, e ≠ .edit (outputPath fx) t) ∧ e ≠ .delete (outputPath fx)

theorem mayWrite_own {r : Rules} {j : Str} {calm ok b : Bool} {c : TargetSchema} {o : List Str}
    {fx : Fixed} {σ : Target.Sys} {e : Ev}
    (hg : Good r j (.target fx σ)) (h : Tracked r j calm ok b (.target c o) (.target fx σ)) {p : Str}
    (hp : p ∈ mayWrite (.target fx σ) e) :
    (∃ ok junk, e = .t (.linkExec ok junk)) ∨ p ∈ pchFiles fx ∨
      ∃ q ∈ paths c.sources, p = objPath fx q := by
  obtain ⟨-, -, -, g4⟩ := hg
  cases e with
  | g e => simp [mayWrite] at hp
  | t e =>
    cases hr : σ.run with
    | none => cases e <;> simp [mayWrite, hr] at hp
    | some x =>
      cases e <;> simp only [mayWrite, hr, List.not_mem_nil] at hp
      · split at hp
        · exact .inr (.inl hp)
        · simp at hp
      · split at hp
        · split at hp
          · rename_i i hi
            simp only [List.mem_singleton] at hp
            have := (g4 x hr).2 i (List.mem_of_getElem? hi)
            rw [(h.1 x hr).1] at this
            exact .inr (.inr ⟨_, this, hp⟩)
          · simp at hp
        · simp at hp
      · exact .inl ⟨_, _, rfl⟩

theorem keeps_of {kinds : Str → Kind} {g : Graph} {s : Str → Setup} {w : World} {a : Str}
    {fx : Fixed} {evs : List WEvent} (hsc : SoundScript kinds g s) (h : ScriptInv kinds g s w)
    (ho : Owned kinds g s evs a fx) {e : WEvent} (he : e ∈ evs) : Keeps a (outputPath fx) w e := by
  have hb := ho.byHand e he
  cases e with
  | edit q t => rintro rfl; exact hb.1 t rfl
  | delete q => rintro rfl; exact hb.2 rfl
  | task j e ws =>
    intro hne hp
    revert hne
    simp only [World.step]
    split
    · rename_i hg
      intro _
      simp only [Bool.and_eq_true, decide_eq_true_eq] at hg
      obtain ⟨⟨⟨⟨ha, hb⟩, hr⟩, -⟩, hl⟩ := hg
      obtain ⟨hgr, hset⟩ := h.plan ha
      obtain ⟨x, hx, hx'⟩ := List.mem_map.1 hp
      have hmw := ((legal_spec hl).2 x hx).1
      rw [hx'] at hmw
      have hj : j ∈ w.graph.ids := h.inv.base.sub j hb
      have htr := h.inv.track ha j hj
      have hgood := h.inv.good j
      have hout := mayWrite_outputs hgood htr hmw
      rw [hgr] at hj
      rw [(h.kind j).outputs, outputs_same (hset j hj)] at hout
      have hja : j = a := Classical.byContradiction fun hja => ho.others j hj hja hout
      subst hja
      refine ⟨rfl, ?_⟩
      have hk := h.kind j
      rw [ho.kind] at hk
      have hsame := hset j hj
      revert hk hgood htr hmw hsame
      generalize w.comps j = c
      generalize w.setup j = st
      cases c with
      | gen σ => intro _ _ _ hk; exact hk.elim
      | target fx' σ =>
        intro hmw htr hgood hk hsame
        obtain rfl : fx' = fx := hk
        cases st with
        | gen c => exact htr.elim
        | target c o =>
          rcases mayWrite_own hgood htr hmw with h1 | h1 | ⟨q, hq, h1⟩
          · exact h1
          · exact absurd h1 ho.pch
          · cases hsj : s j with
            | gen c' => rw [hsj] at hsame; exact hsame.elim
            | target c' o' =>
              rw [hsj] at hsame
              obtain rfl : c = c' := hsame
              exact absurd h1.symm (ho.objs c o' hsj q hq)
    · intro hne; exact absurd rfl hne
  | _ => exact trivial

theorem allKeeps_of {kinds : Str → Kind} {g : Graph} {s : Str → Setup} {a : Str}
    {fx : Fixed} {evs : List WEvent} (hsc : SoundScript kinds g s) (ho : Owned kinds g s evs a fx) :
    ∀ (l : List WEvent) (w : World), (∀ e ∈ l, e ∈ evs) → ScriptInv kinds g s w →
    AllOfScript g s w l → AllKeeps a (outputPath fx) w l := by
  intro l
  induction l with
  | nil => intros; exact trivial
  | cons e l ih =>
    intro w hl h ha
    exact ⟨keeps_of hsc h ho (hl e (by simp)),
      ih _ (fun e he => hl e (by simp [he])) (scriptInv_step hsc h ha.1) ha.2⟩

theorem upToDate_same {r : Rules} {j : Str} {s s' : Setup} {c : Comp} (h : SameSetup s s')
    (hu : UpToDate r j s c) : UpToDate r j s' c := by
  cases s <;> cases s' <;> first | exact h.elim | (obtain rfl : _ = _ := h; cases c <;> exact hu)

/-- C40 for one build script that is run again and again.  Files are edited and deleted and
state files are dropped; builds fail, and are killed at any point, even
while they write state files.  Whenever `Reg::Run` returns with success and no file was changed from
outside since the process was started

* every builder of the script is up to date, and
* a target that was given the output of another target with `AddLibDep` is linked with the
  present version of it, which is the result of the last link of that target.

Missing: configurations that change between builds (`C40_up_to_date_partial` and
`C40_linked_partial` cover those that keep to the rules), files edited at
the moments named in `Delicate`. -/
theorem C40_one_script_partial {kinds : Str → Kind} {g : Graph} {s : Str → Setup}
    {evs : List WEvent} {w : World} (hw : w = (World.init kinds).steps evs)
    (hsc : SoundScript kinds g s) (hal : AllOfScript g s (World.init kinds) evs)
    (ha : w.active = true) (hcalm : w.calm = true) (hres : (w.step .join).result = some true) :
    (∀ j ∈ g.ids, UpToDate (scriptRules s) j (s j) ((w.step .join).comps j)) ∧
    ∀ a ∈ g.ids, ∀ b ∈ g.ids, ∀ fx c o, Owned kinds g s evs a fx → s b = .target c o →
      outputPath fx ∈ paths c.libs → LinkedWith (w.step .join) a b (outputPath fx) := by
  obtain ⟨hI, hA⟩ := scriptInv_steps hsc evs _ (scriptInv_init hsc) hal
  rw [← hw] at hI
  obtain ⟨hg, hset⟩ := hI.plan ha
  have hall := C40_up_to_date_partial hw hsc.shipped (scriptRules_sound s) hA ha hcalm hres
  rw [hg] at hall
  refine ⟨fun j hj => upToDate_same (hset j hj) (hall j hj), ?_⟩
  intro a haa b hbb fx c o ho hsb hp
  have hsame := hset b hbb
  rw [hsb] at hsame
  cases hst : w.setup b with
  | gen c' => rw [hst] at hsame; exact hsame.elim
  | target c' o' =>
    rw [hst] at hsame
    obtain rfl : c' = c := hsame
    exact (C40_linked_partial hw hsc.shipped (scriptRules_sound s) hA ha hcalm hres
      (by rw [hg]; exact haa) (by rw [hg]; exact hbb) ho.kind hst hp
      (allKeeps_of hsc ho evs _ (fun _ h => h) (scriptInv_init hsc) hal)).1

end Verif.Reg
