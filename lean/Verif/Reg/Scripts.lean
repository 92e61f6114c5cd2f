import Verif.Reg.OneScript

/-! # A build script that is edited between builds -/

namespace Verif.Reg
open Verif Verif.Schema
open Verif.Target (Fixed BinArt objPath outputPath upd paths Clean SameCfg)

/-! ## Specification -/

/-- What is built over time: `F g s` says that the build script, in one of its versions, registers `g`
and configures `s`; `means` is what the data of the ids of a generator mean. -/
abbrev Versions := Graph → (Str → Setup) → Prop

/-- The configurations of a target in the versions of the script. -/
def Versions.target (F : Versions) (j : Str) (c : TargetSchema) : Prop :=
  ∃ g s o, F g s ∧ j ∈ g.ids ∧ s j = .target c o

/-- The configurations of a generator in the versions of the script. -/
def Versions.gen (F : Versions) (j : Str) (c : Generator.Cfg) : Prop :=
  ∃ g s, F g s ∧ j ∈ g.ids ∧ s j = .gen c

/-- The versions of a build script.  Each is sound; a builder stays a target of its kind, or a
generator; sources that are added have object files of their own; a precompiled header is not dropped
without another change of the flags or includes, and its language does not change silently; and data of
generators that their handlers find equal means the same. -/
structure SoundVersions (kinds : Str → Kind) (means : Str → Str → Generator.Blob → Generator.Blob → Prop)
    (F : Versions) : Prop where
  sound : ∀ g s, F g s → SoundScript kinds g s
  shipped : ShippedAll kinds
  targets : ∀ j fx, kinds j = .target fx → Target.Family fx (F.target j)
  gens : ∀ j, Generator.Family (means j) (F.gen j)

/-- If runs of the builder were killed, or could not store their state, and none has stored it since,
then the builder is configured as in these runs. -/
def Resumes : Comp → Setup → Prop
  | .target _ σ, .target c _ => ∀ l ∈ σ.lost, l = c
  | .gen σ, .gen c => ∀ l ∈ σ.lost, l = c
  | _, _ => True

/-- What may happen: files are edited and deleted as in `OfScript`.  Every process runs a version of the
script; a builder whose run was killed is not configured otherwise before a run of it has stored its
state. -/
def OfVersions (F : Versions) (w : World) : WEvent → Prop
  | .edit p t => t ∉ w.used p ∧ ∀ j, ¬ Delicate p (w.comps j)
  | .delete p => ∀ j, ¬ Delicate p (w.comps j)
  | .launch g s => w.active = false → F g s ∧ ∀ j ∈ g.ids, Resumes (w.comps j) (s j)
  | _ => True

def AllOfVersions (F : Versions) : World → List WEvent → Prop
  | _, [] => True
  | w, e :: l => OfVersions F w e ∧ AllOfVersions F (w.step e) l

/-! ## The history of one target -/

/-- All configurations in sight are in `K`. -/
structure KFam (K : TargetSchema → Prop) (σ : Target.Sys) : Prop where
  saved : ∀ s, loadTargetFile σ.stateFile = some s → ∃ k, K k ∧ SameCfg σ.saved k
  run : ∀ r, σ.run = some r → K r.cfg ∧ SameCfg r.user r.cfg

theorem KFam.inner {fx : Fixed} {K : TargetSchema → Prop} {σ : Target.Sys} {e : Target.Event}
    (h : KFam K σ) (he : e.inner = true) : KFam K (Target.step fx σ e) := by
  obtain ⟨h1, h2, h3, _, h5⟩ := Target.step_frame fx σ e he
  refine ⟨by rw [h1, h2]; exact h.saved, ?_⟩
  intro r hr
  have hcfg : K r.cfg := by
    rw [hr] at h5
    obtain ⟨r0, hr0, e0⟩ := Option.map_eq_some_iff.1 h5.symm
    have e1 : r0.cfg = r.cfg := e0
    rw [← e1]; exact (h.run r0 hr0).1
  refine ⟨hcfg, ?_⟩
  clear hcfg
  revert hr
  cases e <;> simp only [Target.Event.inner, Bool.false_eq_true] at he
  all_goals simp only [Target.step, Target.inPhase, Target.Sys.put, Target.lookAt,
          Target.pchTask, Target.pchExec, Target.objTask,
    Target.execObj, Target.addObj, Target.linkTask, Target.linkExec, Target.Sys.fail]
  all_goals repeat' split
  all_goals first
    | exact fun hr => (h.run r hr).2
    | (intro hr
       have h0 := (h.run _ ‹σ.run = some _›).2
       simp only [Option.some.injEq] at hr
       subst hr
       first
         | exact h0
         | exact h0.hashHeaders
         | exact h0.hashHeaders.hashPchs
         | exact h0.hashSources
         | exact h0.hashSources.hashHeaders
         | exact h0.hashSources.hashHeaders.hashDeps
         | exact h0.hashLibs
         | exact h0.hashLibs.hashLinkDeps)

theorem KFam.step {fx : Fixed} {K : TargetSchema → Prop} {σ : Target.Sys} {e : Target.Event}
    (h : KFam K σ) (hst : ∀ c o, e = .start c o → K c) : KFam K (Target.step fx σ e) := by
  by_cases he : e.inner = true
  · exact h.inner he
  · cases e <;> simp only [Target.Event.inner, not_true_eq_false] at he
    · -- dropState
      simp only [Target.step]
      split
      · exact ⟨by simp [loadTargetFile, loadFile], h.run⟩
      · exact h
    · rename_i c o
      simp only [Target.step, Target.startRun]
      split
      · exact h
      · split
        · refine ⟨h.saved, ?_⟩
          intro r hr
          simp only [Option.some.injEq] at hr
          rw [← hr]; exact ⟨hst c o rfl, SameCfg.refl _⟩
        · exact h
    · rename_i b
      simp only [Target.step, Target.inPhase]
      split
      · rename_i r hr
        split
        · obtain ⟨hk, hs⟩ := h.run r hr
          simp only [Target.finishRun]
          split
          · cases htx : targetText r.toStore with
            | none =>
              simp only [storeText, Target.Sys.fail]
              exact ⟨h.saved, by simp⟩
            | some t =>
              cases b with
              | false =>
                simp only [storeText, Target.Sys.fail, Bool.false_eq_true, if_false]
                exact ⟨h.saved, by simp⟩
              | true =>
                simp only [storeText, if_true]
                exact ⟨fun _ _ => ⟨_, hk, hs⟩, by simp⟩
          · exact ⟨h.saved, by simp⟩
        · exact h
      · exact h
    · rename_i w
      simp only [Target.step]
      split
      · rename_i r hr
        obtain ⟨hk, hs⟩ := h.run r hr
        simp only [Target.crashRun]
        split
        · exact ⟨h.saved, by simp⟩
        · split
          · rename_i htx
            split
            · rename_i n _ _ _ text hph hdirty hn
              refine ⟨?_, by simp⟩
              intro s hs2
              have hnone : loadTargetFile (some (text.take n)) = none := by
                simp only [loadTargetFile, loadFile, Option.bind_some]
                refine loadTarget_prefix htx (List.take_append_drop n text).symm ?_
                intro e
                have := congrArg List.length e
                simp at this
                omega
              rw [hnone] at hs2; simp at hs2
            · exact ⟨fun _ _ => ⟨_, hk, hs⟩, by simp⟩
          · exact ⟨h.saved, by simp⟩
      · exact h

theorem KFam.startOk {fx : Fixed} {K : TargetSchema → Prop} {σ : Target.Sys} (hf : Target.Family fx K)
    (h : KFam K σ) (hi : Target.SysInv fx σ) {c : TargetSchema} (hc : K c) (hl : ∀ l ∈ σ.lost, l = c) :
    Target.StartOk fx σ c where
  nodup := hf.nodup c hc
  inj := hf.inj c c hc hc
  injStored := by
    intro s hs p hp q hq
    obtain ⟨k, hk, hsk⟩ := h.saved s hs
    have hst := hi.stored s hs
    refine hf.inj c k hc hk p hp q ?_
    obtain ⟨i, hi, rfl⟩ := Target.mem_paths.1 hq
    rw [← hsk.sources]
    exact Target.mem_paths.2 ⟨i, (hst.sub i hi).1, rfl⟩
  keepPch := fun s _ l h1 _ => by rw [hl l h1]; exact id
  keepObj := fun s _ l h1 => by rw [hl l h1]; exact id
  keepLink := fun s _ l h1 => by rw [hl l h1]; exact id
  pchKept := by
    intro s hs hn hcn
    obtain ⟨k, hk, hsk⟩ := h.saved s hs
    have hst := hi.stored s hs
    have hkn : k.pchs ≠ [] := by
      rcases hst.pchOr with h1 | h1
      · exact fun e => h1.2.2 (hsk.pchs_nil.2 e)
      · exact absurd h1.2 hn
    intro hso
    exact hf.pchKept k c hk hc hkn hcn (hsk.sameObj.symm.trans (hst.sameObj.symm.trans hso))
  pchLang := by
    intro s hs hn hcn hsp
    obtain ⟨k, hk, hsk⟩ := h.saved s hs
    have hst := hi.stored s hs
    rcases hst.pchOr with h1 | h1
    · have hkn : k.pchs ≠ [] := fun e => h1.2.2 (hsk.pchs_nil.2 e)
      have h2 : Target.SamePch s σ.saved := by
        have e := hst.agree
        refine ⟨?_, ?_, ?_, ?_, ?_, ?_, ?_, ?_⟩ <;> first | (rw [h1.2.1]) | (rw [e]; rfl)
      rw [hsk.containsCpp fx]
      exact hf.pchLang k c hk hc hkn hcn (hsk.samePch.symm.trans (h2.symm.trans hsp))
    · exact absurd h1.2 hn

/-! ## All builders -/

/-- A target has had only configurations of the script. -/
def KOf (K : TargetSchema → Prop) : Comp → Prop
  | .target _ σ => KFam K σ
  | .gen _ => True

/-- The event starts a target only with a configuration of the script. -/
def Ev.startsIn (K : TargetSchema → Prop) : Ev → Prop
  | .t (.start c _) => K c
  | _ => True

theorem KOf.step {K : TargetSchema → Prop} {c : Comp} {e : Ev} (h : KOf K c) (he : e.startsIn K) :
    KOf K (c.step e) := by
  cases c <;> cases e <;> try exact trivial
  all_goals try exact h
  refine KFam.step h ?_
  rintro c o rfl
  exact he

theorem KOf.write {K : TargetSchema → Prop} {c : Comp} {p : Str} {x : Option Nat} (h : KOf K c) :
    KOf K (c.write p x) := by
  cases x
  · exact KOf.step (KOf.step h trivial) trivial
  · exact KOf.step (KOf.step h trivial) trivial

theorem KOf.writes {K : TargetSchema → Prop} {j : Str} : ∀ (ws : Writes) (w : World), KOf K (w.comps j) →
    KOf K ((w.writes ws).comps j) := by
  intro ws
  induction ws with
  | nil => intro w h; exact h
  | cons x l ih => intro w h; exact ih (w.write x.1 x.2) (KOf.write h)

theorem startsIn_task {K : TargetSchema → Prop} {e : Ev} (h : e.isTask = true) : e.startsIn K := by
  cases e with
  | t e => cases e <;> first | trivial | simp [Ev.isTask, Target.Event.progress] at h
  | g e => exact trivial

theorem startsIn_look {K : TargetSchema → Prop} {e : Ev} (h : e.isLook = true) : e.startsIn K := by
  cases e with
  | t e => cases e <;> first | trivial | simp [Ev.isLook] at h
  | g e => exact trivial

theorem kOf_step {F : Versions} {w : World} {e : WEvent} (h : ∀ j, KOf (F.target j) (w.comps j))
    (he : OfVersions F w e) : ∀ j, KOf (F.target j) ((w.step e).comps j) := by
  intro j
  have h0 := h j
  cases e with
  | edit p t => exact KOf.write (p := p) (x := some t) h0
  | delete p => exact KOf.write (p := p) (x := none) h0
  | dropState id =>
    simp only [World.step]
    split
    · exact h0
    · simp only [upd]
      split
      · rename_i e; subst e; exact (h0.step (e := .t .dropState) trivial).step (e := .g .dropState) trivial
      · exact h0
  | launch g s =>
    simp only [World.step]
    split
    · rename_i hg
      simp only [Bool.and_eq_true, Bool.not_eq_true'] at hg
      obtain ⟨hF, -⟩ := he hg.1
      simp only
      split
      · rename_i hj
        cases hs : s j with
        | target c o => exact h0.step (e := .t (.start c o)) ⟨g, s, o, hF, hj, hs⟩
        | gen c => exact h0.step (e := .g (.start c)) trivial
      · exact h0
    · exact h0
  | «begin» id =>
    simp only [World.step]
    split <;> exact h0
  | task id e ws =>
    simp only [World.step]
    split
    · rename_i hg
      simp only [Bool.and_eq_true, decide_eq_true_eq] at hg
      rw [task_eq]
      refine KOf.writes ws _ ?_
      simp only [World.stepped]
      split
      · rename_i e'; subst e'; exact h0.step (startsIn_task hg.1.2)
      · split
        · exact (h0.step (e := .t .otherFail) trivial).step (e := .g .otherFail) trivial
        · exact h0
    · exact h0
  | look id e =>
    simp only [World.step]
    split
    · rename_i hg
      simp only [Bool.and_eq_true, decide_eq_true_eq] at hg
      simp only [upd]
      split
      · rename_i e'; subst e'; exact h0.step (startsIn_look hg.2)
      · exact h0
    · exact h0
  | join =>
    simp only [World.step]
    split
    · simp only
      split
      · exact (h0.step (e := .t (.crash none)) trivial).step (e := .g (.crash [] none)) trivial
      · exact h0
    · exact h0
  | kill order written =>
    simp only [World.step]
    split
    · simp only
      split
      · exact (h0.step (e := .t (.crash (written j))) trivial).step
          (e := .g (.crash (order j) (written j))) trivial
      · exact h0
    · exact h0

/-! ## The history keeps to the rules -/

/-- The rules of the versions of a script. -/
def versionRules (means : Str → Str → Generator.Blob → Generator.Blob → Prop) (F : Versions) : Rules where
  means := means
  configs := F.gen

/-- What a history of the versions of a script keeps true. -/
structure VersionsInv (kinds : Str → Kind) (means : Str → Str → Generator.Blob → Generator.Blob → Prop)
    (F : Versions) (w : World) : Prop where
  inv : WInv (versionRules means F) w
  kind : ∀ j, OfKind (kinds j) (w.comps j)
  only : ∀ j, KOf (F.target j) (w.comps j)
  plan : w.active = true → F w.graph w.setup

section
variable {kinds : Str → Kind} {means : Str → Str → Generator.Blob → Generator.Blob → Prop} {F : Versions}

theorem startRule_version (hv : SoundVersions kinds means F) {w : World} (h : VersionsInv kinds means F w)
    {g : Graph} {s : Str → Setup} (hF : F g s) {j : Str} (hj : j ∈ g.ids) (hr : Resumes (w.comps j) (s j)) :
    StartRule (versionRules means F) j (w.comps j) (s j) := by
  have hkind := h.kind j
  have honly := h.only j
  have hgood := h.inv.good j
  revert hr hkind honly hgood
  generalize w.comps j = c
  cases hsj : s j with
  | target cfg o =>
    cases c with
    | gen σ => intros; exact trivial
    | target fx σ =>
      cases hk : kinds j with
      | gen => intro _ hk; exact hk.elim
      | target fx' =>
        intro hr hkind honly hgood
        obtain rfl : fx = fx' := hkind
        intro _
        exact KFam.startOk (hv.targets j _ hk) honly hgood.2.2.1 ⟨g, s, o, hF, hj, hsj⟩ hr
  | gen cfg =>
    cases c with
    | target fx σ => intros; exact trivial
    | gen σ =>
      intro hr _ _ _
      refine ⟨⟨g, s, hF, hj, hsj⟩, ?_⟩
      intro id i t hi _ l hl i' hi' hch
      rw [hr l hl, hi] at hi'
      simp only [Option.some.injEq] at hi'
      subst hi'
      exact hch

theorem allowed_version (hv : SoundVersions kinds means F) {w : World} (h : VersionsInv kinds means F w)
    {e : WEvent} (he : OfVersions F w e) : WAllowed (versionRules means F) w e := by
  cases e with
  | edit p t =>
    obtain ⟨hu, hd⟩ := he
    intro j
    have hr := hd j
    rw [← (h.inv.base.views j).2] at hu
    revert hr hu
    generalize w.comps j = c
    cases c with
    | target fx σ => exact fun hu hr => ⟨⟨hu, fun r h1 h2 h3 h4 => hr ⟨r, h1, h2, h3, h4⟩⟩, trivial⟩
    | gen σ => exact fun hu hr => ⟨trivial, hu, hr⟩
  | delete p =>
    intro j
    have hr := he j
    revert hr
    generalize w.comps j = c
    cases c with
    | target fx σ => intro _; exact trivial
    | gen σ => exact fun hr => hr
  | launch g s =>
    intro ha
    obtain ⟨hF, hr⟩ := he ha
    have hsc := hv.sound g s hF
    refine ⟨hsc.valid, hsc.acyclic, ?_, fun j hj => startRule_version hv h hF hj (hr j hj)⟩
    intro a ha b hb p hp hp'
    rw [(h.kind a).outputs] at hp
    exact hsc.declared a ha b hb p hp hp'
  | _ => exact trivial

theorem versionsInv_init (hv : SoundVersions kinds means F) :
    VersionsInv kinds means F (World.init kinds) where
  inv := wInv_init hv.shipped
  kind := fun j => OfKind.init _
  only := by
    intro j
    simp only [World.init]
    cases kinds j with
    | gen => exact trivial
    | target fx => exact ⟨by simp [Target.Sys.init, loadTargetFile, loadFile], by simp [Target.Sys.init]⟩
  plan := by simp [World.init]

theorem versionsInv_step (hv : SoundVersions kinds means F) {w : World} (h : VersionsInv kinds means F w)
    {e : WEvent} (he : OfVersions F w e) : VersionsInv kinds means F (w.step e) where
  inv := wInv_step (r := versionRules means F) hv.gens h.inv (allowed_version hv h he)
  kind := fun j => ofKind_step e (h.kind j)
  only := kOf_step h.only he
  plan := by
    have hp := h.plan
    cases e with
    | edit p t => exact hp
    | delete p => exact hp
    | launch g s =>
      simp only [World.step]
      split
      · rename_i hg
        simp only [Bool.and_eq_true, Bool.not_eq_true'] at hg
        exact fun _ => (he hg.1).1
      · exact hp
    | task id e ws =>
      simp only [World.step]
      split
      · rw [task_eq]
        obtain ⟨h1, h2, h3, -, -, h6, -⟩ := writes_frame ws (w.stepped id e ws)
        rw [h1, h2, h3]
        exact hp
      · exact hp
    | look id e => simp only [World.step]; split <;> exact hp
    | join => simp only [World.step]; split; · simp
              · exact hp
    | kill o n => simp only [World.step]; split; · simp
                  · exact hp
    | dropState id => simp only [World.step]; split <;> exact hp
    | «begin» id => simp only [World.step]; split <;> exact hp

theorem versionsInv_steps (hv : SoundVersions kinds means F) : ∀ (evs : List WEvent) (w : World),
    VersionsInv kinds means F w → AllOfVersions F w evs →
    VersionsInv kinds means F (w.steps evs) ∧ AllWAllowed (versionRules means F) w evs := by
  intro evs
  induction evs with
  | nil => intro w h _; exact ⟨h, trivial⟩
  | cons e l ih =>
    intro w h ha
    obtain ⟨h1, h2⟩ := ih _ (versionsInv_step hv h ha.1) ha.2
    exact ⟨h1, allowed_version hv h ha.1, h2⟩

end

/-! ## Outputs that nobody else writes -/

/-- The output of the target `a` is, in every version of the script, written by no other builder and
not one of the intermediate files of `a`; nobody changes it by hand. -/
structure OwnedAlways (kinds : Str → Kind) (F : Versions) (evs : List WEvent) (a : Str) (fx : Fixed) :
    Prop where
  kind : kinds a = .target fx
  others : ∀ g s, F g s → ∀ j ∈ g.ids, j ≠ a → outputPath fx ∉ outputs (kinds j).init (s j)
  pch : outputPath fx ∉ pchFiles fx
  objs : ∀ c, F.target a c → ∀ q ∈ paths c.sources, objPath fx q ≠ outputPath fx
  byHand : ∀ e ∈ evs, (∀ t, e ≠ .edit (outputPath fx) t) ∧ e ≠ .delete (outputPath fx)

section
variable {kinds : Str → Kind} {means : Str → Str → Generator.Blob → Generator.Blob → Prop} {F : Versions}

theorem keeps_version {w : World} {a : Str} {fx : Fixed} {evs : List WEvent}
    (h : VersionsInv kinds means F w) (ho : OwnedAlways kinds F evs a fx) {e : WEvent} (he : e ∈ evs) :
    Keeps a (outputPath fx) w e := by
  have hb := ho.byHand e he
  cases e with
  | edit q t => rintro rfl; exact hb.1 t rfl
  | delete q => rintro rfl; exact hb.2 rfl
  | task j e ws =>
    intro hne hp
    revert hne
    simp only [World.step]
    split
    · rename_i hg
      intro _
      simp only [Bool.and_eq_true, decide_eq_true_eq] at hg
      obtain ⟨⟨⟨⟨ha, hb⟩, hr⟩, -⟩, hl⟩ := hg
      have hF := h.plan ha
      obtain ⟨x, hx, hx'⟩ := List.mem_map.1 hp
      have hmw := ((legal_spec hl).2 x hx).1
      rw [hx'] at hmw
      have hj : j ∈ w.graph.ids := h.inv.base.sub j hb
      have htr := h.inv.track ha j hj
      have hgood := h.inv.good j
      have hout := mayWrite_outputs hgood htr hmw
      rw [(h.kind j).outputs] at hout
      have hja : j = a := Classical.byContradiction fun hja => ho.others _ _ hF j hj hja hout
      subst hja
      refine ⟨rfl, ?_⟩
      have hk := h.kind j
      rw [ho.kind] at hk
      revert hk hgood htr hmw
      generalize w.comps j = c
      cases hst : w.setup j with
      | gen c' =>
        cases c with
        | gen σ => intro _ _ _ hk; exact hk.elim
        | target fx' σ => intro _ htr; exact htr.elim
      | target c' o =>
        cases c with
        | gen σ => intro _ _ _ hk; exact hk.elim
        | target fx' σ =>
          intro hmw htr hgood hk
          obtain rfl : fx' = fx := hk
          rcases mayWrite_own hgood htr hmw with h1 | h1 | ⟨q, hq, h1⟩
          · exact h1
          · exact absurd h1 ho.pch
          · exact absurd h1.symm (ho.objs c' ⟨_, _, o, hF, hj, hst⟩ q hq)
    · intro hne; exact absurd rfl hne
  | _ => exact trivial

theorem allKeeps_version (hv : SoundVersions kinds means F) {a : Str} {fx : Fixed} {evs : List WEvent}
    (ho : OwnedAlways kinds F evs a fx) :
    ∀ (l : List WEvent) (w : World), (∀ e ∈ l, e ∈ evs) → VersionsInv kinds means F w →
    AllOfVersions F w l → AllKeeps a (outputPath fx) w l := by
  intro l
  induction l with
  | nil => intros; exact trivial
  | cons e l ih =>
    intro w hl h ha
    exact ⟨keeps_version h ho (hl e (by simp)),
      ih _ (fun e he => hl e (by simp [he])) (versionsInv_step hv h ha.1) ha.2⟩

end

end Verif.Reg
