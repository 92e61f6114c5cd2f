import Verif.Target.LinkSteps

/-! # Preservation of the invariant: end of a run, crashes, histories -/

namespace Verif.Target
open Verif Verif.Command Verif.Schema Verif.Json

theorem clean_of {fx : Fixed} {σ : Sys} {u c : TargetSchema} (hs : SameCfg u c)
    (hn : (paths u.sources).Nodup)
    (hl : ∀ i ∈ u.sources ++ u.headers ++ u.compileDeps, Live σ i)
    (hl2 : ∀ i ∈ u.libs ++ u.linkDeps, Live σ i)
    (hp : c.pchs ≠ [] → ∀ i ∈ u.pchs, Live σ i)
    (h1 : c.pchs ≠ [] → σ.pch = some (ePch fx u))
    (h2 : ∀ i ∈ u.sources, σ.objs (objPath fx i.path) = some (eObj fx u i))
    (h3 : ∃ order : List Str, order.Perm (paths u.sources) ∧ σ.bin = some (eBin fx u order)) :
    Clean fx σ c := by
  have vh : rd u.headers = versions σ.files c.headers := versions_of_live hs.headers
    fun i hi => hl i (List.mem_append_left _ (List.mem_append_right _ hi))
  have vd : rd u.compileDeps = versions σ.files c.compileDeps := versions_of_live hs.compileDeps
    fun i hi => hl i (List.mem_append_right _ hi)
  have vl : rd u.libs = versions σ.files c.libs := versions_of_live hs.libs
    fun i hi => hl2 i (List.mem_append_left _ hi)
  have vk : rd u.linkDeps = versions σ.files c.linkDeps := versions_of_live hs.linkDeps
    fun i hi => hl2 i (List.mem_append_right _ hi)
  have vp : c.pchs ≠ [] → ePch fx u = cleanPch fx σ.files c := by
    intro hc
    simp only [ePch, cleanPch, hs.pchCommand fx, vh, versions_of_live hs.pchs (hp hc)]
  have vp2 : ePch? fx u = cleanPch? fx σ.files c := by
    by_cases hc : c.pchs = []
    · simp [ePch?, cleanPch?, hc, hs.pchs_nil.2 hc]
    · have : ¬ u.pchs = [] := fun e => hc (hs.pchs_nil.1 e)
      simp [ePch?, cleanPch?, hc, this, vp hc]
  have vo : ∀ i ∈ u.sources, eObj fx u i = cleanObj fx σ.files c i.path := by
    intro i hi
    have hv : version σ.files i.path = some i.hash :=
      live_hash (hl i (List.mem_append_left _ (List.mem_append_left _ hi)))
    simp only [eObj, cleanObj, hs.compileCommand fx, hv, vh, vd, vp2]
  refine ⟨fun hc => by rw [h1 hc, vp hc], ?_, ?_⟩
  · intro p hpm
    rw [← hs.sources] at hpm
    obtain ⟨i, hi, rfl⟩ := mem_paths.1 hpm
    rw [h2 i hi, vo i hi]
  · obtain ⟨o, ho, hb⟩ := h3
    refine ⟨o, by rw [← hs.sources]; exact ho, ?_⟩
    rw [hb]
    have e : (o.map fun p => some (eObj fx u (infoOf u.sources p))) =
        o.map fun s => some (cleanObj fx σ.files c s) := by
      rw [List.map_inj_left]
      intro p hpm
      have hm := infoOf_path hn (ho.mem_iff.1 hpm)
      rw [vo _ hm]; rfl
    simp only [eBin, cleanBin, hs.linkCommand fx, vl, vk, vp2, e]

/-- The run has done everything. -/
structure Complete (σ : Sys) (r : Run) : Prop where
  done : PchDone σ r
  live : ∀ i ∈ r.user.sources ++ r.user.headers ++ r.user.compileDeps, Live σ i
  liveL : ∀ i ∈ r.user.libs ++ r.user.linkDeps, Live σ i
  livePch : r.cfg.pchs ≠ [] → ∀ i ∈ r.user.pchs ++ r.user.headers, Live σ i
  cover : r.store.sources.Perm r.user.sources

theorem AtFin.complete {σ : Sys} {r : Run} (hp : AtFin σ r) (hok : σ.ok = true)
    (hfr : σ.fresh = true) : Complete σ r :=
  ⟨hp.done hok, fun i hi => (hp.hashed hok i hi).2.1 hfr, fun i hi => (hp.hashedL hok i hi).2.1 hfr,
    fun hc i hi => ((hp.done hok).hashed hc i hi).2.1 hfr, hp.cover hok⟩

theorem Complete.pch_objs {fx : Fixed} {σ : Sys} {r : Run} (hc : Complete σ r)
    (hri : RunInv fx σ r) : (r.cfg.pchs ≠ [] → σ.pch = some (ePch fx r.user)) ∧
      ∀ i ∈ r.user.sources, σ.objs (objPath fx i.path) = some (eObj fx r.user i) := by
  have hv := hri.virt
  constructor
  · intro h
    rcases hv.tPch (hc.done.compiled h) with h1 | ⟨i, hi, h1⟩ | ⟨l, hl, _⟩
    · exact h1
    · exact absurd h1 (hc.livePch h i hi).not_dead
    · simp at hl
  · intro i hi
    have hm : i ∈ (virt r).sources := List.mem_append_right _ (hc.cover.mem_iff.2 hi)
    rcases hv.tObj i hm with h1 | h1 | ⟨l, hl, _⟩
    · exact h1
    · exfalso
      rcases h1 with h1 | ⟨j, hj, h1⟩
      · exact (hc.live i (List.mem_append_left _ (List.mem_append_left _ hi))).not_dead h1
      · rcases List.mem_append.1 hj with hj | hj
        · by_cases hn : r.cfg.pchs = []
          · rcases List.mem_append.1 hj with hj | hj
            · rw [hri.same.pchs_nil.2 hn] at hj; simp at hj
            · exact (hc.live j (List.mem_append_left _ (List.mem_append_right _ hj))).not_dead h1
          · exact (hc.livePch hn j hj).not_dead h1
        · exact (hc.live j (List.mem_append_right _ hj)).not_dead h1
    · simp at hl

theorem Complete.not_deadBin {fx : Fixed} {σ : Sys} {r : Run} (hc : Complete σ r)
    (hri : RunInv fx σ r) : ¬ DeadBin σ r.user := by
  rintro ⟨i, hi, hd⟩
  rcases List.mem_append.1 hi with hi | hi
  · rcases List.mem_append.1 hi with hi | hi
    · rcases List.mem_append.1 hi with hi | hi
      · exact (hc.live i (List.mem_append_left _ (List.mem_append_left _ hi))).not_dead hd
      · rcases List.mem_append.1 hi with hi | hi
        · rcases List.mem_append.1 hi with hi | hi
          · by_cases hn : r.cfg.pchs = []
            · rw [hri.same.pchs_nil.2 hn] at hi; simp at hi
            · exact (hc.livePch hn i (List.mem_append_left _ hi)).not_dead hd
          · exact (hc.live i (List.mem_append_left _ (List.mem_append_right _ hi))).not_dead hd
        · exact (hc.live i (List.mem_append_right _ hi)).not_dead hd
    · exact (hc.liveL i (List.mem_append_left _ hi)).not_dead hd
  · exact (hc.liveL i (List.mem_append_right _ hi)).not_dead hd

theorem lookupInfo_perm {a b : List PathInfo} (h : a.Perm b) (hn : (paths a).Nodup) (p : Str) :
    lookupInfo a p = lookupInfo b p := by
  have hb := nodup_perm_paths h hn
  by_cases hp : p ∈ paths a
  · obtain ⟨i, hi, rfl⟩ := mem_paths.1 hp
    rw [lookupInfo_of_mem hn hi, lookupInfo_of_mem hb (h.mem_iff.1 hi)]
  · have hp2 : p ∉ paths b := fun e => hp ((h.map _).mem_iff.2 e)
    rw [lookupInfo_none.2 hp, lookupInfo_none.2 hp2]

/-- A kept target is the expected one. -/
theorem kept_bin {fx : Fixed} {σ : Sys} {r : Run} (hlc : CompileLocal fx) (hlp : PchLocal fx)
    (h : SysInv fx σ) (hr : σ.run = some r) (hdr : r.dirty = false) (hk : KeepLink r)
    (hnd : ¬ DeadBin σ r.user) :
    ∃ order : List Str, order.Perm (paths r.user.sources) ∧ σ.bin = some (eBin fx r.user order) := by
  have hri := h.run r hr
  have hko := hk.obj
  have hlo := hko.loaded
  obtain ⟨hld, hst⟩ := RunInv.old h hr hlo
  have hkp : r.cfg.pchs ≠ [] → SamePch r.load r.cfg ∧ r.load.pchs = r.user.pchs ∧
      r.load.pchCompiled = true := fun hc => ⟨(hko.pch hc).same, (hko.pch hc).pchs, (hko.pch hc).compiled⟩
  obtain ⟨e1, e2⟩ := kept_eq hlp h hr hdr hri.same hlo hko.same hko.headers hkp (.inr hk.linked)
  have hsp : σ.saved.sources.Perm r.user.sources := (hst.link hk.linked).1.symm.trans hko.sources
  have hinfo : ∀ p, infoOf σ.saved.sources p = infoOf r.user.sources p := fun p => by
    rw [infoOf, infoOf, lookupInfo_perm hsp hst.nodup]
  have hsl : SameLink r.load σ.saved := by
    have e := hst.agree
    refine ⟨?_, ?_, ?_, ?_, ?_, ?_⟩
    · rw [e]; rfl
    · rw [e]; rfl
    · rw [e]; rfl
    · rw [hst.libs]
    · rw [hst.linkDeps]
    · intro p
      exact ((hst.link hk.linked).1.map _).mem_iff
  have hcmd : ∀ o, linkCommand fx σ.saved o = linkCommand fx r.user o := by
    intro o
    refine linkCommand_congr fx (hst.sameObj.symm.trans (hko.same.trans hri.same.sameObj.symm))
      (hsl.symm.trans (hk.same.trans hri.same.sameLink.symm)) (by rw [e1]) ?_ o
    intro hn
    rw [e1] at hn
    have h1 : σ.saved.pchCompileFlags = r.load.pchCompileFlags := by rw [hst.agree]; rfl
    rw [h1, (hko.pch (fun e => hn (hri.same.pchs_nil.2 e))).same.pchFlags, hri.same.pchCompileFlags]
  have heb : ∀ o, eBin fx σ.saved o = eBin fx r.user o := by
    intro o
    have eo : ∀ i, eObj fx σ.saved i = eObj fx r.user i :=
      kept_eObj hlc hlp h hr hdr hri.same hlo hko.same hko.headers hko.deps hkp (.inr hk.linked)
    simp only [eBin, hcmd, e2, hinfo, eo, ← hst.libs, ← hst.linkDeps, hk.libs, hk.deps]
  rcases hst.tBin hk.linked with ⟨o, ho, hb⟩ | h1 | ⟨l, hl, h1⟩
  · exact ⟨o, ho.trans (hsp.map _), by rw [hb, heb]⟩
  · exfalso
    apply hnd
    obtain ⟨i, hi, hd⟩ := h1
    refine ⟨i, ?_, hd⟩
    rw [e1, ← hst.headers, ← hst.deps, ← hst.libs, ← hst.linkDeps, hko.headers, hko.deps, hk.libs,
      hk.deps] at hi
    simp only [List.mem_append, hsp.mem_iff] at hi ⊢
    exact hi
  · exfalso
    rw [attempts_clean hr hdr] at hl
    rcases hri.start.keepLink _ hld l hl h1 with h2 | h2
    · exact not_changesObj hko.same hkp h2
    · exact h2 hk.same

theorem virt_toStore {r : Run} (h : r.executed = []) : virt r = r.toStore := by
  simp [virt, Run.toStore, h, updateStore]

theorem upToDate_virt {fx : Fixed} {σ : Sys} {r : Run} (hc : Complete σ r) (hri : RunInv fx σ r)
    (he : r.executed = []) (hl : r.store.targetLinked = true) (f : Option Str)
    (hf : loadTargetFile f = some r.toStore) (σ' : Sys) (hσ : σ'.files = σ.files)
    (hσf : σ'.stateFile = f) : UpToDate σ' r.toStore r.cfg := by
  have hv := hri.virt
  have hlive : ∀ {i}, Live σ i → Live σ' i := fun {i} h => by simpa [Live, hσ] using h
  refine ⟨by rw [hσf, hf], ?_, ?_, ?_, ?_, hl, ?_, hri.start.nodup, ?_⟩
  · have h1 : SameObj r.toStore r.user := by constructor <;> rfl
    exact h1.trans hri.same.sameObj
  · have h1 : SameLink r.toStore r.user := by
      constructor <;> first | rfl | skip
      intro p
      exact (hc.cover.map _).mem_iff
    exact h1.trans hri.same.sameLink
  · intro hp
    have e : r.store.pchs = r.user.pchs := hc.done.pchs hp
    refine ⟨?_, hc.done.compiled hp, ?_⟩
    · have h1 : SamePch r.toStore r.user := by
        constructor <;> first | rfl | (show paths r.store.pchs = _; rw [e])
      exact h1.trans hri.same.samePch
    · intro i hi
      have : i ∈ r.store.pchs := hi
      rw [e] at this
      exact hlive (hc.livePch hp i (List.mem_append_left _ this))
  · intro hp
    rcases hv.pchOr with h1 | h1
    · exact absurd (hri.same.pchs_nil.2 hp) h1.2.2
    · exact h1.2
  · show (paths r.store.sources).Perm _
    rw [← hri.same.sources]
    exact hc.cover.map _
  · intro i hi
    have hi2 : i ∈ r.store.sources ++ r.user.headers ++ r.user.compileDeps ++ r.user.libs ++
        r.user.linkDeps := hi
    simp only [List.mem_append, hc.cover.mem_iff] at hi2
    apply hlive
    rcases hi2 with (((h1 | h1) | h1) | h1) | h1
    · exact hc.live i (by simp [h1])
    · exact hc.live i (by simp [h1])
    · exact hc.live i (by simp [h1])
    · exact hc.liveL i (by simp [h1])
    · exact hc.liveL i (by simp [h1])

theorem inv_finish {fx : Fixed} {σ : Sys} (hlc : CompileLocal fx) (hlp : PchLocal fx)
    (h : SysInv fx σ) (canOpen : Bool) : SysInv fx (step fx σ (.finish canOpen)) := by
  simp only [step, inPhase]
  split
  · rename_i r hr
    split
    · rename_i hph
      have hri := h.run r hr
      have hp := hri.phase
      rw [PhaseInv, hph] at hp
      simp only at hp
      have hv := hri.virt
      rw [virt_toStore hp.executed] at hv
      simp only [finishRun]
      split
      · rename_i hdirty
        have hat : attempts σ = σ.lost ++ [r.cfg] := by simp [attempts, hr, hdirty]
        have hbad : ∀ σ' : Sys, σ'.files = σ.files → σ'.used = σ.used → σ'.pch = σ.pch →
            σ'.objs = σ.objs → σ'.bin = σ.bin → σ'.stateFile = σ.stateFile → σ'.saved = σ.saved →
            σ'.lost = σ.lost ++ [r.cfg] → σ'.run = none → σ'.done = some ⟨r.cfg, false, false⟩ →
            σ'.seen = σ.seen → σ'.view = σ.view →
            SysInv fx σ' := by
          intro σ' h1 h2 h3 h4 h5 h6 h7 h8 h9 h10 h11 h12
          refine ⟨fun p t hpt => ?_, by rw [h11, h12]; exact h.view, fun s hs => ?_, by simp [h9], by simp [h9], ?_⟩
          · rw [h1] at hpt; rw [h2]; exact h.wf p t hpt
          · rw [h6] at hs
            rw [h7]
            have : attempts σ' = attempts σ := by rw [hat]; simp [attempts, h9, h8]
            rw [this]
            exact (h.stored s hs).still (Fwd.of_eq h1 h2) (fun _ h => h) h3 h4 h5
          · intro d hd hdo
            rw [h10] at hd
            simp only [Option.some.injEq] at hd
            rw [← hd] at hdo
            exact absurd hdo (by simp)
        cases htx : targetText r.toStore with
        | none =>
          simp only [storeText]
          exact hbad _ rfl rfl rfl rfl rfl rfl rfl rfl rfl rfl rfl rfl
        | some t =>
          cases canOpen with
          | false =>
            simp only [storeText, Bool.false_eq_true, if_false]
            exact hbad _ rfl rfl rfl rfl rfl rfl rfl rfl rfl rfl rfl rfl
          | true =>
            simp only [storeText, if_true]
            have hlt : loadTargetFile (some t) = some r.toStore := by
              simp [loadTargetFile, loadFile, loadTarget_text htx]
            refine ⟨h.wf, h.view, fun s hs => ?_, by simp, by simp, ?_⟩
            · rw [hlt] at hs
              simp only [Option.some.injEq] at hs
              subst hs
              exact hv.still (Fwd.of_eq rfl rfl) (fun _ h => by simp at h) rfl rfl rfl
            · intro d hd hdo hfr
              simp only [Option.some.injEq] at hd
              subst hd
              have hok : σ.ok = true := hdo
              have hc := hp.complete hok hfr
              obtain ⟨k1, k2⟩ := hc.pch_objs hri
              have hl := hp.linked hok hdirty
              refine ⟨?_, r.toStore, upToDate_virt hc hri hp.executed hl _ hlt _ rfl rfl⟩
              have hbin : ∃ order : List Str, order.Perm (paths r.user.sources) ∧
                  σ.bin = some (eBin fx r.user order) := by
                rcases hv.tBin hl with h1 | h1 | ⟨l, hl, _⟩
                · exact h1
                · exact absurd h1 (hc.not_deadBin hri)
                · simp at hl
              have hcl := clean_of hri.same hv.nodup hc.live hc.liveL
                (fun hn i hi => hc.livePch hn i (List.mem_append_left _ hi)) k1 k2 hbin
              exact ⟨hcl.pch, hcl.obj, hcl.bin⟩
      · rename_i hdirty
        simp only [Bool.not_eq_true] at hdirty
        have hat : attempts σ = σ.lost := attempts_clean hr hdirty
        refine ⟨h.wf, h.view, fun s hs => ?_, by simp, by simp, ?_⟩
        · have := h.stored s hs
          rw [hat] at this
          refine this.still (Fwd.of_eq rfl rfl) (fun l hl => ?_) rfl rfl rfl
          simp [attempts, hl]
        · intro d hd hdo hfr
          simp only [Option.some.injEq] at hd
          subst hd
          have hok : σ.ok = true := hdo
          have hc := hp.complete hok hfr
          obtain ⟨k1, k2⟩ := hc.pch_objs hri
          have hk := hp.keep hok hdirty
          have hbin := kept_bin hlc hlp h hr hdirty hk (hc.not_deadBin hri)
          have hcl := clean_of hri.same hri.virt.nodup hc.live hc.liveL
            (fun hn i hi => hc.livePch hn i (List.mem_append_left _ hi)) k1 k2 hbin
          refine ⟨⟨hcl.pch, hcl.obj, hcl.bin⟩, r.load, ?_⟩
          have hko := hk.obj
          obtain ⟨hld, hst⟩ := RunInv.old h hr hko.loaded
          refine ⟨hld, hko.same, hk.same, fun hn => ⟨(hko.pch hn).same, (hko.pch hn).compiled, ?_⟩, ?_,
            hk.linked, ?_, hri.start.nodup, ?_⟩
          · rw [(hko.pch hn).pchs]
            exact fun i hi => hc.livePch hn i (List.mem_append_left _ hi)
          · intro hn
            by_cases e : r.load.pchs = []
            · exact e
            · exact absurd hko.same (hri.start.pchKept _ hld e hn)
          · show (paths r.load.sources).Perm (paths r.cfg.sources)
            rw [← hri.same.sources]
            exact hko.sources.map _
          · intro i hi
            simp only [List.mem_append, hko.sources.mem_iff, hko.headers, hko.deps, hk.libs, hk.deps] at hi
            show Live σ i
            rcases hi with (((h1 | h1) | h1) | h1) | h1
            · exact hc.live i (by simp [h1])
            · exact hc.live i (by simp [h1])
            · exact hc.live i (by simp [h1])
            · exact hc.liveL i (by simp [h1])
            · exact hc.liveL i (by simp [h1])
    · exact h
  · exact h

theorem inv_crash {fx : Fixed} {σ : Sys} (h : SysInv fx σ) (w : Option Nat) :
    SysInv fx (step fx σ (.crash w)) := by
  simp only [step]
  split
  · rename_i r hr
    have hri := h.run r hr
    have hdn : σ.done = none := h.doneRun (by simp [hr])
    have hplain : SysInv fx { σ with run := none, lost := if r.dirty then σ.lost ++ [r.cfg] else σ.lost } := by
      refine ⟨h.wf, h.view, fun s hs => ?_, by simp, by simp, ?_⟩
      · refine (h.stored s hs).still (Fwd.of_eq rfl rfl) (fun l hl => ?_) rfl rfl rfl
        simp only [attempts, hr] at hl
        simp only [attempts, List.append_nil]
        cases hd : r.dirty
        · simpa [hd] using hl
        · simpa [hd] using hl
      · intro d hd
        have hd2 : σ.done = some d := hd
        rw [hdn] at hd2; simp at hd2
    simp only [crashRun]
    split
    · exact hplain
    · rename_i n
      split
      · rename_i _ _ _ text hph hdirty htx
        have hp := hri.phase
        rw [PhaseInv, hph] at hp
        simp only at hp
        have hv := hri.virt
        rw [virt_toStore hp.executed] at hv
        split
        · rename_i hn
          have hnone : loadTargetFile (some (text.take n)) = none := by
            simp only [loadTargetFile, loadFile, Option.bind_some]
            refine loadTarget_prefix htx (List.take_append_drop n text).symm ?_
            intro e
            have := congrArg List.length e
            simp at this
            omega
          refine ⟨h.wf, h.view, fun s hs => ?_, by simp, by simp, ?_⟩
          · rw [hnone] at hs; simp at hs
          · intro d hd
            have hd2 : σ.done = some d := hd
            rw [hdn] at hd2; simp at hd2
        · have hlt : loadTargetFile (some text) = some r.toStore := by
            simp [loadTargetFile, loadFile, loadTarget_text htx]
          refine ⟨h.wf, h.view, fun s hs => ?_, by simp, by simp, ?_⟩
          · rw [hlt] at hs
            simp only [Option.some.injEq] at hs
            subst hs
            exact hv.still (Fwd.of_eq rfl rfl) (fun _ h => by simp at h) rfl rfl rfl
          · intro d hd
            have hd2 : σ.done = some d := hd
            rw [hdn] at hd2; simp at hd2
      · exact hplain
  · exact h

theorem inv_init (fx : Fixed) : SysInv fx Sys.init where
  wf := by simp [WF, Sys.init]
  view := by simp [Sys.init]
  stored := by simp [Sys.init, loadTargetFile, loadFile]
  run := by simp [Sys.init]
  doneRun := by simp [Sys.init]
  done := by simp [Sys.init]

theorem inv_step {fx : Fixed} (hlc : CompileLocal fx) (hlp : PchLocal fx) {σ : Sys}
    (h : SysInv fx σ) (e : Event) (ha : Allowed fx σ e) : SysInv fx (step fx σ e) := by
  cases e with
  | edit p t => exact inv_edit h p t ha
  | delete p => exact inv_delete h p
  | tamperObj p a => exact absurd ha (by simp [Allowed])
  | tamperPch a => exact absurd ha (by simp [Allowed])
  | tamperBin a => exact absurd ha (by simp [Allowed])
  | dropState => exact inv_dropState h
  | otherFail => exact inv_otherFail h
  | look p v => exact inv_look h p v
  | start c o => exact inv_start h c o ha
  | pchTask => exact inv_pchTask hlp h
  | pchExec ok junk => exact inv_pchExec h ok junk
  | objTask => exact inv_objTask hlc hlp h
  | exec k ok junk => exact inv_exec h k ok junk
  | add k => exact inv_add h k
  | linkTask => exact inv_linkTask h
  | linkExec ok junk => exact inv_linkExec h ok junk
  | finish c => exact inv_finish hlc hlp h c
  | crash w => exact inv_crash h w

theorem inv_steps {fx : Fixed} (hlc : CompileLocal fx) (hlp : PchLocal fx) (evs : List Event) :
    ∀ {σ : Sys}, SysInv fx σ → AllAllowed fx σ evs → SysInv fx (steps fx σ evs) := by
  induction evs with
  | nil => intro σ h _; exact h
  | cons e l ih =>
    intro σ h ha
    exact ih (inv_step hlc hlp h e ha.1) ha.2

end Verif.Target
