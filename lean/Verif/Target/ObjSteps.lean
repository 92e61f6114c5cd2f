import Verif.Target.RunSteps

/-! # Preservation of the invariant: compilation -/

namespace Verif.Target
open Verif Verif.Command Verif.Schema Verif.Json

/-- The stored state agrees with the configuration it was stored for. -/
theorem Stored.sameObj {fx : Fixed} {σ : Sys} {A : List TargetSchema} {s g : TargetSchema}
    (h : Stored fx σ A s g) : SameObj s g := by
  have e := h.agree
  refine ⟨?_, ?_, ?_, ?_, ?_, ?_, ?_, ?_, ?_⟩ <;> (rw [e]; rfl)

theorem Stored.headers {fx : Fixed} {σ : Sys} {A : List TargetSchema} {s g : TargetSchema}
    (h : Stored fx σ A s g) : s.headers = g.headers := by rw [h.agree]; rfl
theorem Stored.deps {fx : Fixed} {σ : Sys} {A : List TargetSchema} {s g : TargetSchema}
    (h : Stored fx σ A s g) : s.compileDeps = g.compileDeps := by rw [h.agree]; rfl
theorem Stored.libs {fx : Fixed} {σ : Sys} {A : List TargetSchema} {s g : TargetSchema}
    (h : Stored fx σ A s g) : s.libs = g.libs := by rw [h.agree]; rfl
theorem Stored.linkDeps {fx : Fixed} {σ : Sys} {A : List TargetSchema} {s g : TargetSchema}
    (h : Stored fx σ A s g) : s.linkDeps = g.linkDeps := by rw [h.agree]; rfl

theorem objDirty_why {fx : Fixed} {σ : Sys} {r : Run} (h : SysInv fx σ) (hr : σ.run = some r)
    {u : TargetSchema} (hu : SameCfg u r.cfg)
    (hl1 : ∀ i ∈ u.headers, Live σ i) (hl2 : ∀ i ∈ u.compileDeps, Live σ i)
    (hwhy : r.dirty = true → WhyPch σ r) (hdp : r.dirty = true → r.cfg.pchs ≠ [])
    (hd : objDirty r.dirty r.loaded r.load u = true) (hlo : r.loaded = true)
    (hrec : ∀ i ∈ σ.saved.headers ++ σ.saved.compileDeps, Rec σ i) :
    ChangesObj r.load r.cfg ∨
      ∃ i ∈ σ.saved.pchs ++ σ.saved.headers ++ σ.saved.compileDeps, Dead σ i := by
  obtain ⟨hld, hst⟩ := RunInv.old h hr hlo
  cases hdd : r.dirty
  · by_cases hso : SameObj r.load r.cfg
    · right
      have h1 := hso.trans hu.sameObj.symm
      have hfl : objFlagsEq r.load u = true := by
        simp [objFlagsEq, h1.preprocessor, h1.common, h1.pchFlags, h1.asm, h1.c, h1.cpp]
      by_cases hh : r.load.headers = u.headers
      · by_cases hc : r.load.compileDeps = u.compileDeps
        · simp [objDirty, hlo, hfl, hdd, h1.includes, hh, hc] at hd
        · obtain ⟨i, hi, hd⟩ := neq_dead h1.deps
            (fun i hi => hrec i (List.mem_append_right _ (hst.deps ▸ hi))) hl2 hc
          exact ⟨i, List.mem_append_right _ (hst.deps ▸ hi), hd⟩
      · obtain ⟨i, hi, hd⟩ := neq_dead h1.headers
          (fun i hi => hrec i (List.mem_append_left _ (hst.headers ▸ hi))) hl1 hh
        exact ⟨i, List.mem_append_left _ (List.mem_append_right _ (hst.headers ▸ hi)), hd⟩
    · exact .inl (.inl hso)
  · rcases hwhy hdd hlo with h1 | ⟨i, hi, h1⟩
    · exact .inl (.inr ⟨hdp hdd, h1⟩)
    · exact .inr ⟨i, List.mem_append_left _ hi, h1⟩

theorem objDirty_keep {r : Run} {u : TargetSchema} (hu : SameCfg u r.cfg)
    (hd : objDirty r.dirty r.loaded r.load u = false) : r.loaded = true ∧ r.dirty = false ∧
      SameObj r.load r.cfg ∧ r.load.headers = u.headers ∧ r.load.compileDeps = u.compileDeps := by
  simp only [objDirty] at hd
  split at hd
  · exact absurd hd (by simp)
  rename_i hlo
  split at hd
  · exact absurd hd (by simp)
  rename_i hdd
  split at hd
  · exact absurd hd (by simp)
  rename_i hfl
  split at hd
  · exact absurd hd (by simp)
  rename_i hin
  split at hd
  · exact absurd hd (by simp)
  rename_i hh
  simp only [Bool.not_eq_eq_eq_not, Bool.not_true, Bool.not_eq_false] at hfl hlo
  simp only [ne_eq, Decidable.not_not] at hin hh
  simp only [Bool.not_eq_true] at hdd
  simp only [ne_eq, decide_not, Bool.not_eq_eq_eq_not, Bool.not_false, decide_eq_true_eq] at hd
  refine ⟨hlo, hdd, ?_, hh, hd⟩
  simp only [objFlagsEq, Bool.and_eq_true, decide_eq_true_eq] at hfl
  refine SameObj.trans ?_ hu.sameObj
  exact ⟨hfl.1.1.1.1.1, hfl.1.1.1.1.2, hfl.1.1.1.2, hfl.1.1.2, hfl.1.2, hfl.2, hin, by rw [hh],
    by rw [hd]⟩

/-- Stored and expected contents are the same when nothing changed. -/
theorem kept_eq {fx : Fixed} {σ : Sys} {r : Run} (hlp : PchLocal fx)
    (h : SysInv fx σ) (hr : σ.run = some r) (hdr : r.dirty = false) {u : TargetSchema}
    (hu : SameCfg u r.cfg) (hlo : r.loaded = true) (hso : SameObj r.load r.cfg)
    (hh : r.load.headers = u.headers)
    (hkp : r.cfg.pchs ≠ [] → SamePch r.load r.cfg ∧ r.load.pchs = u.pchs ∧ r.load.pchCompiled = true)
    (hne : r.load.sources ≠ [] ∨ r.load.targetLinked = true) :
    σ.saved.pchs = u.pchs ∧ ePch? fx σ.saved = ePch? fx u := by
  obtain ⟨hld, hst⟩ := RunInv.old h hr hlo
  by_cases hp : r.cfg.pchs = []
  · have hup : u.pchs = [] := hu.pchs_nil.2 hp
    have hlp : r.load.pchs = [] := by
      by_cases hn : r.load.pchs = []
      · exact hn
      · exact absurd hso ((h.run r hr).start.pchKept _ hld hn hp)
    have hsp : σ.saved.pchs = [] := by
      rcases hst.pchOr with h1 | h1
      · rw [← h1.2.1, hlp]
      · by_cases hn : σ.saved.pchs = []
        · exact hn
        · have := hne.elim (fun e => hst.srcPch e hn) (fun e => (hst.link e).2.1 hn)
          rw [h1.1] at this
          exact absurd this (by simp)
    simp [hup, hsp, ePch?]
  · obtain ⟨h1, h2, h3⟩ := hkp hp
    obtain ⟨⟨e1, e2, e3⟩, _⟩ := kept_pch hlp h hr hdr hu hp hlo h1 hh h2 h3
    exact ⟨e2, by simp [ePch?, e1, e2]⟩

theorem kept_eObj {fx : Fixed} {σ : Sys} {r : Run} (hlc : CompileLocal fx) (hlp : PchLocal fx)
    (h : SysInv fx σ) (hr : σ.run = some r) (hdr : r.dirty = false) {u : TargetSchema}
    (hu : SameCfg u r.cfg) (hlo : r.loaded = true) (hso : SameObj r.load r.cfg)
    (hh : r.load.headers = u.headers) (hc : r.load.compileDeps = u.compileDeps)
    (hkp : r.cfg.pchs ≠ [] → SamePch r.load r.cfg ∧ r.load.pchs = u.pchs ∧ r.load.pchCompiled = true)
    (hne : r.load.sources ≠ [] ∨ r.load.targetLinked = true) (i : PathInfo) :
    eObj fx σ.saved i = eObj fx u i := by
  obtain ⟨hld, hst⟩ := RunInv.old h hr hlo
  obtain ⟨e1, e2⟩ := kept_eq hlp h hr hdr hu hlo hso hh hkp hne
  have e3 : compileCommand fx σ.saved i.path = compileCommand fx u i.path := by
    refine hlc _ _ _ (hst.sameObj.symm.trans (hso.trans hu.sameObj.symm)) ?_
    rw [e1]
  simp only [eObj, e2, e3, ← hst.headers, ← hst.deps, hh, hc]

theorem not_changesObj {r : Run} {u : TargetSchema} (hso : SameObj r.load r.cfg)
    (hkp : r.cfg.pchs ≠ [] → SamePch r.load r.cfg ∧ r.load.pchs = u.pchs ∧ r.load.pchCompiled = true) :
    ¬ ChangesObj r.load r.cfg := by
  rintro (h1 | ⟨h1, h2⟩)
  · exact h1 hso
  · exact h2 (hkp h1).1

/-- A kept object is the expected one, or outdated. -/
theorem kept_obj {fx : Fixed} {σ : Sys} {r : Run} (hlc : CompileLocal fx) (hlp : PchLocal fx)
    (h : SysInv fx σ) (hr : σ.run = some r) (hdr : r.dirty = false) {u : TargetSchema}
    (hu : SameCfg u r.cfg) (hlo : r.loaded = true) (hso : SameObj r.load r.cfg)
    (hh : r.load.headers = u.headers) (hc : r.load.compileDeps = u.compileDeps)
    (hkp : r.cfg.pchs ≠ [] → SamePch r.load r.cfg ∧ r.load.pchs = u.pchs ∧ r.load.pchCompiled = true)
    {i : PathInfo} (hi : i ∈ r.load.sources) :
    σ.objs (objPath fx i.path) = some (eObj fx u i) ∨ DeadObj σ u i := by
  obtain ⟨hld, hst⟩ := RunInv.old h hr hlo
  have hne : r.load.sources ≠ [] := by intro e; rw [e] at hi; simp at hi
  have he := kept_eObj hlc hlp h hr hdr hu hlo hso hh hc hkp (.inl hne) i
  obtain ⟨e1, e2⟩ := kept_eq hlp h hr hdr hu hlo hso hh hkp (.inl hne)
  rcases hst.tObj i hi with h1 | h1 | ⟨l, hl, h1⟩
  · exact .inl (he ▸ h1)
  · right
    simpa [DeadObj, ← hst.headers, ← hst.deps, hh, hc, e1] using h1
  · rw [attempts_clean hr hdr] at hl
    exact absurd ((h.run r hr).start.keepObj _ hld l hl h1) (not_changesObj hso hkp)

/-- Rehashing before compilation keeps the PCH part. -/
theorem stored_rehash {fx : Fixed} {σ : Sys} {r r' : Run} (hri : RunInv fx σ r)
    (hp : AtObj σ r) (hsame : SameCfg r'.user r.cfg) (hpchs : r'.user.pchs = r.user.pchs)
    (hhd : r.cfg.pchs ≠ [] → r'.user.headers = r.user.headers)
    (he : r'.executed = []) (hst : r'.store = r.store) : Stored fx σ [] (virt r') r'.user := by
  have hv := hri.virt
  have hcp : r.store.pchCompiled = true → r.cfg.pchs ≠ [] := by
    intro hc e
    rcases hv.pchOr with h1 | h1
    · exact h1.2.2 (hri.same.pchs_nil.2 e)
    · have : r.store.pchCompiled = false := h1.1
      rw [this] at hc; exact absurd hc (by simp)
  refine stored_of_pch he (by rw [hst]; exact hp.sources) (by rw [hst]; exact hp.linked) ?_ ?_ ?_ ?_
  · rw [hsame.sources]; exact hri.start.nodup
  · rw [hst, hpchs]; exact hv.pchOr
  · rw [hst, hpchs]
    intro hc
    rw [hhd (hcp hc)]
    exact hv.pchRec hc
  · rw [hst]
    intro hc
    have e : ePch fx r'.user = ePch fx r.user :=
      ePch_congr (hsame.trans hri.same.symm) hpchs (hhd (hcp hc))
    rw [e]
    rcases hv.tPch hc with h1 | h1 | ⟨l, hl, _⟩
    · exact .inl h1
    · right
      simpa [DeadPch, hpchs, hhd (hcp hc)] using h1
    · simp at hl

theorem stored_rehash' {fx : Fixed} {σ σ' : Sys} {r r' : Run} (hri : RunInv fx σ r)
    (hp : AtObj σ r) (hfi : σ'.files = σ.files) (hu : σ'.used = σ.used) (hpch : σ'.pch = σ.pch)
    (hobj : σ'.objs = σ.objs) (hbin : σ'.bin = σ.bin)
    (hsame : SameCfg r'.user r.cfg) (hpchs : r'.user.pchs = r.user.pchs)
    (hhd : r.cfg.pchs ≠ [] → r'.user.headers = r.user.headers)
    (he : r'.executed = []) (hst : r'.store = r.store) : Stored fx σ' [] (virt r') r'.user :=
  (stored_rehash hri hp hsame hpchs hhd he hst).still (Fwd.of_eq hfi hu) (fun _ h => h) hpch hobj hbin

theorem inv_objTask' {fx : Fixed} {σ : Sys} (hlc : CompileLocal fx) (hlp : PchLocal fx)
    (hset : Settled σ) (h : SysInv fx σ) : SysInv fx (inPhase σ .obj (objTask σ)) := by
  simp only [inPhase]
  split
  · rename_i r hr
    split
    · rename_i hph
      have hri := h.run r hr
      have hp := hri.phase
      rw [PhaseInv, hph] at hp
      simp only at hp
      simp only [objTask]
      split
      · rename_i hok
        simp only [Bool.not_eq_eq_eq_not, Bool.not_true] at hok
        refine h.advance' hr rfl rfl rfl rfl rfl rfl rfl rfl rfl rfl rfl (fun h => h) rfl rfl rfl
          hri.same ?_ ?_
        · exact stored_rehash' hri hp rfl rfl rfl rfl rfl hri.same rfl (fun _ => rfl) hp.executed rfl
        · exact ⟨hp.pending, hp.executed, hok⟩
      · rename_i hok
        simp only [Bool.not_eq_eq_eq_not, Bool.not_true, Bool.not_eq_false] at hok
        have hdone := hp.done hok
        have hhs : r.cfg.pchs ≠ [] → (hashAll σ.files r.user.headers).1 = r.user.headers :=
          fun hc => hashAll_still σ _ (hp.still hok hc)
        have hs1 := hri.same.hashSources (f := σ.files)
        have hs2 := hs1.hashHeaders (f := σ.files)
        have hs3 := hs2.hashDeps (f := σ.files)
        split
        · refine h.advance' hr rfl rfl rfl rfl rfl rfl rfl rfl rfl rfl rfl (fun h => h) rfl rfl rfl
            hs1 ?_ ?_
          · exact stored_rehash' hri hp rfl rfl rfl rfl rfl hs1 rfl (fun _ => rfl) hp.executed rfl
          · exact ⟨hp.pending, hp.executed, rfl⟩
        · rename_i hh1
          simp only [Bool.not_eq_eq_eq_not, Bool.not_true, Bool.not_eq_false] at hh1
          split
          · refine h.advance' hr rfl rfl rfl rfl rfl rfl rfl rfl rfl rfl rfl (fun h => h) rfl rfl rfl
              hs2 ?_ ?_
            · exact stored_rehash' hri hp rfl rfl rfl rfl rfl hs2 rfl hhs hp.executed rfl
            · exact ⟨hp.pending, hp.executed, rfl⟩
          · rename_i hh2
            simp only [Bool.not_eq_eq_eq_not, Bool.not_true, Bool.not_eq_false] at hh2
            split
            · refine h.advance' hr rfl rfl rfl rfl rfl rfl rfl rfl rfl rfl rfl (fun h => h) rfl rfl rfl
                hs3 ?_ ?_
              · exact stored_rehash' hri hp rfl rfl rfl rfl rfl hs3 rfl hhs hp.executed rfl
              · exact ⟨hp.pending, hp.executed, rfl⟩
            · rename_i hh3
              simp only [Bool.not_eq_eq_eq_not, Bool.not_true, Bool.not_eq_false] at hh3
              have hl1 := hashAll_live σ _ hh1
              have hl2 := hashAll_live σ _ hh2
              have hl3 := hashAll_live σ _ hh3
              have hash := hashed_of_live hset h.wf (l := (hashAll σ.files r.user.sources).1 ++
                  (hashAll σ.files r.user.headers).1 ++ (hashAll σ.files r.user.compileDeps).1)
                fun i hi => (List.mem_append.1 hi).elim
                  (fun hi => (List.mem_append.1 hi).elim (hl1 i) (hl2 i)) (hl3 i)
              have hps : paths (hashAll σ.files r.user.sources).1 = paths r.cfg.sources := hs3.sources
              have hnod : (paths (hashAll σ.files r.user.sources).1).Nodup := by
                rw [hps]; exact hri.start.nodup
              have hdone' : ∀ r' : Run, r'.cfg = r.cfg → r'.store.pchs = r.store.pchs →
                  r'.store.pchCompiled = r.store.pchCompiled → r'.user.pchs = r.user.pchs →
                  (r.cfg.pchs ≠ [] → r'.user.headers = r.user.headers) → PchDone σ r' := by
                intro r' e1 e2 e3 e4 e5
                refine ⟨?_, ?_, ?_⟩
                · rw [e1, e2, e4]; exact hdone.pchs
                · rw [e1, e3]; exact hdone.compiled
                · rw [e1, e4]
                  intro hc
                  rw [e5 hc]
                  exact hdone.hashed hc
              split
              · rename_i hdirty
                have hwhy := objDirty_why h hr hs3 hl2 hl3 hp.why hp.dirtyPch hdirty
                refine h.advance' hr rfl rfl rfl rfl rfl rfl rfl rfl rfl rfl rfl (fun _ => rfl) rfl rfl
                  rfl hs3 ?_ ?_
                · exact stored_rehash' hri hp rfl rfl rfl rfl rfl hs3 rfl hhs hp.executed rfl
                · refine ⟨hp.linked, PchDone.frame (σ := σ) (hdone' _ rfl rfl rfl rfl hhs)
                    (Fwd.of_eq rfl rfl) (Keeps.of_eq rfl rfl) (fun h => ⟨h, rfl⟩), hash, ?_, ?_, fun i hi => hi, ?_,
                    fun _ => rfl, fun _ => ?_, by simp⟩
                  · intro _; simp [hp.executed, hp.sources]
                  · simpa [hp.executed, hp.sources] using hnod
                  · intro hlo x hx s hs _
                    obtain ⟨hld, hst⟩ := RunInv.old h hr hlo
                    have hne : r.load.sources ≠ [] := by intro e; rw [e] at hs; simp at hs
                    rcases hwhy hlo (hst.srcRec hne) with h1 | ⟨i, hi, h1⟩
                    · exact .inr h1
                    · exact .inl (.inr ⟨i, hi, h1⟩)
                  · intro hlo htl
                    obtain ⟨hld, hst⟩ := RunInv.old h hr hlo
                    rcases hwhy hlo (fun i hi => (hst.link htl).2.2 i
                      (List.mem_append_left _ (List.mem_append_left _ hi))) with h1 | ⟨i, hi, h1⟩
                    · exact .inr (.inl h1)
                    · exact .inl ⟨i, List.mem_append_left _ (List.mem_append_left _
                        (List.mem_append_right _ hi)), h1⟩
              · rename_i hdirty
                simp only [Bool.not_eq_true] at hdirty
                obtain ⟨hlo, hdd, hso, hkh, hkc⟩ := objDirty_keep hs3 hdirty
                obtain ⟨hld, hst⟩ := RunInv.old h hr hlo
                have hkp : r.cfg.pchs ≠ [] → SamePch r.load r.cfg ∧ r.load.pchs = r.user.pchs ∧
                    r.load.pchCompiled = true := fun hc =>
                  have k := hp.keep hok hc hdd
                  ⟨k.same, k.pchs, k.compiled⟩
                have hperm := recompile_perm (hashAll σ.files r.user.sources).1 r.load.sources
                have hdum := recompile_dummy (hashAll σ.files r.user.sources).1 r.load.sources
                have hsel := recompile_selected (hashAll σ.files r.user.sources).1 r.load.sources
                  hst.nodupS hnod
                have hpp : (paths ((recompile r.load.sources (hashAll σ.files r.user.sources).1).selected ++
                    (recompile r.load.sources (hashAll σ.files r.user.sources).1).dummy)).Nodup :=
                  ((hperm.map _).nodup_iff).2 hnod
                have hsrcdead : ∀ i ∈ (hashAll σ.files r.user.sources).1, ∀ s ∈ r.load.sources,
                    s.path = i.path → s.hash ≠ i.hash → Dead σ s := by
                  intro i hi s hs e1 e2
                  rcases (hst.sub s hs).2.dead_or_live with h1 | h1
                  · exact h1
                  · exact absurd (congrArg PathInfo.hash (live_unique h1 (hl1 i hi) e1)) e2
                refine h.advance' hr rfl rfl rfl rfl rfl rfl rfl rfl rfl rfl rfl (fun hd => ?_) rfl rfl
                  rfl hs3 ?_ ?_
                · exact absurd hd (by simp [hdd])
                · -- recorded sources
                  rw [foldl_addSource]
                  have hv0 := stored_rehash (r' := { r with
                    user := { { { r.user with sources := (hashAll σ.files r.user.sources).1 } with
                      headers := (hashAll σ.files r.user.headers).1 } with
                      compileDeps := (hashAll σ.files r.user.compileDeps).1 } }) hri hp hs3 rfl hhs
                    hp.executed rfl
                  refine ⟨by simp [virt, updateStore], hv0.pchOr, ?_, ?_, ?_, hnod, ?_, hv0.pchRec, ?_,
                    ?_, ?_, ?_⟩
                  · intro _ hc
                    exact hdone.compiled (fun e => hc (hri.same.pchs_nil.2 e))
                  · intro _ i hi
                    rcases List.mem_append.1 hi with hi | hi
                    · exact (hl2 i hi).rec' h.wf
                    · exact (hl3 i hi).rec' h.wf
                  · intro i hi
                    simp only [virt, hp.executed, hp.sources, List.nil_append] at hi
                    have hm := hperm.mem_iff.1 (List.mem_append_right _ hi)
                    exact ⟨hm, (hl1 i hm).rec' h.wf⟩
                  · simp only [virt, hp.executed, hp.sources, List.nil_append]
                    rw [paths_append] at hpp
                    exact (List.nodup_append.1 hpp).2.1
                  · simp [virt, updateStore, hp.linked]
                  · intro hc
                    rcases hv0.tPch hc with h1 | h1 | ⟨l, hl, _⟩
                    · exact .inl h1
                    · exact .inr (.inl h1)
                    · simp at hl
                  · intro i hi
                    simp only [virt, hp.executed, hp.sources, List.nil_append] at hi
                    rcases kept_obj hlc hlp h hr hdd hs3 hlo hso hkh hkc hkp (hdum i hi) with h1 | h1
                    · exact .inl h1
                    · exact .inr (.inl h1)
                  · simp [virt, updateStore, hp.linked]
                · rw [foldl_addSource]
                  refine ⟨hp.linked, PchDone.frame (σ := σ) (hdone' _ rfl rfl rfl rfl hhs)
                    (Fwd.of_eq rfl rfl) (Keeps.of_eq rfl rfl) (fun h => ⟨h, rfl⟩), hash, ?_, ?_, ?_, ?_,
                    recompile_sel_dirty _ _, ?_, ?_⟩
                  · intro _; simpa [hp.executed, hp.sources] using hperm
                  · simpa [hp.executed, hp.sources] using hpp
                  · intro i hi
                    exact hperm.mem_iff.1 (List.mem_append_left _ hi)
                  · intro _ x hx s hs e
                    exact .inl (.inl (hsrcdead x (hperm.mem_iff.1 (List.mem_append_left _ hx)) s hs e
                      (hsel x hx s hs e)))
                  · intro hd _ htl
                    rcases recompile_dirty _ _ hst.nodupS hnod hd with h1 | ⟨i, hi, s, hs, e1, e2⟩
                    · right; right
                      intro hsl
                      exact h1 (by rw [hps]; exact hsl.sources)
                    · left
                      exact ⟨s, List.mem_append_left _ (List.mem_append_left _
                        (List.mem_append_left _ (hst.sub s hs).1)), hsrcdead i hi s hs e1 e2⟩
                  · intro hd
                    refine ⟨hlo, hso, fun hc => ?_, hkh, hkc,
                      recompile_clean _ _ hst.nodupS hd⟩
                    exact ⟨hlo, (hkp hc).1, hkh, (hkp hc).2.1, (hkp hc).2.2⟩
    · exact h
  · exact h

theorem inv_objTask {fx : Fixed} {σ : Sys} (hlc : CompileLocal fx) (hlp : PchLocal fx)
    (h : SysInv fx σ) : SysInv fx (step fx σ .objTask) :=
  inv_inPhase h (inv_objTask' hlc hlp (settle_settled σ) (inv_settle h))

end Verif.Target
