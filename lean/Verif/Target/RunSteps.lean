import Verif.Target.Frame
import Verif.Target.Select

/-! # Preservation of the invariant: steps of a run -/

namespace Verif.Target
open Verif Verif.Command Verif.Schema Verif.Json

theorem distinct_of_nodup {l : List Str} (h : l.Nodup) : distinct l = l := by
  induction l with
  | nil => rfl
  | cons a l ih =>
    simp only [List.nodup_cons] at h
    rw [distinct, ih h.2]
    congr 1
    rw [List.filter_eq_self]
    intro b hb
    simp only [ne_eq, decide_not, Bool.not_eq_true', decide_eq_false_iff_not]
    intro e
    rw [e] at hb
    exact h.1 hb

theorem ePch_congr {fx : Fixed} {a b : TargetSchema} (h : SameCfg a b) (h1 : a.pchs = b.pchs)
    (h2 : a.headers = b.headers) : ePch fx a = ePch fx b := by
  simp only [ePch, h.pchCommand fx, h1, h2]

theorem ePch?_congr {fx : Fixed} {a b : TargetSchema} (h : SameCfg a b) (h1 : a.pchs = b.pchs)
    (h2 : a.headers = b.headers) : ePch? fx a = ePch? fx b := by
  simp only [ePch?, ePch_congr h h1 h2, h1]

theorem eObj_congr {fx : Fixed} {a b : TargetSchema} (h : SameCfg a b) (h1 : a.pchs = b.pchs)
    (h2 : a.headers = b.headers) (h3 : a.compileDeps = b.compileDeps) (i : PathInfo) :
    eObj fx a i = eObj fx b i := by
  simp only [eObj, ePch?_congr h h1 h2, h2, h3, h.compileCommand fx]

/-- No source is recorded yet. -/
theorem stored_of_pch {fx : Fixed} {σ : Sys} {r : Run} (he : r.executed = [])
    (hs : r.store.sources = []) (hl : r.store.targetLinked = false)
    (hn : (paths r.user.sources).Nodup)
    (hp : (r.store.pchCompiled = true ∧ r.store.pchs = r.user.pchs ∧ r.user.pchs ≠ []) ∨
      (r.store.pchCompiled = false ∧ r.store.pchs = []))
    (hr : r.store.pchCompiled = true → ∀ i ∈ r.user.pchs ++ r.user.headers, Rec σ i)
    (ht : r.store.pchCompiled = true → σ.pch = some (ePch fx r.user) ∨ DeadPch σ r.user) :
    Stored fx σ [] (virt r) r.user where
  agree := by simp [virt, updateStore]
  pchOr := hp
  srcPch := by simp [virt, he, hs]
  srcRec := by simp [virt, he, hs]
  sub := by simp [virt, he, hs]
  nodup := hn
  nodupS := by simp [virt, he, hs]
  pchRec := hr
  link := by simp [virt, updateStore, hl]
  tPch := by
    intro h
    rcases ht h with h | h
    · exact .inl h
    · exact .inr (.inl h)
  tObj := by simp [virt, he, hs]
  tBin := by simp [virt, updateStore, hl]

theorem inv_start {fx : Fixed} {σ : Sys} (h : SysInv fx σ) (c : TargetSchema) (order : List Str)
    (ha : Allowed fx σ (.start c order)) : SysInv fx (step fx σ (.start c order)) := by
  simp only [step, startRun]
  split
  · exact h
  · rename_i hr
    have hso : StartOk fx σ c := ha hr
    split
    · rename_i hb
      simp only [Bool.and_eq_true] at hb
      have hperm := List.isPerm_iff.1 hb.1
      rw [show srcPaths c = paths c.sources from rfl, distinct_of_nodup hso.nodup] at hperm
      have hat : attempts σ = σ.lost := by simp [attempts, hr]
      refine ⟨h.wf, h.view, ?_, ?_, fun _ => rfl, by simp⟩
      · intro s hs
        have := h.stored s hs
        rw [hat] at this
        refine this.still (Fwd.of_eq rfl rfl) ?_ rfl rfl rfl
        intro l hl
        simp [attempts, hl]
      · intro r hrr
        simp only [Option.some.injEq] at hrr
        subst hrr
        refine ⟨?_, SameCfg.refl c, hso.frame rfl rfl rfl, hperm, ?_, ?_⟩
        · cases hl : loadTargetFile σ.stateFile <;> simp
        · exact stored_of_pch rfl rfl rfl hso.nodup (.inr ⟨rfl, rfl⟩) (by simp [TargetSchema.empty])
            (by simp [TargetSchema.empty])
        · by_cases hp : c.pchs = []
          · simp only [PhaseInv, hp, ne_eq, not_true_eq_false, if_false]
            exact ⟨rfl, rfl, rfl, rfl, by simp, by simp,
              fun _ => ⟨fun h => absurd hp h, fun h => absurd hp h, fun h => absurd hp h⟩,
              fun _ h => absurd hp h, fun _ h => absurd hp h⟩
          · simp only [PhaseInv, ne_eq, hp, not_false_eq_true, if_true]
            exact ⟨rfl, rfl, rfl, rfl, hp⟩
    · exact h

/-- The run does not touch built files. -/
theorem SysInv.advance' {fx : Fixed} {σ σ' : Sys} {r r' : Run} (h : SysInv fx σ)
    (hr : σ.run = some r) (hr' : σ'.run = some r')
    (hfi : σ'.files = σ.files) (hu : σ'.used = σ.used)
    (hsf : σ'.stateFile = σ.stateFile) (hs : σ'.saved = σ.saved)
    (hl : σ'.lost = σ.lost) (hd : σ'.done = σ.done)
    (hcfg : r'.cfg = r.cfg) (hord : r'.order = r.order) (hload : r'.load = r.load)
    (hloaded : r'.loaded = r.loaded) (hdirty : r.dirty = true → r'.dirty = true)
    (hpch : σ'.pch = σ.pch) (hobj : σ'.objs = σ.objs) (hbin : σ'.bin = σ.bin)
    (hsame : SameCfg r'.user r.cfg) (hvirt : Stored fx σ' [] (virt r') r'.user)
    (hphase : PhaseInv σ' r')
    (hse : σ'.seen = σ.seen := by rfl) (hvw : σ'.view = σ.view := by rfl) : SysInv fx σ' :=
  h.advance hr hr' hfi hu hsf hs hl hd hcfg hord hload hloaded hdirty (fun _ _ => .inl hpch)
    (fun _ _ _ => .inl (by rw [hobj])) (fun _ _ => .inl hbin) hsame hvirt hphase
    hse hvw

/-- What the stored state says, once it is loaded. -/
theorem RunInv.old {fx : Fixed} {σ : Sys} {r : Run} (h : SysInv fx σ) (hr : σ.run = some r)
    (hlo : r.loaded = true) : loadTargetFile σ.stateFile = some r.load ∧
      Stored fx σ (attempts σ) r.load σ.saved := by
  have hld := (h.run r hr).load
  rw [hlo, if_pos rfl] at hld
  exact ⟨hld, h.stored _ hld⟩

theorem attempts_clean {σ : Sys} {r : Run} (hr : σ.run = some r) (hd : r.dirty = false) :
    attempts σ = σ.lost := by simp [attempts, hr, hd]

/-- The decision to compile the PCH has a reason. -/
theorem pchDirty_why {fx : Fixed} {σ : Sys} {r : Run} (h : SysInv fx σ) (hr : σ.run = some r)
    {u : TargetSchema} (hu : SameCfg u r.cfg) (hp : r.cfg.pchs ≠ [])
    (hl1 : ∀ i ∈ u.headers, Live σ i) (hl2 : ∀ i ∈ u.pchs, Live σ i)
    (hd : pchDirty r.loaded r.load u = true) : WhyPch σ r := by
  intro hlo
  by_cases hsp : SamePch r.load r.cfg
  · right
    obtain ⟨hld, hst⟩ := RunInv.old h hr hlo
    have hlh : r.load.headers = σ.saved.headers := by rw [hst.agree]; rfl
    have h1 := hsp.trans hu.samePch.symm
    have hfl : pchFlagsEq r.load u = true := by
      simp [pchFlagsEq, h1.preprocessor, h1.common, h1.pchFlags, h1.c, h1.cpp]
    have hcomp : r.load.pchCompiled = true ∧ r.load.pchs = σ.saved.pchs := by
      rcases hst.pchOr with h1 | h1
      · exact ⟨h1.1, h1.2.1⟩
      · have := hsp.pchs
        rw [h1.2] at this
        exact absurd ((nil_iff_of_paths this).1 rfl) hp
    have hrec := hst.pchRec hcomp.1
    by_cases hh : r.load.headers = u.headers
    · by_cases hpp : r.load.pchs = u.pchs
      · simp [pchDirty, hlo, hfl, h1.includes, hcomp.1, hh, hpp] at hd
      · obtain ⟨i, hi, hd⟩ := neq_dead h1.pchs
          (fun i hi => hrec i (List.mem_append_left _ (hcomp.2 ▸ hi))) hl2 hpp
        exact ⟨i, List.mem_append_left _ (hcomp.2 ▸ hi), hd⟩
    · obtain ⟨i, hi, hd⟩ := neq_dead h1.headers
        (fun i hi => hrec i (List.mem_append_right _ (hlh ▸ hi))) hl1 hh
      exact ⟨i, List.mem_append_right _ (hlh ▸ hi), hd⟩
  · exact .inl hsp

/-- The decision not to compile the PCH: nothing changed. -/
theorem pchDirty_keep {r : Run} {u : TargetSchema} (hu : SameCfg u r.cfg)
    (hd : pchDirty r.loaded r.load u = false) : r.loaded = true ∧ SamePch r.load r.cfg ∧
      r.load.headers = u.headers ∧ r.load.pchs = u.pchs ∧ r.load.pchCompiled = true := by
  simp only [pchDirty] at hd
  split at hd
  · exact absurd hd (by simp)
  rename_i hlo
  split at hd
  · exact absurd hd (by simp)
  rename_i hfl
  split at hd
  · exact absurd hd (by simp)
  rename_i hin
  split at hd
  · exact absurd hd (by simp)
  rename_i hhp
  simp only [Bool.not_eq_eq_eq_not, Bool.not_true, Bool.not_eq_false] at hfl hlo
  simp only [ne_eq, Decidable.not_not] at hin
  simp only [ne_eq, Bool.or_eq_true, decide_eq_true_eq, not_or, Decidable.not_not] at hhp
  simp only [Bool.not_eq_eq_eq_not, Bool.not_false] at hd
  refine ⟨hlo, ?_, hhp.1, hhp.2, hd⟩
  simp only [pchFlagsEq, Bool.and_eq_true, decide_eq_true_eq] at hfl
  refine SamePch.trans ?_ hu.samePch
  exact ⟨hfl.1.1.1.1, hfl.1.1.1.2, hfl.1.1.2, hfl.1.2, hfl.2, hin, by rw [hhp.1], by rw [hhp.2]⟩

/-- The kept PCH is the expected one, or outdated. -/
theorem kept_pch {fx : Fixed} {σ : Sys} {r : Run} (hloc : PchLocal fx) (h : SysInv fx σ)
    (hr : σ.run = some r) (hdr : r.dirty = false) {u : TargetSchema} (hu : SameCfg u r.cfg)
    (hp : r.cfg.pchs ≠ []) (hlo : r.loaded = true) (hsp : SamePch r.load r.cfg)
    (hh : r.load.headers = u.headers) (hpp : r.load.pchs = u.pchs)
    (hc : r.load.pchCompiled = true) :
    (ePch fx σ.saved = ePch fx u ∧ σ.saved.pchs = u.pchs ∧ σ.saved.headers = u.headers) ∧
      (σ.pch = some (ePch fx u) ∨ DeadPch σ u) := by
  obtain ⟨hld, hst⟩ := RunInv.old h hr hlo
  have hso := (h.run r hr).start
  have hlh : r.load.headers = σ.saved.headers := by rw [hst.agree]; rfl
  have hlp : r.load.pchs = σ.saved.pchs ∧ σ.saved.pchs ≠ [] := by
    rcases hst.pchOr with h1 | h1
    · exact h1.2
    · rw [h1.1] at hc; exact absurd hc (by simp)
  have hsp2 : SamePch σ.saved u := by
    have h1 : SamePch r.load σ.saved := by
      have e := hst.agree
      refine ⟨?_, ?_, ?_, ?_, ?_, ?_, ?_, ?_⟩ <;> first | (rw [hlp.1]) | (rw [e]; rfl)
    exact h1.symm.trans (hsp.trans hu.samePch.symm)
  have hlang : containsCpp fx σ.saved = containsCpp fx u := by
    rw [hu.containsCpp fx]
    exact hso.pchLang _ hld (by rw [hlp.1]; exact hlp.2) hp hsp
  have he : ePch fx σ.saved = ePch fx u := by
    simp only [ePch, hloc _ _ hsp2 hlang, ← hlp.1, ← hlh, hpp, hh]
  refine ⟨⟨he, by rw [← hlp.1, hpp], by rw [← hlh, hh]⟩, ?_⟩
  rcases hst.tPch hc with h1 | h1 | ⟨l, hl, h1⟩
  · exact .inl (he ▸ h1)
  · right
    simpa [DeadPch, ← hlp.1, ← hlh, hpp, hh] using h1
  · rw [attempts_clean hr hdr] at hl
    exact absurd hsp (hso.keepPch _ hld l hl hp h1)

theorem SameCfg.hashHeaders {f : Str → Option Nat} {a b : TargetSchema} (h : SameCfg a b) :
    SameCfg { a with headers := (hashAll f a.headers).1 } b := by
  cases h; constructor <;> simp_all [hashAll_paths]
theorem SameCfg.hashPchs {f : Str → Option Nat} {a b : TargetSchema} (h : SameCfg a b) :
    SameCfg { a with pchs := (hashAll f a.pchs).1 } b := by
  cases h; constructor <;> simp_all [hashAll_paths]
theorem SameCfg.hashSources {f : Str → Option Nat} {a b : TargetSchema} (h : SameCfg a b) :
    SameCfg { a with sources := (hashAll f a.sources).1 } b := by
  cases h; constructor <;> simp_all [hashAll_paths]
theorem SameCfg.hashDeps {f : Str → Option Nat} {a b : TargetSchema} (h : SameCfg a b) :
    SameCfg { a with compileDeps := (hashAll f a.compileDeps).1 } b := by
  cases h; constructor <;> simp_all [hashAll_paths]
theorem SameCfg.hashLibs {f : Str → Option Nat} {a b : TargetSchema} (h : SameCfg a b) :
    SameCfg { a with libs := (hashAll f a.libs).1 } b := by
  cases h; constructor <;> simp_all [hashAll_paths]
theorem SameCfg.hashLinkDeps {f : Str → Option Nat} {a b : TargetSchema} (h : SameCfg a b) :
    SameCfg { a with linkDeps := (hashAll f a.linkDeps).1 } b := by
  cases h; constructor <;> simp_all [hashAll_paths]

theorem hashed_of_live {σ : Sys} (hset : Settled σ) (hw : WF σ) {l : List PathInfo}
    (h : ∀ i ∈ l, Live σ i) : HashedL σ l :=
  fun i hi => ⟨(h i hi).rec' hw, fun _ => h i hi, hset.steady i⟩

/-- It is enough to look at a state in which no command runs. -/
theorem inv_inPhase {fx : Fixed} {σ : Sys} {ph : Phase} {f : Sys → Run → Sys}
    (h : SysInv fx σ) (hf : SysInv fx (inPhase σ.settle ph (f σ.settle))) :
    SysInv fx (inPhase σ ph (f σ.settle)) := by
  cases hr : σ.run with
  | none => simpa [inPhase, hr] using h
  | some r =>
    by_cases hp : r.phase = ph
    · have e : σ.settle.run = some r := hr
      simpa [inPhase, hr, e, hp] using hf
    · simpa [inPhase, hr, hp] using h

theorem inv_pchTask' {fx : Fixed} {σ : Sys} (hloc : PchLocal fx) (hset : Settled σ)
    (h : SysInv fx σ) : SysInv fx (inPhase σ .pch (pchTask σ)) := by
  simp only [inPhase]
  split
  · rename_i r hr
    split
    · rename_i hph
      have hri := h.run r hr
      have hp := hri.phase
      rw [PhaseInv, hph] at hp
      simp only at hp
      have hnod : (paths r.user.sources).Nodup := hri.virt.nodup
      have hst0 : r.store.sources = [] := by rw [hp.store]; rfl
      have hst1 : r.store.targetLinked = false := by rw [hp.store]; rfl
      have hst2 : r.store.pchCompiled = false := by rw [hp.store]; rfl
      have hst3 : r.store.pchs = [] := by rw [hp.store]; rfl
      simp only [pchTask]
      split
      · rename_i hok
        simp only [Bool.not_eq_eq_eq_not, Bool.not_true] at hok
        refine h.advance' hr rfl rfl rfl rfl rfl rfl rfl rfl rfl rfl rfl (fun h => h) rfl rfl rfl
          hri.same ?_ ?_
        · exact stored_of_pch hp.executed hst0 hst1 hnod (.inr ⟨hst2, hst3⟩) (by simp [hst2])
            (by simp [hst2])
        · exact ⟨hp.pending, hp.executed, hst0, hst1, by simp [hp.dirty], by simp [hp.dirty],
            by simp [hok], by simp [hok], by simp [hok]⟩
      · rename_i hok
        simp only [Bool.not_eq_eq_eq_not, Bool.not_true, Bool.not_eq_false] at hok
        split
        · refine h.advance' hr rfl rfl rfl rfl rfl rfl rfl rfl rfl rfl rfl (fun h => h) rfl rfl rfl
            hri.same.hashHeaders ?_ ?_
          · exact stored_of_pch hp.executed hst0 hst1 hnod (.inr ⟨hst2, hst3⟩) (by simp [hst2])
              (by simp [hst2])
          · exact ⟨hp.pending, hp.executed, hst0, hst1, by simp [hp.dirty], by simp [hp.dirty],
              by simp [Sys.fail], by simp [Sys.fail], by simp [Sys.fail]⟩
        · rename_i hh1
          simp only [Bool.not_eq_eq_eq_not, Bool.not_true, Bool.not_eq_false] at hh1
          have hs2 := (hri.same.hashHeaders (f := σ.files)).hashPchs (f := σ.files)
          split
          · refine h.advance' hr rfl rfl rfl rfl rfl rfl rfl rfl rfl rfl rfl (fun h => h) rfl rfl rfl
              hs2 ?_ ?_
            · exact stored_of_pch hp.executed hst0 hst1 hnod (.inr ⟨hst2, hst3⟩) (by simp [hst2])
                (by simp [hst2])
            · exact ⟨hp.pending, hp.executed, hst0, hst1, by simp [hp.dirty], by simp [hp.dirty],
                by simp [Sys.fail], by simp [Sys.fail], by simp [Sys.fail]⟩
          · rename_i hh2
            simp only [Bool.not_eq_eq_eq_not, Bool.not_true, Bool.not_eq_false] at hh2
            have hl1 := hashAll_live σ _ hh1
            have hl2 := hashAll_live σ _ hh2
            have hash := hashed_of_live hset h.wf
              (l := (hashAll σ.files r.user.pchs).1 ++ (hashAll σ.files r.user.headers).1)
              fun i hi => (List.mem_append.1 hi).elim (hl2 i) (hl1 i)
            split
            · rename_i hdirty
              have hw := pchDirty_why h hr hs2 hp.pchs hl1 hl2 hdirty
              refine h.advance' hr rfl rfl rfl rfl rfl rfl rfl rfl rfl rfl rfl (fun _ => rfl) rfl rfl rfl
                hs2 ?_ ?_
              · exact stored_of_pch hp.executed hst0 hst1 hnod (.inr ⟨hst2, hst3⟩) (by simp [hst2])
                  (by simp [hst2])
              · exact ⟨hp.store, rfl, hp.pending, hp.executed, hp.pchs, hash,
                  hw, fun i hi => .inl (hl1 i hi)⟩
            · rename_i hdirty
              simp only [Bool.not_eq_true] at hdirty
              obtain ⟨hlo, hsp, hkh, hkp, hkc⟩ := pchDirty_keep hs2 hdirty
              obtain ⟨_, hk⟩ := kept_pch hloc h hr hp.dirty hs2 hp.pchs hlo hsp hkh hkp hkc
              refine h.advance' hr rfl rfl rfl rfl rfl rfl rfl rfl rfl rfl rfl (fun h => h) rfl rfl rfl
                hs2 ?_ ?_
              · refine stored_of_pch hp.executed hst0 hst1 hnod
                  (.inl ⟨rfl, rfl, fun e => hp.pchs (hs2.pchs_nil.1 e)⟩)
                  (fun _ i hi => (hash i hi).1) (fun _ => hk)
              · exact ⟨hp.pending, hp.executed, hst0, hst1, by simp [hp.dirty], by simp [hp.dirty],
                  fun _ => ⟨fun _ => rfl, fun _ => rfl, fun _ => hash⟩,
                  fun _ _ _ => ⟨hlo, hsp, hkh, hkp, hkc⟩, fun _ _ i hi => .inl (hl1 i hi)⟩
    · exact h
  · exact h

theorem inv_pchTask {fx : Fixed} {σ : Sys} (hloc : PchLocal fx) (h : SysInv fx σ) :
    SysInv fx (step fx σ .pchTask) :=
  inv_inPhase h (inv_pchTask' hloc (settle_settled σ) (inv_settle h))

theorem reads_congr {f : Str → Option Nat} {a b : List PathInfo} (h : paths a = paths b) :
    reads f a = reads f b := by
  have : ∀ l : List PathInfo, reads f l = (paths l).map fun p => (p, fileHash f p) := by
    intro l; simp [reads, paths]
  rw [this, this, h]

/-- A recorded version that is still there is the one that commands read. -/
theorem view_live {σ : Sys} (hv : ∀ p, σ.view p ∈ σ.seen p) {i : PathInfo} (h : Live σ i)
    (hs : Steady σ i) : σ.view i.path = σ.files i.path := hs h _ (hv _)

theorem reads_live {σ : Sys} {a b : List PathInfo} (hv : ∀ p, σ.view p ∈ σ.seen p)
    (hp : paths a = paths b) (h : ∀ i ∈ a, Live σ i) (hs : ∀ i ∈ a, Steady σ i) :
    reads σ.view b = rd a := by
  rw [← reads_congr hp]
  simp only [reads, rd]
  rw [List.map_inj_left]
  intro i hi
  rw [fileHash, view_live hv (h i hi) (hs i hi), ← fileHash, live_hash (h i hi)]

/-- What was read is what was recorded, or something recorded is outdated. -/
theorem reads_or_dead {σ : Sys} {a b : List PathInfo} (hv : ∀ p, σ.view p ∈ σ.seen p)
    (hp : paths a = paths b) (h : ∀ i ∈ a, Rec σ i) (hs : ∀ i ∈ a, Steady σ i) :
    reads σ.view b = rd a ∨ ∃ i ∈ a, Dead σ i := by
  by_cases hd : ∃ i ∈ a, Dead σ i
  · exact .inr hd
  · left
    refine reads_live hv hp (fun i hi => ?_) hs
    rcases (h i hi).dead_or_live with h1 | h1
    · exact absurd ⟨i, hi, h1⟩ hd
    · exact h1

theorem inv_pchExec {fx : Fixed} {σ : Sys} (h : SysInv fx σ) (ok : Bool)
    (junk : Option (Option PchArt)) : SysInv fx (step fx σ (.pchExec ok junk)) := by
  simp only [step, inPhase]
  split
  · rename_i r hr
    split
    · rename_i hph
      have hri := h.run r hr
      have hp := hri.phase
      rw [PhaseInv, hph] at hp
      simp only at hp
      have hnod : (paths r.user.sources).Nodup := hri.virt.nodup
      have hst0 : r.store.sources = [] := by rw [hp.store]; rfl
      have hst1 : r.store.targetLinked = false := by rw [hp.store]; rfl
      have hst2 : r.store.pchCompiled = false := by rw [hp.store]; rfl
      have hst3 : r.store.pchs = [] := by rw [hp.store]; rfl
      have hwhy : r.loaded = true → DeadPch σ σ.saved ∨ (r.dirty = true ∧ ¬ SamePch r.load r.cfg) := by
        intro hlo
        rcases hp.why hlo with h1 | h1
        · exact .inr ⟨hp.dirty, h1⟩
        · exact .inl h1
      simp only [pchExec]
      split
      · refine h.advance hr rfl rfl rfl rfl rfl rfl rfl rfl rfl rfl rfl (fun h => h)
          (fun hlo _ => .inr (hwhy hlo)) (fun _ _ _ => .inl rfl) (fun _ _ => .inl rfl) hri.same ?_ ?_
        · refine stored_of_pch hp.executed hst0 hst1 hnod
            (.inl ⟨rfl, rfl, fun e => hp.pchs (hri.same.pchs_nil.1 e)⟩)
            (fun _ i hi => (hp.hashed i hi).1) (fun _ => ?_)
          rcases reads_or_dead h.view hri.same.pchs
            (fun i hi => (hp.hashed i (List.mem_append_left _ hi)).1)
            (fun i hi => (hp.hashed i (List.mem_append_left _ hi)).2.2) with h1 | ⟨i, hi, h1⟩
          · rcases reads_or_dead h.view hri.same.headers
              (fun i hi => (hp.hashed i (List.mem_append_right _ hi)).1)
              (fun i hi => (hp.hashed i (List.mem_append_right _ hi)).2.2) with h2 | ⟨i, hi, h2⟩
            · left
              simp only [makePch, ePch, h1, h2, hri.same.pchCommand fx]
            · exact .inr ⟨i, List.mem_append_right _ hi, h2⟩
          · exact .inr ⟨i, List.mem_append_left _ hi, h1⟩
        · exact ⟨hp.pending, hp.executed, hst0, hst1, fun _ => hp.why, fun _ => hp.pchs,
            fun _ => ⟨fun _ => rfl, fun _ => rfl, fun _ => hp.hashed⟩,
            fun _ _ hd => absurd hp.dirty (by simpa using hd), fun _ _ => hp.still⟩
      · refine h.advance hr rfl rfl rfl rfl rfl rfl rfl rfl rfl rfl rfl (fun h => h)
          (fun hlo _ => .inr (hwhy hlo)) (fun _ _ _ => .inl rfl) (fun _ _ => .inl rfl) hri.same ?_ ?_
        · exact stored_of_pch hp.executed hst0 hst1 hnod (.inr ⟨hst2, hst3⟩) (by simp [hst2])
            (by simp [hst2])
        · exact ⟨hp.pending, hp.executed, hst0, hst1, fun _ => hp.why, fun _ => hp.pchs,
            by simp [Sys.fail], by simp [Sys.fail], by simp [Sys.fail]⟩
    · exact h
  · exact h

end Verif.Target
