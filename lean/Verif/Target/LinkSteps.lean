import Verif.Target.ObjSteps

/-! # Preservation of the invariant: commands, linking and the end of a run -/

namespace Verif.Target
open Verif Verif.Command Verif.Schema Verif.Json

theorem eraseIdx_perm {α : Type} {l : List α} {k : Nat} {x : α} (h : l[k]? = some x) :
    l.Perm (x :: l.eraseIdx k) := by
  induction l generalizing k with
  | nil => simp at h
  | cons a l ih =>
    cases k with
    | zero => simp at h; simp [h]
    | succ k =>
      simp only [List.getElem?_cons_succ] at h
      simp only [List.eraseIdx_cons_succ]
      exact (List.Perm.cons a (ih h)).trans (List.Perm.swap x a _)

theorem live_of_not_dead {σ : Sys} {i : PathInfo} (h : Rec σ i) (hd : ¬ Dead σ i) : Live σ i :=
  h.dead_or_live.resolve_left hd

/-- The PCH a command uses is the expected one, or outdated. -/
theorem pch_used {fx : Fixed} {σ : Sys} {r : Run} (hri : RunInv fx σ r) (hd : PchDone σ r) :
    (if r.cfg.pchs ≠ [] then σ.pch else none) = ePch? fx r.user ∨ DeadPch σ r.user := by
  by_cases hp : r.cfg.pchs = []
  · left
    simp [hp, ePch?, hri.same.pchs_nil.2 hp]
  · rcases hri.virt.tPch (hd.compiled hp) with h1 | h1 | ⟨l, hl, _⟩
    · left
      have : ¬ r.user.pchs = [] := fun e => hp (hri.same.pchs_nil.1 e)
      simp [hp, ePch?, this, h1]
    · exact .inr h1
    · simp at hl

/-- A freshly compiled object is the expected one, or outdated. -/
theorem make_obj {fx : Fixed} {σ : Sys} {r : Run} (hri : RunInv fx σ r) (hd : PchDone σ r)
    (hv : ∀ p, σ.view p ∈ σ.seen p) {x : PathInfo} (hx : Rec σ x ∧ Steady σ x)
    (hh : ∀ i ∈ r.user.headers ++ r.user.compileDeps, Rec σ i ∧ Steady σ i) :
    makeObj fx σ r.cfg x.path = eObj fx r.user x ∨ DeadObj σ r.user x := by
  by_cases hdd : DeadObj σ r.user x
  · exact .inr hdd
  · left
    have h0 : Live σ x := live_of_not_dead hx.1 (fun e => hdd (.inl e))
    have h1 : reads σ.view r.cfg.headers = rd r.user.headers :=
      reads_live hv hri.same.headers
        (fun i hi => live_of_not_dead (hh i (List.mem_append_left _ hi)).1
          fun e => hdd (.inr ⟨i, List.mem_append_left _ (List.mem_append_right _ hi), e⟩))
        fun i hi => (hh i (List.mem_append_left _ hi)).2
    have h2 : reads σ.view r.cfg.compileDeps = rd r.user.compileDeps :=
      reads_live hv hri.same.compileDeps
        (fun i hi => live_of_not_dead (hh i (List.mem_append_right _ hi)).1
          fun e => hdd (.inr ⟨i, List.mem_append_right _ hi, e⟩))
        fun i hi => (hh i (List.mem_append_right _ hi)).2
    have h4 : fileHash σ.view x.path = some x.hash := by
      rw [fileHash, view_live hv h0 hx.2, ← fileHash, live_hash h0]
    have h3 := (pch_used hri hd).resolve_right
      fun ⟨i, hi, e⟩ => hdd (.inr ⟨i, List.mem_append_left _ hi, e⟩)
    simp only [makeObj, eObj, h1, h2, h3, h4, hri.same.compileCommand fx]

theorem nodup_perm_paths {a b : List PathInfo} (h : a.Perm b) (hn : (paths a).Nodup) :
    (paths b).Nodup := ((h.map _).nodup_iff).1 hn

theorem inv_exec {fx : Fixed} {σ : Sys} (h : SysInv fx σ) (k : Nat) (ok : Bool)
    (junk : Option (Option ObjArt)) : SysInv fx (step fx σ (.exec k ok junk)) := by
  simp only [step, inPhase]
  split
  · rename_i r hr
    split
    · rename_i hph
      have hri := h.run r hr
      have hp := hri.phase
      rw [PhaseInv, hph] at hp
      simp only at hp
      simp only [execObj]
      split
      · exact h
      · rename_i x hx
        have hper := eraseIdx_perm hx
        have hxp : x ∈ r.pending := hper.mem_iff.2 List.mem_cons_self
        have hxu := hp.sub x hxp
        have hxc : x.path ∈ paths r.cfg.sources := by
          rw [← hri.same.sources]; exact mem_paths.2 ⟨x, hxu, rfl⟩
        have hdirty : r.dirty = true :=
          hp.pendDirty (by intro e; rw [e] at hxp; simp at hxp)
        have hallp : (r.pending ++ (r.executed ++ r.store.sources)).Perm
            (x :: (r.pending.eraseIdx k ++ (r.executed ++ r.store.sources))) := by
          simpa using hper.append_right (r.executed ++ r.store.sources)
        have hnod := nodup_perm_paths hallp hp.nodup
        have hoth : ∀ s ∈ r.executed ++ r.store.sources, objPath fx s.path ≠ objPath fx x.path := by
          intro s hs e
          have hsc : s.path ∈ paths r.cfg.sources := by
            rw [← hri.same.sources]; exact mem_paths.2 ⟨s, (hri.virt.sub s hs).1, rfl⟩
          have e2 := hri.start.inj _ hsc _ hxc e
          simp only [paths_cons, paths_append, List.nodup_cons] at hnod
          apply hnod.1
          rw [← e2, ← paths_append, ← paths_append]
          exact mem_paths.2 ⟨s, List.mem_append_right _ hs, rfl⟩
        have hold : ∀ f : Str → Option ObjArt, (∀ q, q ≠ objPath fx x.path → f q = σ.objs q) →
            r.loaded = true → ∀ i ∈ r.load.sources,
            f (objPath fx i.path) = σ.objs (objPath fx i.path) ∨
            DeadObj σ σ.saved i ∨ (r.dirty = true ∧ ChangesObj r.load r.cfg) := by
          intro f hf hlo i hi
          by_cases e : objPath fx i.path = objPath fx x.path
          · have hld := (RunInv.old h hr hlo).1
            have e2 := hri.start.injStored _ hld _ hxc _ (mem_paths.2 ⟨i, hi, rfl⟩) e.symm
            rcases hp.whyObj hlo x hxp i hi e2.symm with h1 | h1
            · exact .inr (.inl h1)
            · exact .inr (.inr ⟨hdirty, h1⟩)
          · exact .inl (hf _ e)
        have hsub' : ∀ i ∈ r.pending.eraseIdx k, i ∈ r.pending := fun i hi =>
          hper.mem_iff.2 (List.mem_cons_of_mem _ hi)
        split
        · refine h.advance hr rfl rfl rfl rfl rfl rfl rfl rfl rfl rfl rfl (fun h => h)
            (fun _ _ => .inl rfl) ?_ (fun _ _ => .inl rfl) hri.same ?_ ?_
          · exact hold _ (fun q hq => by simp [upd, hq])
          · have hv := hri.virt
            have hxh := hp.hashed x (List.mem_append_left _ (List.mem_append_left _ hxu))
            have hhh : ∀ i ∈ r.user.headers ++ r.user.compileDeps, Rec σ i ∧ Steady σ i := fun i hi =>
              have k := hp.hashed i (by rw [List.append_assoc]; exact List.mem_append_right _ hi)
              ⟨k.1, k.2.2⟩
            have hxr : Rec σ x := hxh.1
            have hhr : ∀ i ∈ r.user.headers ++ r.user.compileDeps, Rec σ i := fun i hi => (hhh i hi).1
            refine ⟨by simp [virt, updateStore], hv.pchOr, ?_, fun _ => hhr, ?_, hv.nodup, ?_, hv.pchRec,
              ?_, ?_, ?_, ?_⟩
            · intro _ hc
              exact hp.done.compiled (fun e => hc (hri.same.pchs_nil.2 e))
            · intro i hi
              rcases List.mem_cons.1 (show i ∈ x :: (r.executed ++ r.store.sources) from hi) with rfl | hi
              · exact ⟨hxu, hxr⟩
              · exact hv.sub i hi
            · show (paths (x :: (r.executed ++ r.store.sources))).Nodup
              simp only [paths_cons, paths_append, List.nodup_cons, List.mem_append, not_or] at hnod ⊢
              exact ⟨hnod.1.2, (List.nodup_append.1 hnod.2).2.1⟩
            · simp [virt, updateStore, hp.linked]
            · intro hc
              rcases hv.tPch hc with h1 | h1 | ⟨l, hl, _⟩
              · exact .inl h1
              · exact .inr (.inl h1)
              · simp at hl
            · intro i hi
              rcases List.mem_cons.1 (show i ∈ x :: (r.executed ++ r.store.sources) from hi) with rfl | hi
              · rcases make_obj hri hp.done h.view ⟨hxr, hxh.2.2⟩ hhh with h1 | h1
                · left
                  show upd σ.objs _ _ _ = _
                  simp [upd, h1]
                · exact .inr (.inl h1)
              · rcases hv.tObj i hi with h1 | h1 | ⟨l, hl, _⟩
                · left
                  show upd σ.objs _ _ _ = _
                  rw [upd, if_neg (hoth i hi)]
                  exact h1
                · exact .inr (.inl h1)
                · simp at hl
            · simp [virt, updateStore, hp.linked]
          · simp only [PhaseInv, hph]
            refine ⟨hp.linked, ⟨hp.done.pchs, hp.done.compiled, hp.done.hashed⟩, hp.hashed, ?_, ?_,
              fun i hi => hp.sub i (hsub' i hi), ?_, fun _ => hdirty, hp.why, fun hd => ⟨(hp.keep hd).loaded,
              (hp.keep hd).same, fun hc => ?_, (hp.keep hd).headers, (hp.keep hd).deps, (hp.keep hd).sources⟩⟩
            · intro ho
              refine List.Perm.trans ?_ (hp.cover ho)
              refine List.Perm.trans ?_ hallp.symm
              simp only [List.cons_append]
              exact List.perm_middle
            · refine nodup_perm_paths ?_ hnod
              simp only [List.cons_append]
              exact List.perm_middle.symm
            · intro hlo y hy s hs e
              exact hp.whyObj hlo y (hsub' y hy) s hs e
            · rw [hdirty] at hd; exact absurd hd (by simp)
        · refine h.advance hr rfl rfl rfl rfl rfl rfl rfl rfl rfl rfl rfl (fun h => h)
            (fun _ _ => .inl rfl) ?_ (fun _ _ => .inl rfl) hri.same ?_ ?_
          · refine hold _ ?_
            intro q hq
            cases junk with
            | none => rfl
            | some a => simp [upd, hq]
          · refine hri.virt.move (Fwd.of_eq rfl rfl) (fun _ h => h) (fun _ => .inl rfl) ?_
              (fun _ => .inl rfl)
            intro i hi
            left
            cases junk with
            | none => rfl
            | some a =>
              show upd σ.objs _ _ _ = _
              rw [upd, if_neg (hoth i hi)]
          · simp only [PhaseInv, hph]
            refine ⟨hp.linked, ⟨hp.done.pchs, hp.done.compiled, hp.done.hashed⟩, hp.hashed,
              by simp [Sys.fail], ?_, fun i hi => hp.sub i (hsub' i hi), ?_, fun _ => hdirty, hp.why,
              fun hd => ?_⟩
            · simp only [paths_cons, List.nodup_cons] at hnod
              exact hnod.2
            · intro hlo y hy s hs e
              exact hp.whyObj hlo y (hsub' y hy) s hs e
            · rw [hdirty] at hd; exact absurd hd (by simp)
    · exact h
  · exact h

theorem inv_add {fx : Fixed} {σ : Sys} (h : SysInv fx σ) (k : Nat) :
    SysInv fx (step fx σ (.add k)) := by
  simp only [step, inPhase]
  split
  · rename_i r hr
    split
    · rename_i hph
      have hri := h.run r hr
      have hp := hri.phase
      rw [PhaseInv, hph] at hp
      simp only at hp
      simp only [addObj]
      split
      · exact h
      · rename_i x hx
        have hper := eraseIdx_perm hx
        have hper2 : (r.executed.eraseIdx k ++ (r.store.sources ++ [x])).Perm
            (r.executed ++ r.store.sources) := by
          refine List.Perm.trans ?_ (hper.append_right _).symm
          rw [← List.append_assoc]
          exact List.perm_append_comm
        have hv := hri.virt
        refine h.advance' hr rfl rfl rfl rfl rfl rfl rfl rfl rfl rfl rfl (fun h => h) rfl rfl rfl
          hri.same ?_ ?_
        · have hne : r.executed.eraseIdx k ++ (r.store.sources ++ [x]) ≠ [] →
              r.executed ++ r.store.sources ≠ [] := by
            intro h1 e
            rw [e] at hper2
            exact h1 (List.Perm.eq_nil hper2)
          refine ⟨by simp [virt, updateStore], hv.pchOr, fun h1 => hv.srcPch (hne h1),
            fun h1 => hv.srcRec (hne h1), fun i hi => hv.sub i (hper2.mem_iff.1 hi), hv.nodup,
            nodup_perm_paths hper2.symm hv.nodupS, hv.pchRec, ?_, ?_, ?_, ?_⟩
          · simp [virt, updateStore, addSource, hp.linked]
          · intro hc
            rcases hv.tPch hc with h1 | h1 | ⟨l, hl, _⟩
            · exact .inl h1
            · exact .inr (.inl h1)
            · simp at hl
          · intro i hi
            rcases hv.tObj i (hper2.mem_iff.1 hi) with h1 | h1 | ⟨l, hl, _⟩
            · exact .inl h1
            · exact .inr (.inl h1)
            · simp at hl
          · simp [virt, updateStore, addSource, hp.linked]
        · simp only [PhaseInv, hph]
          refine ⟨hp.linked, ⟨hp.done.pchs, hp.done.compiled, hp.done.hashed⟩, hp.hashed, ?_, ?_,
            hp.sub, hp.whyObj, hp.pendDirty, hp.why, fun hd => ?_⟩
          · intro ho
            exact (hper2.append_left _).trans (hp.cover ho)
          · exact nodup_perm_paths (hper2.append_left _).symm hp.nodup
          · have hk := hp.keep hd
            exact ⟨hk.loaded, hk.same, fun hc => ⟨(hk.pch hc).loaded, (hk.pch hc).same, (hk.pch hc).headers,
              (hk.pch hc).pchs, (hk.pch hc).compiled⟩, hk.headers, hk.deps, hk.sources⟩
    · exact h
  · exact h

/-- Rehashing libraries changes nothing about compilation. -/
theorem stored_relink {fx : Fixed} {σ σ' : Sys} {r r' : Run} (hv : Stored fx σ [] (virt r) r.user)
    (hfi : σ'.files = σ.files) (hu : σ'.used = σ.used) (hpch : σ'.pch = σ.pch)
    (hobj : σ'.objs = σ.objs) (hl : r.store.targetLinked = false)
    (hsame : SameCfg r'.user r.user) (h1 : r'.user.pchs = r.user.pchs)
    (h2 : r'.user.headers = r.user.headers) (h3 : r'.user.compileDeps = r.user.compileDeps)
    (h4 : r'.user.sources = r.user.sources) (he : r'.executed = r.executed)
    (hst : r'.store = r.store) : Stored fx σ' [] (virt r') r'.user := by
  have hf : Fwd σ σ' := Fwd.of_eq hfi hu
  have hs : (virt r').sources = (virt r).sources := by simp [virt, he, hst]
  have hc : (virt r').pchCompiled = (virt r).pchCompiled := by simp [virt, updateStore, hst]
  have htl : (virt r').targetLinked = false := by simp [virt, updateStore, hst, hl]
  refine ⟨by simp [virt, updateStore], ?_, ?_, ?_, ?_, ?_, ?_, ?_, by simp [htl], ?_, ?_, by simp [htl]⟩
  · have := hv.pchOr
    simpa [virt, updateStore, hst, h1] using this
  · rw [hs, h1, hc]; exact hv.srcPch
  · rw [hs, h2, h3]; exact fun h i hi => hf.recs i (hv.srcRec h i hi)
  · rw [hs, h4]; exact fun i hi => ⟨(hv.sub i hi).1, hf.recs i (hv.sub i hi).2⟩
  · rw [h4]; exact hv.nodup
  · rw [hs]; exact hv.nodupS
  · rw [hc, h1, h2]; exact fun h i hi => hf.recs i (hv.pchRec h i hi)
  · intro hcc
    rw [hc] at hcc
    rw [ePch_congr hsame h1 h2, hpch]
    rcases hv.tPch hcc with h5 | h5 | ⟨l, hl, _⟩
    · exact .inl h5
    · refine .inr (.inl (hf.pch ?_))
      simpa [DeadPch, h1, h2] using h5
    · simp at hl
  · intro i hi
    rw [hs] at hi
    rw [eObj_congr hsame h1 h2 h3, hobj]
    rcases hv.tObj i hi with h5 | h5 | ⟨l, hl, _⟩
    · exact .inl h5
    · refine .inr (.inl (hf.obj ?_))
      simpa [DeadObj, h1, h2, h3] using h5
    · simp at hl

theorem linkDirty_keep {r : Run} {u : TargetSchema}
    (hd : linkDirty r.dirty r.loaded r.load u = false) : r.loaded = true ∧ r.dirty = false ∧
      r.load.linkFlags = u.linkFlags ∧ r.load.libDirs = u.libDirs ∧
      r.load.externalLibs = u.externalLibs ∧ r.load.linkDeps = u.linkDeps ∧ r.load.libs = u.libs ∧
      r.load.targetLinked = true := by
  simp only [linkDirty] at hd
  split at hd
  · exact absurd hd (by simp)
  split at hd
  · exact absurd hd (by simp)
  split at hd
  · exact absurd hd (by simp)
  split at hd
  · exact absurd hd (by simp)
  split at hd
  · exact absurd hd (by simp)
  split at hd
  · exact absurd hd (by simp)
  simp_all

theorem linkDirty_why {fx : Fixed} {σ : Sys} {r : Run} (h : SysInv fx σ) (hr : σ.run = some r)
    {u : TargetSchema} (hu : SameCfg u r.cfg)
    (hl1 : ∀ i ∈ u.libs, Live σ i) (hl2 : ∀ i ∈ u.linkDeps, Live σ i)
    (hwhy : r.dirty = true → WhyLink σ r)
    (hd : linkDirty r.dirty r.loaded r.load u = true) : WhyLink σ r := by
  intro hlo htl
  obtain ⟨hld, hst⟩ := RunInv.old h hr hlo
  cases hdd : r.dirty
  · by_cases hsl : SameLink r.load r.cfg
    · left
      have h1 := hsl.trans hu.sameLink.symm
      have hrec := (hst.link htl).2.2
      by_cases hh : r.load.libs = u.libs
      · by_cases hc : r.load.linkDeps = u.linkDeps
        · simp [linkDirty, hlo, hdd, h1.flags, h1.libDirs, h1.external, hh, hc, htl] at hd
        · obtain ⟨i, hi, hd⟩ := neq_dead h1.deps
            (fun i hi => hrec i (List.mem_append_right _ (hst.linkDeps ▸ hi))) hl2 hc
          exact ⟨i, List.mem_append_right _ (hst.linkDeps ▸ hi), hd⟩
      · obtain ⟨i, hi, hd⟩ := neq_dead h1.libs
          (fun i hi => hrec i (List.mem_append_left _ (List.mem_append_right _ (hst.libs ▸ hi)))) hl1 hh
        exact ⟨i, List.mem_append_left _ (List.mem_append_right _ (hst.libs ▸ hi)), hd⟩
    · exact .inr (.inr hsl)
  · exact hwhy hdd hlo htl

theorem inv_linkTask' {fx : Fixed} {σ : Sys} (hset : Settled σ) (h : SysInv fx σ) {r : Run}
    (hr : σ.run = some r)
    (hph : r.phase = .link ∨ (r.phase = .objRun ∧ r.pending = [] ∧ r.executed = [])) :
    SysInv fx (linkTask σ r) := by
  have hri := h.run r hr
  have hpe : r.pending = [] ∧ r.executed = [] := by
    rcases hph with hph | hph
    · have hp := hri.phase
      rw [PhaseInv, hph] at hp
      exact ⟨hp.pending, hp.executed⟩
    · exact hph.2
  simp only [linkTask]
  split
  · rename_i hok
    simp only [Bool.not_eq_eq_eq_not, Bool.not_true] at hok
    refine h.advance' hr rfl rfl rfl rfl rfl rfl rfl rfl rfl rfl rfl (fun h => h) rfl rfl rfl
      hri.same ?_ ?_
    · exact hri.virt.still (Fwd.of_eq rfl rfl) (fun _ h => h) rfl rfl rfl
    · exact ⟨hpe.1, hpe.2, by simp [hok], by simp [hok], by simp [hok], by simp [hok],
        by simp [hok], by simp [hok]⟩
  · rename_i hok
    simp only [Bool.not_eq_eq_eq_not, Bool.not_true, Bool.not_eq_false] at hok
    have hph2 : r.phase = .objRun := by
      rcases hph with hph | hph
      · have hp := hri.phase
        rw [PhaseInv, hph] at hp
        have := hp.failed
        rw [hok] at this; exact absurd this (by simp)
      · exact hph.1
    have hp := hri.phase
    rw [PhaseInv, hph2] at hp
    simp only at hp
    have hs1 := hri.same.hashLibs (f := σ.files)
    have hs2 := hs1.hashLinkDeps (f := σ.files)
    have huu := hs2.trans hri.same.symm
    have hcov : r.store.sources.Perm r.user.sources := by
      have := hp.cover hok
      simpa [hpe.1, hpe.2] using this
    split
    · refine h.advance' hr rfl rfl rfl rfl rfl rfl rfl rfl rfl rfl rfl (fun h => h) rfl rfl rfl
        hs1 ?_ ?_
      · exact stored_relink hri.virt rfl rfl rfl rfl hp.linked (hs1.trans hri.same.symm) rfl rfl
          rfl rfl rfl rfl
      · exact ⟨hpe.1, hpe.2, by simp [Sys.fail], by simp [Sys.fail], by simp [Sys.fail],
          by simp [Sys.fail], by simp [Sys.fail], by simp [Sys.fail]⟩
    · rename_i hh1
      simp only [Bool.not_eq_eq_eq_not, Bool.not_true, Bool.not_eq_false] at hh1
      split
      · refine h.advance' hr rfl rfl rfl rfl rfl rfl rfl rfl rfl rfl rfl (fun h => h) rfl rfl rfl
          hs2 ?_ ?_
        · exact stored_relink hri.virt rfl rfl rfl rfl hp.linked huu rfl rfl rfl rfl rfl rfl
        · exact ⟨hpe.1, hpe.2, by simp [Sys.fail], by simp [Sys.fail], by simp [Sys.fail],
            by simp [Sys.fail], by simp [Sys.fail], by simp [Sys.fail]⟩
      · rename_i hh2
        simp only [Bool.not_eq_eq_eq_not, Bool.not_true, Bool.not_eq_false] at hh2
        have hl1 := hashAll_live σ _ hh1
        have hl2 := hashAll_live σ _ hh2
        have hash := hashed_of_live hset h.wf
          (l := (hashAll σ.files r.user.libs).1 ++ (hashAll σ.files r.user.linkDeps).1)
          fun i hi => (List.mem_append.1 hi).elim (hl1 i) (hl2 i)
        have hdn := hp.done
        split
        · rename_i hdirty
          have hw := linkDirty_why h hr hs2 hl1 hl2 hp.why hdirty
          refine h.advance' hr rfl rfl rfl rfl rfl rfl rfl rfl rfl rfl rfl (fun _ => rfl) rfl rfl rfl
            hs2 ?_ ?_
          · exact stored_relink hri.virt rfl rfl rfl rfl hp.linked huu rfl rfl rfl rfl rfl rfl
          · exact ⟨hpe.1, hpe.2, hp.linked, rfl, ⟨hdn.pchs, hdn.compiled, hdn.hashed⟩, hp.hashed,
              hash, hcov, hw⟩
        · rename_i hdirty
          simp only [Bool.not_eq_true] at hdirty
          obtain ⟨hlo, hdd, k1, k2, k3, k4, k5, k6⟩ := linkDirty_keep hdirty
          have hk := hp.keep hdd
          refine h.advance' hr rfl rfl rfl rfl rfl rfl rfl rfl rfl rfl rfl (fun h => h) rfl rfl rfl
            hs2 ?_ ?_
          · exact stored_relink hri.virt rfl rfl rfl rfl hp.linked huu rfl rfl rfl rfl rfl rfl
          · refine ⟨hpe.1, hpe.2, fun _ => ⟨hdn.pchs, hdn.compiled, hdn.hashed⟩, fun _ => hp.hashed,
              fun _ => hash, fun _ => hcov, fun _ hd => ?_, fun _ _ => ⟨⟨hk.loaded, hk.same,
              fun hc => ?_, hk.headers, hk.deps, hk.sources⟩, ?_, k5, k4, k6⟩⟩
            · exact absurd hd (by simp [hdd])
            · have hkp := hk.pch hc
              exact ⟨hkp.loaded, hkp.same, hkp.headers, hkp.pchs, hkp.compiled⟩
            · refine ⟨k1.trans hri.same.linkFlags, k2.trans hri.same.libDirs,
                k3.trans hri.same.externalLibs, (congrArg paths k5).trans hs2.libs,
                (congrArg paths k4).trans hs2.linkDeps, fun p => ?_⟩
              rw [← hri.same.sources]
              exact (hk.sources.map _).mem_iff

theorem inv_linkTask {fx : Fixed} {σ : Sys} (h : SysInv fx σ) : SysInv fx (step fx σ .linkTask) := by
  simp only [step]
  split
  · rename_i r hr
    split
    · rename_i hph
      exact inv_linkTask' (settle_settled σ) (inv_settle h) hr hph
    · exact h
  · exact h

theorem infoOf_path {l : List PathInfo} (hn : (paths l).Nodup) {p : Str} (hp : p ∈ paths l) :
    infoOf l p ∈ l := by
  obtain ⟨i, hi, rfl⟩ := mem_paths.1 hp
  have := infoOf_mem hn hi
  rw [infoOf, this]; exact hi

theorem inv_linkExec {fx : Fixed} {σ : Sys} (h : SysInv fx σ) (ok : Bool)
    (junk : Option (Option BinArt)) : SysInv fx (step fx σ (.linkExec ok junk)) := by
  simp only [step, inPhase]
  split
  · rename_i r hr
    split
    · rename_i hph
      have hri := h.run r hr
      have hp := hri.phase
      rw [PhaseInv, hph] at hp
      simp only at hp
      have hv := hri.virt
      have hdn := hp.done
      have hwhy : r.loaded = true → r.load.targetLinked = true →
          DeadBin σ σ.saved ∨ (r.dirty = true ∧ ChangesLink r.load r.cfg) := by
        intro hlo htl
        rcases hp.why hlo htl with h1 | h1
        · exact .inl h1
        · exact .inr ⟨hp.dirty, h1⟩
      simp only [linkExec]
      split
      · refine h.advance hr rfl rfl rfl rfl rfl rfl rfl rfl rfl rfl rfl (fun h => h)
          (fun _ _ => .inl rfl) (fun _ _ _ => .inl rfl) (fun hlo htl => .inr (hwhy hlo htl))
          hri.same ?_ ?_
        · refine ⟨by simp [virt, updateStore], hv.pchOr, hv.srcPch, hv.srcRec, hv.sub, hv.nodup,
            hv.nodupS, hv.pchRec, fun _ => ⟨?_, ?_, ?_⟩, ?_, ?_, fun _ => ?_⟩
          · show (r.executed ++ r.store.sources).Perm _
            rw [hp.executed]; exact hp.cover
          · intro hc
            exact hdn.compiled (fun e => hc (hri.same.pchs_nil.2 e))
          · intro i hi
            rcases List.mem_append.1 hi with hi | hi
            · rcases List.mem_append.1 hi with hi | hi
              · exact (hp.hashed i (by rw [List.append_assoc]; exact List.mem_append_right _ hi)).1
              · exact (hp.hashedL i (List.mem_append_left _ hi)).1
            · exact (hp.hashedL i (List.mem_append_right _ hi)).1
          · intro hc
            rcases hv.tPch hc with h1 | h1 | ⟨l, hl, _⟩
            · exact .inl h1
            · exact .inr (.inl h1)
            · simp at hl
          · intro i hi
            rcases hv.tObj i hi with h1 | h1 | ⟨l, hl, _⟩
            · exact .inl h1
            · exact .inr (.inl h1)
            · simp at hl
          · by_cases hdd : DeadBin σ r.user
            · exact .inr (.inl hdd)
            · left
              have hperm : r.order.Perm (paths r.user.sources) := by
                rw [hri.same.sources]; exact hri.order
              refine ⟨r.order, hperm, ?_⟩
              have e1 : reads σ.view r.cfg.libs = rd r.user.libs :=
                reads_live h.view hri.same.libs (fun i hi => live_of_not_dead
                  (hp.hashedL i (List.mem_append_left _ hi)).1
                  fun e => hdd ⟨i, List.mem_append_left _ (List.mem_append_right _ hi), e⟩)
                  fun i hi => (hp.hashedL i (List.mem_append_left _ hi)).2.2
              have e2 : reads σ.view r.cfg.linkDeps = rd r.user.linkDeps :=
                reads_live h.view hri.same.linkDeps (fun i hi => live_of_not_dead
                  (hp.hashedL i (List.mem_append_right _ hi)).1
                  fun e => hdd ⟨i, List.mem_append_right _ hi, e⟩)
                  fun i hi => (hp.hashedL i (List.mem_append_right _ hi)).2.2
              have e3 := (pch_used hri hdn).resolve_right fun ⟨i, hi, e⟩ =>
                hdd ⟨i, List.mem_append_left _ (List.mem_append_left _ (List.mem_append_right _
                  (List.mem_append_left _ hi))), e⟩
              have e4 : (r.order.map fun s => σ.objs (objPath fx s)) =
                  r.order.map fun p => some (eObj fx r.user (infoOf r.user.sources p)) := by
                rw [List.map_inj_left]
                intro s hs
                have hm := infoOf_path hv.nodup (hperm.mem_iff.1 hs)
                have hm2 : infoOf r.user.sources s ∈ (virt r).sources :=
                  List.mem_append_right _ (hp.cover.mem_iff.2 hm)
                rcases hv.tObj _ hm2 with h1 | h1 | ⟨l, hl, _⟩
                · exact h1
                · exfalso
                  rcases h1 with h1 | ⟨i, hi, h1⟩
                  · exact hdd ⟨_, List.mem_append_left _ (List.mem_append_left _
                      (List.mem_append_left _ hm)), h1⟩
                  · exact hdd ⟨i, List.mem_append_left _ (List.mem_append_left _
                      (List.mem_append_right _ hi)), h1⟩
                · simp at hl
              show some (makeBin fx σ r.cfg r.order) = some (eBin fx r.user r.order)
              simp only [makeBin, eBin, e1, e2, e3, e4, hri.same.linkCommand fx]
        · refine ⟨hp.pending, hp.executed, fun _ => ⟨hdn.pchs, hdn.compiled, hdn.hashed⟩,
            fun _ => hp.hashed, fun _ => hp.hashedL, fun _ => hp.cover, fun _ _ => rfl,
            fun _ hd => ?_⟩
          exact absurd hd (by simp [hp.dirty])
      · refine h.advance hr rfl rfl rfl rfl rfl rfl rfl rfl rfl rfl rfl (fun h => h)
          (fun _ _ => .inl rfl) (fun _ _ _ => .inl rfl) (fun hlo htl => .inr (hwhy hlo htl))
          hri.same ?_ ?_
        · refine hv.move (Fwd.of_eq rfl rfl) (fun _ h => h) (fun _ => .inl rfl) (fun _ _ => .inl rfl) ?_
          intro e
          have e2 : r.store.targetLinked = true := e
          rw [hp.linked] at e2; exact absurd e2 (by simp)
        · exact ⟨hp.pending, hp.executed, by simp [Sys.fail], by simp [Sys.fail], by simp [Sys.fail],
            by simp [Sys.fail], by simp [Sys.fail], by simp [Sys.fail]⟩
    · exact h
  · exact h

end Verif.Target
