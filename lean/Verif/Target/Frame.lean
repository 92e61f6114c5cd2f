import Verif.Target.Inv

/-! # Preservation of the invariant: frames -/

namespace Verif.Target
open Verif Verif.Command Verif.Schema Verif.Json

/-- Recorded versions that are still there stay unchanged. -/
def Keeps (σ σ' : Sys) : Prop := ∀ i, Rec σ i → Steady σ i → Steady σ' i

theorem Keeps.of_eq {σ σ' : Sys} (h1 : σ'.files = σ.files) (h2 : σ'.seen = σ.seen) : Keeps σ σ' :=
  fun i _ h => by simpa [Steady, Live, h1, h2] using h

theorem HashedL.frame {σ σ' : Sys} {l : List PathInfo} (h : HashedL σ l) (hf : Fwd σ σ')
    (hk : Keeps σ σ')
    (hfr : σ'.fresh = true → σ.fresh = true ∧ σ'.files = σ.files) : HashedL σ' l := by
  intro i hi
  refine ⟨hf.recs i (h i hi).1, fun hq => ?_, hk i (h i hi).1 (h i hi).2.2⟩
  have hl := (h i hi).2.1 (hfr hq).1
  simpa [Live, (hfr hq).2] using hl

theorem PchDone.frame {σ σ' : Sys} {r : Run} (h : PchDone σ r) (hf : Fwd σ σ')
    (hk : Keeps σ σ') (hfr : σ'.fresh = true → σ.fresh = true ∧ σ'.files = σ.files) : PchDone σ' r :=
  ⟨h.pchs, h.compiled, fun hp => (h.hashed hp).frame hf hk hfr⟩

theorem WhyPch.frame {σ σ' : Sys} {r : Run} (h : WhyPch σ r) (hf : Fwd σ σ')
    (hs : σ'.saved = σ.saved) : WhyPch σ' r := by
  intro hl
  rcases h hl with h | h
  · exact .inl h
  · exact .inr (by rw [hs]; exact hf.pch h)

theorem WhyLink.frame {σ σ' : Sys} {r : Run} (h : WhyLink σ r) (hf : Fwd σ σ')
    (hs : σ'.saved = σ.saved) : WhyLink σ' r := by
  intro hl ht
  rcases h hl ht with h | h
  · exact .inl (by rw [hs]; exact hf.bin h)
  · exact .inr h

/-- The run is unchanged; files moved forward, the task state may have become
FAILURE. -/
theorem PhaseInv.frame {σ σ' : Sys} {r : Run} (h : PhaseInv σ r) (hf : Fwd σ σ')
    (hk : Keeps σ σ') (hok : σ'.ok = true → σ.ok = true) (hs : σ'.saved = σ.saved)
    (hfr : σ'.fresh = true → σ.fresh = true ∧ σ'.files = σ.files)
    (hst : r.cfg.pchs ≠ [] → (r.phase = .pchRun ∨ r.phase = .obj) → HdrStill σ r → HdrStill σ' r) :
    PhaseInv σ' r := by
  unfold PhaseInv at *
  split
  · rename_i e; rw [e] at h; exact h
  · rename_i e; rw [e] at h
    exact ⟨h.store, h.dirty, h.pending, h.executed, h.pchs, h.hashed.frame hf hk hfr,
      h.why.frame hf hs, hst h.pchs (.inl e) h.still⟩
  · rename_i e; rw [e] at h
    exact ⟨h.pending, h.executed, h.sources, h.linked, fun hd => (h.why hd).frame hf hs, h.dirtyPch,
      fun ho => (h.done (hok ho)).frame hf hk hfr, fun ho => h.keep (hok ho),
      fun ho hp => hst hp (.inr e) (h.still (hok ho) hp)⟩
  · rename_i e; rw [e] at h
    refine ⟨h.linked, h.done.frame hf hk hfr, h.hashed.frame hf hk hfr, fun ho => h.cover (hok ho), h.nodup,
      h.sub, ?_, h.pendDirty, fun hd => (h.why hd).frame hf hs, h.keep⟩
    intro hl x hx s hxs hp
    rcases h.whyObj hl x hx s hxs hp with h | h
    · exact .inl (by rw [hs]; exact hf.obj h)
    · exact .inr h
  · rename_i e; rw [e] at h
    refine ⟨h.pending, h.executed, ?_⟩
    cases ho : σ'.ok
    · rfl
    · exact absurd (hok ho) (by simp [h.failed])
  · rename_i e; rw [e] at h
    exact ⟨h.pending, h.executed, h.linked, h.dirty, h.done.frame hf hk hfr, h.hashed.frame hf hk hfr,
      h.hashedL.frame hf hk hfr, h.cover, h.why.frame hf hs⟩
  · rename_i e; rw [e] at h
    exact ⟨h.pending, h.executed, fun ho => (h.done (hok ho)).frame hf hk hfr,
      fun ho => (h.hashed (hok ho)).frame hf hk hfr, fun ho => (h.hashedL (hok ho)).frame hf hk hfr,
      fun ho => h.cover (hok ho), fun ho => h.linked (hok ho), fun ho => h.keep (hok ho)⟩

theorem StartOk.frame {fx : Fixed} {σ σ' : Sys} {c : TargetSchema} (h : StartOk fx σ c)
    (h1 : σ'.stateFile = σ.stateFile) (h2 : σ'.saved = σ.saved) (h3 : σ'.lost = σ.lost) :
    StartOk fx σ' c where
  nodup := h.nodup
  inj := h.inj
  injStored := by rw [h1]; exact h.injStored
  keepPch := by rw [h1, h3]; exact h.keepPch
  keepObj := by rw [h1, h3]; exact h.keepObj
  keepLink := by rw [h1, h3]; exact h.keepLink
  pchKept := by rw [h1]; exact h.pchKept
  pchLang := by rw [h1, h2]; exact h.pchLang

/-- An event that leaves the run alone. -/
theorem SysInv.frame {fx : Fixed} {σ σ' : Sys} (h : SysInv fx σ) (hw : WF σ') (hf : Fwd σ σ')
    (hk : Keeps σ σ') (hvw : ∀ p, σ'.view p ∈ σ'.seen p)
    (hrun : σ'.run = σ.run) (hsf : σ'.stateFile = σ.stateFile) (hs : σ'.saved = σ.saved)
    (hl : σ'.lost = σ.lost) (ho : σ'.objs = σ.objs) (hp : σ'.pch = σ.pch) (hb : σ'.bin = σ.bin)
    (hok : σ'.ok = true → σ.ok = true)
    (hfr : σ'.fresh = true → σ.fresh = true ∧ σ'.files = σ.files)
    (hst : ∀ r, σ.run = some r → r.cfg.pchs ≠ [] → (r.phase = .pchRun ∨ r.phase = .obj) →
      HdrStill σ r → HdrStill σ' r)
    (hd : σ'.done = σ.done)
    (hdone : σ.run.isSome = true ∨ σ'.fresh = false) : SysInv fx σ' where
  wf := hw
  view := hvw
  stored := by
    intro s hsl
    rw [hsf] at hsl
    rw [hs]
    have : attempts σ' = attempts σ := by simp [attempts, hl, hrun]
    rw [this]
    exact (h.stored s hsl).still hf (fun _ h => h) hp ho hb
  run := by
    intro r hr
    rw [hrun] at hr
    have hri := h.run r hr
    exact ⟨by rw [hsf]; exact hri.load, hri.same, hri.start.frame hsf hs hl, hri.order,
      hri.virt.still hf (fun _ h => h) hp ho hb, hri.phase.frame hf hk hok hs hfr (hst r hr)⟩
  doneRun := by rw [hrun, hd]; exact h.doneRun
  done := by
    intro d h1 h2 h3
    rw [hd] at h1
    rcases hdone with h4 | h4
    · rw [h.doneRun h4] at h1
      exact absurd h1 (by simp)
    · rw [h4] at h3
      exact absurd h3 (by simp)

theorem fwd_edit {σ : Sys} (p : Str) (t : Nat) (ht : t ∉ σ.used p) (b : Bool) :
    Fwd σ { σ.put p (some t) with used := upd σ.used p (t :: σ.used p), fresh := b } := by
  constructor
  · rintro i ⟨u, h1, h2⟩
    refine ⟨u, ?_, h2⟩
    simp only [Sys.put, upd]
    split
    · rename_i e
      rw [e] at h1
      exact List.mem_cons_of_mem _ h1
    · exact h1
  · rintro i ⟨u, h1, h2, h3⟩
    refine ⟨u, ?_, h2, ?_⟩
    · simp only [Sys.put, upd]
      split
      · rename_i e
        rw [e] at h1
        exact List.mem_cons_of_mem _ h1
      · exact h1
    · simp only [Sys.put, upd]
      split
      · rename_i e
        rw [e] at h1
        intro e2
        simp only [Option.some.injEq] at e2
        rw [e2] at ht
        exact ht h1
      · exact h3

theorem fwd_delete {σ : Sys} (p : Str) (b : Bool) :
    Fwd σ { σ.put p none with fresh := b } := by
  constructor
  · rintro i ⟨u, h1, h2⟩; exact ⟨u, h1, h2⟩
  · rintro i ⟨u, h1, h2, h3⟩
    refine ⟨u, h1, h2, ?_⟩
    simp only [Sys.put, upd]
    split
    · simp
    · exact h3

theorem keeps_edit {σ : Sys} (p : Str) (t : Nat) (ht : t ∉ σ.used p) :
    Keeps σ { σ.put p (some t) with used := upd σ.used p (t :: σ.used p) } := by
  rintro i ⟨u, h1, h2⟩ hs ⟨t', h3, h4⟩ v hv
  simp only [Sys.put, upd] at h3 hv ⊢
  split at h3
  · rename_i e
    simp only [Option.some.injEq] at h3
    rw [h2] at h4
    rw [h3, ← digits_inj h4, ← e] at ht
    exact absurd h1 ht
  · rename_i e
    rw [if_neg e] at hv ⊢
    exact hs ⟨t', h3, h4⟩ v hv

theorem keeps_delete {σ : Sys} (p : Str) : Keeps σ (σ.put p none) := by
  rintro i _ hs ⟨t', h3, h4⟩ v hv
  simp only [Sys.put, upd] at h3 hv ⊢
  split at h3
  · simp at h3
  · rename_i e
    rw [if_neg e] at hv ⊢
    exact hs ⟨t', h3, h4⟩ v hv

theorem view_put {σ : Sys} (h : ∀ p, σ.view p ∈ σ.seen p) (p : Str) (v : Option Nat) :
    ∀ q, (σ.put p v).view q ∈ (σ.put p v).seen q := by
  intro q
  simp only [Sys.put, upd]
  split
  · exact List.mem_cons_self
  · exact h q

theorem inv_settle {fx : Fixed} {σ : Sys} (h : SysInv fx σ) : SysInv fx σ.settle where
  wf := h.wf
  view := fun p => List.mem_cons_self
  stored := fun s hs => (h.stored s hs).still (Fwd.of_eq rfl rfl) (fun _ h => h) rfl rfl rfl
  run := by
    intro r hr
    have hri := h.run r hr
    exact ⟨hri.load, hri.same, hri.start.frame rfl rfl rfl, hri.order,
      hri.virt.still (Fwd.of_eq rfl rfl) (fun _ h => h) rfl rfl rfl,
      hri.phase.frame (Fwd.of_eq rfl rfl) (fun i _ _ => (settle_settled σ).steady i) id rfl
        (fun h => ⟨h, rfl⟩) (fun _ _ h => h)⟩
  doneRun := h.doneRun
  done := by
    intro d h1 h2 h3
    obtain ⟨h4, s, h5⟩ := h.done d h1 h2 h3
    exact ⟨⟨h4.pch, h4.obj, h4.bin⟩, s, ⟨h5.load, h5.obj, h5.link, h5.pch, h5.noPch, h5.linked,
      h5.sources, h5.nodup, h5.live⟩⟩

theorem inv_look {fx : Fixed} {σ : Sys} (h : SysInv fx σ) (p : Str) (v : Option Nat) :
    SysInv fx (step fx σ (.look p v)) := by
  simp only [step, lookAt]
  split
  · rename_i hv
    refine ⟨h.wf, ?_, fun s hs => (h.stored s hs).still (Fwd.of_eq rfl rfl) (fun _ h => h) rfl rfl rfl,
      ?_, h.doneRun, ?_⟩
    · intro q
      simp only [Sys.put, upd]
      split
      · rename_i e; rw [e]; exact hv
      · exact h.view q
    · intro r hr
      have hri := h.run r hr
      exact ⟨hri.load, hri.same, hri.start.frame rfl rfl rfl, hri.order,
        hri.virt.still (Fwd.of_eq rfl rfl) (fun _ h => h) rfl rfl rfl,
        hri.phase.frame (Fwd.of_eq rfl rfl) (Keeps.of_eq rfl rfl) id rfl
          (fun h => ⟨h, rfl⟩) (fun _ _ h => h)⟩
    · intro d h1 h2 h3
      obtain ⟨h4, s, h5⟩ := h.done d h1 h2 h3
      exact ⟨⟨h4.pch, h4.obj, h4.bin⟩, s, ⟨h5.load, h5.obj, h5.link, h5.pch, h5.noPch, h5.linked,
        h5.sources, h5.nodup, h5.live⟩⟩
  · exact h

theorem inv_edit {fx : Fixed} {σ : Sys} (h : SysInv fx σ) (p : Str) (t : Nat)
    (ha : Allowed fx σ (.edit p t)) : SysInv fx (step fx σ (.edit p t)) := by
  simp only [step]
  obtain ⟨ht, ha⟩ := ha
  · refine h.frame ?_ (fwd_edit p t ht false) (keeps_edit p t ht) (view_put h.view p (some t)) rfl rfl rfl rfl rfl rfl rfl id (by simp [Sys.put]) ?_ rfl
      (.inr rfl)
    · intro q u hq
      simp only [Sys.put, upd] at hq ⊢
      split
      · rename_i e
        simp only [if_pos e, Option.some.injEq] at hq
        simp [hq]
      · rename_i e
        simp only [if_neg e] at hq
        exact h.wf _ _ hq
    · intro r hr hp hph hst i hi
      have hne : i.path ≠ p := by
        intro e
        have := ha r hr hp hph
        rw [← (h.run r hr).same.headers, mem_paths] at this
        exact this ⟨i, hi, e⟩
      rcases hst i hi with hl | hn
      · left
        obtain ⟨u, h1, h2⟩ := hl
        exact ⟨u, by simp only [Sys.put, upd, if_neg hne]; exact h1, h2⟩
      · right
        simp only [Sys.put, upd, if_neg hne]; exact hn

theorem inv_delete {fx : Fixed} {σ : Sys} (h : SysInv fx σ) (p : Str) :
    SysInv fx (step fx σ (.delete p)) := by
  simp only [step]
  refine h.frame ?_ (fwd_delete p false) (keeps_delete p) (view_put h.view p none) rfl rfl rfl rfl rfl rfl rfl id (by simp [Sys.put]) ?_ rfl (.inr rfl)
  · intro q u hq
    simp only [Sys.put, upd] at hq
    split at hq
    · simp at hq
    · exact h.wf _ _ hq
  · intro r hr _ _ hst i hi
    by_cases e : i.path = p
    · right; simp [Sys.put, upd, e]
    · rcases hst i hi with hl | hn
      · left
        obtain ⟨u, h1, h2⟩ := hl
        exact ⟨u, by simp only [Sys.put, upd, if_neg e]; exact h1, h2⟩
      · right
        simp only [Sys.put, upd, if_neg e]; exact hn

theorem inv_otherFail {fx : Fixed} {σ : Sys} (h : SysInv fx σ) :
    SysInv fx (step fx σ .otherFail) := by
  simp only [step]
  split
  · rename_i hr
    exact h.frame (fun p t hp => h.wf p t hp) (Fwd.of_eq rfl rfl) (Keeps.of_eq rfl rfl) h.view rfl rfl rfl rfl rfl rfl rfl
      (by simp [Sys.fail]) (fun hq => ⟨hq, rfl⟩) (fun _ _ _ _ h => h) rfl (.inl hr)
  · exact h

theorem inv_dropState {fx : Fixed} {σ : Sys} (h : SysInv fx σ) :
    SysInv fx (step fx σ .dropState) := by
  simp only [step]
  split
  · rename_i hr
    refine ⟨h.wf, h.view, by simp [loadTargetFile, loadFile], ?_, h.doneRun, by simp⟩
    intro r hr2
    have hr3 : σ.run = some r := hr2
    simp [hr3] at hr
  · exact h

/-- An event of the run `r` that leads to the run `r'`. -/
theorem SysInv.advance {fx : Fixed} {σ σ' : Sys} {r r' : Run} (h : SysInv fx σ)
    (hr : σ.run = some r) (hr' : σ'.run = some r')
    (hfi : σ'.files = σ.files) (hu : σ'.used = σ.used)
    (hsf : σ'.stateFile = σ.stateFile) (hs : σ'.saved = σ.saved)
    (hl : σ'.lost = σ.lost) (hd : σ'.done = σ.done)
    (hcfg : r'.cfg = r.cfg) (hord : r'.order = r.order) (hload : r'.load = r.load)
    (hloaded : r'.loaded = r.loaded) (hdirty : r.dirty = true → r'.dirty = true)
    (hpch : r.loaded = true → r.load.pchCompiled = true →
      σ'.pch = σ.pch ∨ DeadPch σ σ.saved ∨ (r'.dirty = true ∧ ¬ SamePch r.load r.cfg))
    (hobj : r.loaded = true → ∀ i ∈ r.load.sources,
      σ'.objs (objPath fx i.path) = σ.objs (objPath fx i.path) ∨
      DeadObj σ σ.saved i ∨ (r'.dirty = true ∧ ChangesObj r.load r.cfg))
    (hbin : r.loaded = true → r.load.targetLinked = true →
      σ'.bin = σ.bin ∨ DeadBin σ σ.saved ∨ (r'.dirty = true ∧ ChangesLink r.load r.cfg))
    (hsame : SameCfg r'.user r.cfg) (hvirt : Stored fx σ' [] (virt r') r'.user)
    (hphase : PhaseInv σ' r')
    (hse : σ'.seen = σ.seen := by rfl) (hvw : σ'.view = σ.view := by rfl) : SysInv fx σ' := by
  have hri := h.run r hr
  have hf : Fwd σ σ' := Fwd.of_eq hfi hu
  refine ⟨fun p t hp => ?_, by rw [hse, hvw]; exact h.view, ?_, ?_, ?_, ?_⟩
  · rw [hfi] at hp; rw [hu]; exact h.wf p t hp
  · intro s hsl
    rw [hsf] at hsl
    have hst := h.stored s hsl
    have hld := hri.load
    rw [hsl] at hld
    have hlo : r.loaded = true := by
      cases hb : r.loaded
      · rw [hb] at hld; simp at hld
      · rfl
    have hs2 : s = r.load := by
      rw [hlo] at hld
      simpa using hld
    rw [hs2] at hst ⊢
    rw [hs]
    have hmem : r'.dirty = true → r.cfg ∈ attempts σ' := by
      intro hdd
      simp [attempts, hr', hdd, hcfg]
    refine hst.move hf ?_ ?_ ?_ ?_
    · intro l hl2
      simp only [attempts, hr, hr', hl] at hl2 ⊢
      rcases List.mem_append.1 hl2 with h2 | h2
      · exact List.mem_append_left _ h2
      · cases hb : r.dirty
        · simp [hb] at h2
        · simp only [hb, if_true] at h2
          simp only [hdirty hb, if_true, hcfg]
          exact List.mem_append_right _ h2
    · intro hc
      rcases hpch hlo hc with e | e | ⟨e, e2⟩
      · exact .inl e
      · exact .inr (.inl (hf.pch e))
      · exact .inr (.inr ⟨_, hmem e, e2⟩)
    · intro i hi
      rcases hobj hlo i hi with e | e | ⟨e, e2⟩
      · exact .inl e
      · exact .inr (.inl (hf.obj e))
      · exact .inr (.inr ⟨_, hmem e, e2⟩)
    · intro hc
      rcases hbin hlo hc with e | e | ⟨e, e2⟩
      · exact .inl e
      · exact .inr (.inl (hf.bin e))
      · exact .inr (.inr ⟨_, hmem e, e2⟩)
  · intro q hq
    rw [hr'] at hq
    simp only [Option.some.injEq] at hq
    subst hq
    exact ⟨by rw [hsf, hload, hloaded]; exact hri.load, by rw [hcfg]; exact hsame,
      by rw [hcfg]; exact hri.start.frame hsf hs hl, by rw [hord, hcfg]; exact hri.order, hvirt, hphase⟩
  · intro _
    rw [hd]; exact h.doneRun (by simp [hr])
  · intro d h1
    rw [hd, h.doneRun (by simp [hr])] at h1
    exact absurd h1 (by simp)

end Verif.Target
