import Verif.Generator.Many

/-! # The invariant behind C103 -/

namespace Verif.Generator
open Verif Verif.Schema Verif.Json
open Verif.Target (Reads fileHash upd)

/-- The outputs of the id are up to date, or will be when the callbacks that run have ended. -/
def Good (m : Many) (id : Str) (i : IdCfg) : Prop := (∃ j, Calling m j id) ∨ UpToDate m id i

/-- What the state `L` records as unchanged is good. -/
def StoredOk (c : Cfg) (m : Many) (L : Option GenSchema) : Prop :=
  ∀ id i s, find id c = some i → storedId L id = some s →
    (∀ x ∈ s.inputs, ∃ n ∈ m.used x.path, x.hash = digits n) ∧
    (recorded s.inputs = versions m.files i.inputs → Good m id i)

structure RunInv (c : Cfg) (m : Many) (seen : Str → Str → List (Option Nat))
    (view : Str → Str → Option Nat) (ok : Bool) (r : Run) : Prop where
  cfg : r.cfg = c
  load : StoredOk c m r.load
  fresh : r.began = false → ∀ id, r.status id = .waiting
  calling : ∀ id i, find id c = some i → r.status id = .calling → (blobOf i.handler).isSome ∧
    ∀ p ∈ i.inputs, view id p = m.files p ∧ ∀ v ∈ seen id p, v = m.files p
  good : ∀ id i, find id c = some i → (r.status id).good = true → Good m id i
  ok : ok = true → ∀ id ∈ keys c, (r.status id).isEnded = true → (r.status id).good = true

structure MInv (c : Cfg) (m : Many) : Prop where
  used : ∀ p n, m.files p = some n → n ∈ m.used p
  file : StoredOk c m (loadGenFile m.stateFile)
  run : ∀ k r, (m.procs k).run = some r →
    RunInv c m (m.procs k).seen (m.procs k).view (m.procs k).ok r
  done : ∀ k d, (m.procs k).done = some d → d.ok = true → (m.procs k).fresh = true →
    ∀ id i, find id c = some i → Good m id i

theorem MInv.init (c : Cfg) : MInv c Many.init where
  used := by simp [Many.init]
  file := by intro id i s _ hs; simp [Many.init, storedId, loadGenFile, loadFile] at hs
  run := by intro k r hr; simp [Many.init, Proc.init] at hr
  done := by intro k d hd; simp [Many.init, Proc.init] at hd

theorem StoredOk.mono {c : Cfg} {m m' : Many} {L : Option GenSchema} (h : StoredOk c m L)
    (hf : m'.files = m.files) (hu : m'.used = m.used)
    (hg : ∀ id i, find id c = some i → Good m id i → Good m' id i) : StoredOk c m' L := by
  intro id i s hi hs
  obtain ⟨h1, h2⟩ := h id i s hi hs
  rw [hu, hf]
  exact ⟨h1, fun e => hg id i hi (h2 e)⟩

theorem StoredOk.none {c : Cfg} {m : Many} : StoredOk c m none := by
  intro id i s _ hs; simp [storedId] at hs

theorem RunInv.mono {c : Cfg} {m m' : Many} {seen : Str → Str → List (Option Nat)}
    {view : Str → Str → Option Nat} {ok : Bool} {r : Run} (h : RunInv c m seen view ok r)
    (hf : m'.files = m.files) (hu : m'.used = m.used)
    (hg : ∀ id i, find id c = some i → Good m id i → Good m' id i) : RunInv c m' seen view ok r where
  cfg := h.cfg
  load := h.load.mono hf hu hg
  fresh := h.fresh
  calling := by rw [hf]; exact h.calling
  good := fun id i hi hs => hg id i hi (h.good id i hi hs)
  ok := h.ok

/-- Process `k` has made a step. -/
theorem MInv.take {c : Cfg} {m : Many} {k : Nat} {σ : Sys} (h : MInv c m) (hf : σ.files = m.files)
    (hu : σ.used = m.used)
    (hg : ∀ id i, find id c = some i → Good m id i → Good (m.take k σ) id i)
    (hst : StoredOk c (m.take k σ) (loadGenFile σ.stateFile))
    (hr : ∀ r, σ.run = some r → RunInv c (m.take k σ) σ.seen σ.view σ.ok r)
    (hd : ∀ d, σ.done = some d → d.ok = true →
      ((m.procs k).done = some d ∧ ((m.procs k).run.isNone && σ.run.isSome) = false) ∨
        ∀ id i, find id c = some i → Good (m.take k σ) id i) : MInv c (m.take k σ) where
  used := by
    show ∀ p n, σ.files p = some n → n ∈ σ.used p
    rw [hf, hu]; exact h.used
  file := hst
  run := by
    intro j r
    by_cases e : j = k
    · subst e
      simp only [Many.take, if_pos]
      exact hr r
    · simp only [Many.take, if_neg e]
      intro hj
      exact (h.run j r hj).mono hf hu hg
  done := by
    intro j d
    by_cases e : j = k
    · subst e
      simp only [Many.take, if_pos]
      intro h1 h2 h3 id i hi
      rcases hd d h1 h2 with ⟨h4, h5⟩ | h4
      · refine hg id i hi (h.done j d h4 h2 ?_ id i hi)
        simp only [Sys.proc, h5, Bool.or_false] at h3
        exact h3
      · exact h4 id i hi
    · simp only [Many.take, if_neg e]
      intro h1 h2 h3 id i hi
      exact hg id i hi (h.done j d h1 h2 h3 id i hi)

theorem Calling.take {m : Many} {k : Nat} {σ : Sys} {id : Str} (hlt : Calling m k id →
      Calling (m.take k σ) k id) {j : Nat} (h : Calling m j id) : Calling (m.take k σ) j id := by
  by_cases e : j = k
  · subst e; exact hlt h
  · simp only [Calling, Many.take, if_neg e]; exact h

/-- Nothing that matters has changed. -/
theorem Good.take {m : Many} {k : Nat} {σ : Sys} {id : Str} {i : IdCfg} (h : Good m id i)
    (hf : σ.files = m.files) (hl : σ.last id = m.last id)
    (hc : Calling m k id → Calling (m.take k σ) k id) : Good (m.take k σ) id i := by
  rcases h with ⟨j, h⟩ | ⟨x, h1, h2, h3, h4, h5⟩
  · exact .inl ⟨j, Calling.take hc h⟩
  · refine .inr ⟨x, ?_, h2, ?_, h4, h5⟩
    · show σ.last id = some x
      rw [hl]; exact h1
    · show _ = versions σ.files _
      rw [hf]; exact h3

/-- What is stored at the end of a run is good. -/
theorem StoredOk.store {c : Cfg} {m : Many} {seen : Str → Str → List (Option Nat)}
    {view : Str → Str → Option Nat} {ok : Bool} {r : Run} {order : List Str} {s : GenSchema} {t : Str}
    (hn : (keys c).Nodup) (h : MInv c m) (hR : RunInv c m seen view ok r)
    (ho : order.Perm (keys r.cfg)) (hs : toStore m.files r order = some s) (ht : genText s = some t) :
    StoredOk c m (loadGenFile (some t)) := by
  obtain ⟨l, hl1, hl2⟩ := Option.map_eq_some_iff.1 hs
  obtain ⟨g1, g2⟩ := convertAll_inv hl1
  have hnd : (keys l).Nodup := (ho.nodup_iff.2 (hR.cfg ▸ hn)).sublist g1
  have hload : loadGenFile (some t) = some s := by
    simp only [loadGenFile, loadFile, Option.bind_some]
    refine loadGen_text ?_ ht
    rw [← hl2]; exact hnd
  intro id i x hi hx
  rw [hload] at hx
  simp only [storedId, Option.bind_some, ← hl2] at hx
  obtain ⟨hg, i', hi', hc⟩ := g2 id x (find_mem hx)
  rw [hR.cfg, hi] at hi'
  simp only [Option.some.injEq] at hi'
  subst hi'
  have hin := (convert_iff.1 hc).1
  refine ⟨?_, fun _ => hR.good id i hi hg⟩
  intro y hy
  have : (y.path, some y.hash) ∈ recorded x.inputs := List.mem_map.2 ⟨y, hy, rfl⟩
  rw [hin] at this
  obtain ⟨p, -, he⟩ := List.mem_map.1 this
  simp only [Prod.mk.injEq] at he
  rw [he.1] at he
  obtain ⟨n, hn1, hn2⟩ := Option.map_eq_some_iff.1 he.2
  exact ⟨n, h.used _ _ hn1, hn2.symm⟩

/-- What a process finds that reads the state file while another one writes it. -/
theorem MInv.torn {c : Cfg} {m : Many} (hn : (keys c).Nodup) (h : MInv c m) (j : Nat)
    (order : List Str) (w : Option Nat) :
    StoredOk c m (loadGenFile (step (m.sys j) (.crash order w)).stateFile) := by
  simp only [step, inRun]
  cases hr : (m.sys j).run with
  | none => exact h.file
  | some r =>
    have hR := h.run j r hr
    simp only [crashRun]
    cases w with
    | none => exact h.file
    | some n =>
      simp only
      split
      · rename_i hj
        simp only [Bool.and_eq_true, List.isPerm_iff] at hj
        split
        · exact h.file
        · rename_i text ht
          obtain ⟨s, h1, h2⟩ := Option.bind_eq_some_iff.1 ht
          split
          · rename_i hlt
            simp only
            rw [truncated_unreadable (hR.cfg ▸ hn) hj.2 h1 h2 hlt]
            exact StoredOk.none
          · exact StoredOk.store hn h hR hj.2 h1 h2
      · exact h.file

/-- A process starts. -/
theorem MInv.start {c : Cfg} {m : Many} (hn : (keys c).Nodup) (h : MInv c m) (k : Nat)
    (sf : Option Str) (hsf : StoredOk c m (loadGenFile sf)) :
    MInv c { m.take k (step (m.at k sf) (.start c)) with stateFile := m.stateFile } := by
  cases hr : (m.procs k).run with
  | some r =>
    have e : step (m.at k sf) (.start c) = m.at k sf := by
      simp only [step, startRun, Many.at, hr]
    rw [e]
    have hT : MInv c (m.take k (m.at k m.stateFile)) := by
      have hg : ∀ id i, find id c = some i → Good m id i → Good (m.take k (m.at k m.stateFile)) id i := by
        intro id i hi hG
        refine hG.take rfl rfl fun hc => ?_
        simpa only [Calling, Many.take, if_pos, Sys.proc, Many.at] using hc
      refine h.take rfl rfl hg (h.file.mono rfl rfl hg)
        (fun r hr => (h.run k r hr).mono rfl rfl hg) fun d hd _ => .inl ⟨hd, ?_⟩
      simp [hr]
    exact hT
  | none =>
    have e : step (m.at k sf) (.start c) = { m.at k sf with
        ok := true, log := [], done := none
        run := some { cfg := c, load := loadGenFile sf, began := false, status := fun _ => .waiting } } := by
      simp only [step, startRun, Many.at, hr, if_pos hn]
    rw [e]
    have hT : MInv c (m.take k { m.at k m.stateFile with
        ok := true, log := [], done := none
        run := some { cfg := c, load := loadGenFile sf, began := false, status := fun _ => .waiting } }) := by
      have hg : ∀ id i, find id c = some i → Good m id i → Good (m.take k { m.at k m.stateFile with
          ok := true, log := [], done := none
          run := some { cfg := c, load := loadGenFile sf, began := false
                        status := fun _ => .waiting } }) id i := by
        intro id i hi hG
        refine hG.take rfl rfl ?_
        rintro ⟨r, i', h1, -⟩
        rw [hr] at h1; simp at h1
      refine h.take rfl rfl hg (h.file.mono rfl rfl hg) ?_ (by simp)
      intro r hr'
      simp only [Option.some.injEq] at hr'
      subst hr'
      exact ⟨rfl, hsf.mono rfl rfl hg, fun _ _ => rfl, by simp, by simp [Status.good],
        by simp [Status.isEnded]⟩
    exact hT

/-- The status of an id of process `k` changes, and perhaps what its last callback was. -/
theorem MInv.mark {c : Cfg} {m : Many} {k : Nat} {σ : Sys} {r : Run} {id : Str} {i : IdCfg}
    {st : Status} (h : MInv c m) (hr : (m.procs k).run = some r) (hi : find id c = some i)
    (hf : σ.files = m.files) (hu : σ.used = m.used) (hst : σ.stateFile = m.stateFile)
    (hd : σ.done = (m.procs k).done)
    (hrun : σ.run = some (r.set id st)) (hlast : ∀ id', id' ≠ id → σ.last id' = m.last id')
    (hb : r.began = true)
    (hkeep : Good m id i → Good (m.take k σ) id i)
    (hgood : st.good = true → Good (m.take k σ) id i)
    (hok : σ.ok = true → (m.procs k).ok = true ∧ (st.isEnded = true → st.good = true))
    (hview : ∀ id', id' ≠ id → σ.view id' = (m.procs k).view id' ∧ σ.seen id' = (m.procs k).seen id')
    (hstart : st = .calling → (blobOf i.handler).isSome ∧
      σ.view id = m.files ∧ σ.seen id = fun p => [m.files p]) :
    MInv c (m.take k σ) := by
  have hR := h.run k r hr
  have hg : ∀ id i, find id c = some i → Good m id i → Good (m.take k σ) id i := by
    intro id' i' hi' hG
    by_cases e : id' = id
    · subst e
      rw [hi] at hi'
      simp only [Option.some.injEq] at hi'
      subst hi'
      exact hkeep hG
    · refine hG.take hf (hlast id' e) ?_
      rintro ⟨r', i'', h1, h2, h3⟩
      rw [hr] at h1; simp only [Option.some.injEq] at h1; subst h1
      refine ⟨r.set id st, i'', ?_, h2, ?_⟩
      · simp only [Many.take, if_pos, Sys.proc]; exact hrun
      · simp only [Run.set, upd, e, if_false]; exact h3
  refine h.take hf hu hg ?_ ?_ ?_
  · rw [hst]; exact h.file.mono hf hu hg
  · intro r' hr'
    rw [hrun] at hr'; simp only [Option.some.injEq] at hr'; subst hr'
    refine ⟨hR.cfg, hR.load.mono hf hu hg, fun hb' => by simp [Run.set, hb] at hb', ?_, ?_, ?_⟩
    · intro id' i' hi' hc
      simp only [Run.set, upd] at hc
      show _ ∧ ∀ p ∈ i'.inputs, _ = σ.files p ∧ ∀ v ∈ _, v = σ.files p
      rw [hf]
      split at hc
      · rename_i e; subst e
        rw [hi] at hi'; simp only [Option.some.injEq] at hi'; subst hi'
        obtain ⟨h1, h2, h3⟩ := hstart hc
        refine ⟨h1, fun p _ => ?_⟩
        rw [h2, h3]; simp
      · rename_i e
        obtain ⟨h1, h2⟩ := hview id' e
        rw [h1, h2]
        exact hR.calling id' i' hi' hc
    · intro id' i' hi' hs
      simp only [Run.set, upd] at hs
      split at hs
      · rename_i e; subst e
        rw [hi] at hi'; simp only [Option.some.injEq] at hi'; subst hi'
        exact hgood hs
      · exact hg id' i' hi' (hR.good id' i' hi' hs)
    · intro hk id' hid' he
      obtain ⟨h1, h2⟩ := hok hk
      simp only [Run.set, upd] at he ⊢
      split
      · rename_i e
        rw [if_pos e] at he
        exact h2 he
      · rename_i e
        rw [if_neg e] at he
        exact hR.ok h1 id' hid' he
  · intro d hd' _
    left
    rw [hd] at hd'
    exact ⟨hd', by simp [hr]⟩

/-- A run of process `k` ends while none of its callbacks runs. -/
theorem MInv.ends {c : Cfg} {m : Many} {k : Nat} {σ : Sys} {r : Run} (h : MInv c m)
    (hr : (m.procs k).run = some r) (hf : σ.files = m.files) (hu : σ.used = m.used)
    (hl : σ.last = m.last) (hrun : σ.run = none) (hc : ∀ id, ¬ Calling m k id)
    (hst : StoredOk c m (loadGenFile σ.stateFile))
    (hd : ∀ d, σ.done = some d → d.ok = true →
      (m.procs k).done = some d ∨ ∀ id i, find id c = some i → Good m id i) :
    MInv c (m.take k σ) := by
  have hg : ∀ id i, find id c = some i → Good m id i → Good (m.take k σ) id i := by
    intro id i hi hG
    exact hG.take hf (by rw [hl]) fun hcc => absurd hcc (hc id)
  refine h.take hf hu hg (hst.mono hf hu hg) ?_ ?_
  · intro r' hr'; rw [hrun] at hr'; simp at hr'
  · intro d h1 h2
    rcases hd d h1 h2 with h3 | h3
    · exact .inl ⟨h3, by simp [hrun]⟩
    · exact .inr fun id i hi => hg id i hi (h3 id i hi)

/-- Nothing has happened. -/
theorem MInv.same {c : Cfg} {m : Many} (h : MInv c m) (k : Nat) : MInv c (m.take k (m.sys k)) := by
  have hg : ∀ id i, find id c = some i → Good m id i → Good (m.take k (m.sys k)) id i := by
    intro id i hi hG
    refine hG.take rfl rfl fun hc => ?_
    simpa only [Calling, Many.take, if_pos, Sys.proc, Many.sys, Many.at] using hc
  refine h.take rfl rfl hg (h.file.mono rfl rfl hg)
    (fun r hr => (h.run k r hr).mono rfl rfl hg) fun d hd _ => .inl ⟨hd, ?_⟩
  show ((m.procs k).run.isNone && (m.procs k).run.isSome) = false
  cases (m.procs k).run <;> rfl

theorem not_calling_waiting {m : Many} {k : Nat} {r : Run} (hr : (m.procs k).run = some r)
    (h : ∀ id ∈ keys r.cfg, r.status id ≠ .calling) (id : Str) : ¬ Calling m k id := by
  rintro ⟨r', i, h1, h2, h3⟩
  rw [hr] at h1; simp only [Option.some.injEq] at h1; subst h1
  exact h id (find_isSome.1 (by rw [h2]; rfl)) h3

/-- One step of process `k`. -/
theorem MInv.act {c : Cfg} {m : Many} (hn : (keys c).Nodup) (h : MInv c m) (k : Nat) (e : Event)
    (he : match e with
      | .start c' => c' = c
      | .call _ ok => ok = true
      | .crash _ _ => ∀ id, ¬ Calling m k id
      | .edit _ _ | .delete _ | .dropState => False
      | _ => True) : MInv c (m.take k (step (m.sys k) e)) := by
  cases e with
  | edit p t => exact he.elim
  | delete p => exact he.elim
  | dropState => exact he.elim
  | otherFail =>
    simp only [step]
    cases hr : (m.procs k).run with
    | none =>
      rw [show (m.sys k).run = none from hr]
      exact h.same k
    | some r =>
      rw [show (m.sys k).run = some r from hr]
      simp only [Option.isSome_some, if_true]
      have hR := h.run k r hr
      have hg : ∀ id i, find id c = some i → Good m id i →
          Good (m.take k ((m.sys k).fail .other)) id i := by
        intro id i hi hG
        refine hG.take rfl rfl fun hc => ?_
        simpa only [Calling, Many.take, if_pos, Sys.proc, Many.sys, Many.at, Sys.fail] using hc
      refine h.take rfl rfl hg (h.file.mono rfl rfl hg) ?_ fun d hd _ => .inl ⟨hd, by simp [hr]⟩
      intro r' hr'
      have := (h.run k r' hr').mono (m' := m.take k ((m.sys k).fail .other)) rfl rfl hg
      exact ⟨this.cfg, this.load, this.fresh, this.calling, this.good, fun hk => by simp [Sys.fail] at hk⟩
  | start c' =>
    have he : c' = c := he
    subst he
    have := h.start hn k m.stateFile h.file
    have e : (step (m.at k m.stateFile) (.start c')).stateFile = m.stateFile := by
      simp only [step, startRun]
      repeat' split
      all_goals rfl
    have e2 : ({ m.take k (step (m.at k m.stateFile) (.start c')) with stateFile := m.stateFile } : Many) =
        m.take k (step (m.at k m.stateFile) (.start c')) := by
      simp only [Many.take, e]
    rw [e2] at this
    exact this
  | begin =>
    simp only [step, inRun]
    cases hr : (m.procs k).run with
    | none =>
      rw [show (m.sys k).run = none from hr]
      exact h.same k
    | some r =>
      rw [show (m.sys k).run = some r from hr]
      have hR := h.run k r hr
      simp only [beginRun]
      split
      · exact h.same k
      · rename_i hb
        have hb : r.began = false := by simpa using hb
        split
        · refine h.ends hr rfl rfl rfl rfl ?_ h.file ?_
          · exact not_calling_waiting hr fun id _ => by rw [hR.fresh hb]; simp
          · intro d hd hok
            simp only [Option.some.injEq] at hd
            subst hd; simp at hok
        · have hg : ∀ id i, find id c = some i → Good m id i →
              Good (m.take k { m.sys k with run := some { r with began := true } }) id i := by
            intro id i hi hG
            refine hG.take rfl rfl ?_
            rintro ⟨r', i', h1, h2, h3⟩
            rw [hr] at h1; simp only [Option.some.injEq] at h1; subst h1
            exact ⟨{ r with began := true }, i', by simp [Many.take, Sys.proc], h2, h3⟩
          refine h.take rfl rfl hg (h.file.mono rfl rfl hg) ?_ fun d hd _ => .inl ⟨hd, by simp [hr]⟩
          intro r' hr'
          simp only [Option.some.injEq] at hr'; subst hr'
          have := hR.mono (m' := m.take k { m.sys k with run := some { r with began := true } }) rfl rfl hg
          exact ⟨this.cfg, this.load, by simp, this.calling, this.good, this.ok⟩
  | task id =>
    simp only [step, inRun]
    cases hr : (m.procs k).run with
    | none =>
      rw [show (m.sys k).run = none from hr]
      exact h.same k
    | some r =>
      rw [show (m.sys k).run = some r from hr]
      have hR := h.run k r hr
      simp only [taskRun]
      split
      · rename_i i hi hb hw
        rw [hR.cfg] at hi
        have hnc : ¬ Calling m k id := by
          rintro ⟨r', i', h1, h2, h3⟩
          rw [hr] at h1; simp only [Option.some.injEq] at h1; subst h1
          rw [hw] at h3; simp at h3
        split
        · rename_i hk
          refine h.mark (σ := { m.sys k with
              log := (m.sys k).log ++ [.skipped id], run := some (r.set id (.ended false false)) })
            hr hi rfl rfl rfl rfl rfl (fun _ _ => rfl) hb
            (fun hG => hG.take rfl rfl fun hc => absurd hc hnc) (by simp [Status.good]) ?_
            (fun _ _ => ⟨rfl, rfl⟩) (by simp)
          intro hk'
          rw [show (m.sys k).ok = (m.procs k).ok from rfl] at hk
          rw [show (m.procs k).ok = true from hk'] at hk; simp at hk
        · split
          · refine h.mark (σ := { (m.sys k).fail (.broken id) with
                run := some (r.set id (.ended false false)) })
              hr hi rfl rfl rfl rfl rfl (fun _ _ => rfl) hb
              (fun hG => hG.take rfl rfl fun hc => absurd hc hnc) (by simp [Status.good]) ?_
              (fun _ _ => ⟨rfl, rfl⟩) (by simp)
            intro hk; simp [Sys.fail] at hk
          · rename_i hdec
            have hbl : (blobOf i.handler).isSome := by
              simp only [decision] at hdec
              split at hdec
              · simp at hdec
              · rename_i cur hc
                rw [(convert_iff.1 hc).2.2]; rfl
            have hcall : Calling (m.take k { m.sys k with
                run := some (r.set id .calling)
                last := upd (m.sys k).last id (some (makeCall (m.sys k).files i false))
                seen := upd (m.sys k).seen id fun p => [(m.sys k).files p]
                view := upd (m.sys k).view id (m.sys k).files }) k id :=
              ⟨r.set id .calling, i, by simp [Many.take, Sys.proc],
                by rw [show (r.set id .calling).cfg = r.cfg from rfl, hR.cfg]; exact hi,
                by simp [Run.set, upd]⟩
            refine h.mark (σ := { m.sys k with
                run := some (r.set id .calling)
                last := upd (m.sys k).last id (some (makeCall (m.sys k).files i false))
                seen := upd (m.sys k).seen id fun p => [(m.sys k).files p]
                view := upd (m.sys k).view id (m.sys k).files })
              hr hi rfl rfl rfl rfl rfl ?_ hb (fun _ => .inl ⟨k, hcall⟩) (fun _ => .inl ⟨k, hcall⟩)
              (fun hk => ⟨hk, by simp [Status.isEnded]⟩) ?_ ?_
            · intro id' hne; simp only [upd, hne, if_false]; rfl
            · intro id' hne; simp only [upd, hne, if_false]; exact ⟨rfl, rfl⟩
            · intro _; refine ⟨hbl, ?_⟩; simp only [upd, if_true]; exact ⟨rfl, rfl⟩
          · rename_i hdec
            obtain ⟨s, hs, hu⟩ := decision_false hdec
            have hG : Good m id i := (hR.load id i s hi hs).2 hu.inputs
            refine h.mark (σ := { m.sys k with
                log := (m.sys k).log ++ [.unchanged id], run := some (r.set id (.ended false true)) })
              hr hi rfl rfl rfl rfl rfl (fun _ _ => rfl) hb
              (fun hG => hG.take rfl rfl fun hc => absurd hc hnc)
              (fun _ => hG.take rfl rfl fun hc => absurd hc hnc) (fun hk => ⟨hk, fun _ => rfl⟩)
              (fun _ _ => ⟨rfl, rfl⟩) (by simp)
      · exact h.same k
  | look id p v =>
    simp only [step, inRun]
    cases hr : (m.procs k).run with
    | none =>
      rw [show (m.sys k).run = none from hr]
      exact h.same k
    | some r =>
      rw [show (m.sys k).run = some r from hr]
      have hR := h.run k r hr
      simp only [lookAt]
      split
      · rename_i hv
        have hg : ∀ id' i, find id' c = some i → Good m id' i →
            Good (m.take k { m.sys k with view := upd (m.sys k).view id (upd ((m.sys k).view id) p v) })
              id' i := by
          intro id' i hi hG
          refine hG.take rfl rfl fun hc => ?_
          simpa only [Calling, Many.take, if_pos, Sys.proc, Many.sys, Many.at] using hc
        refine h.take rfl rfl hg (h.file.mono rfl rfl hg) ?_ fun d hd _ => .inl ⟨hd, by simp [hr]⟩
        intro r' hr'
        have hR' := h.run k r' hr'
        have this := hR'.mono (m' := m.take k { m.sys k with
          view := upd (m.sys k).view id (upd ((m.sys k).view id) p v) }) rfl rfl hg
        refine ⟨this.cfg, this.load, this.fresh, ?_, this.good, this.ok⟩
        intro id' i' hi' hc
        obtain ⟨h0, h1⟩ := hR'.calling id' i' hi' hc
        refine ⟨h0, fun q hq => ⟨?_, (h1 q hq).2⟩⟩
        show upd (m.procs k).view id (upd ((m.procs k).view id) p v) id' q = m.files q
        by_cases e : id' = id
        · subst e
          by_cases e : q = p
          · subst e; simpa [upd] using (h1 q hq).2 v hv.2
          · simpa [upd, e] using (h1 q hq).1
        · simpa [upd, e] using (h1 q hq).1
      · exact h.same k
  | call id ok =>
    have he : ok = true := he
    subst he
    simp only [step, inRun]
    cases hr : (m.procs k).run with
    | none =>
      rw [show (m.sys k).run = none from hr]
      exact h.same k
    | some r =>
      rw [show (m.sys k).run = some r from hr]
      have hR := h.run k r hr
      simp only [callRun]
      split
      · rename_i i hi hc
        rw [hR.cfg] at hi
        obtain ⟨hbl, hv⟩ := hR.calling id i hi hc
        obtain ⟨b, hbb⟩ := Option.isSome_iff_exists.1 hbl
        have hb : r.began = true := by
          cases hb : r.began with
          | true => rfl
          | false => rw [hR.fresh hb] at hc; simp at hc
        simp only [if_true]
        have hU : Good (m.take k { m.sys k with
            last := upd (m.sys k).last id (some (makeCall ((m.sys k).view id) i true))
            run := some (r.set id (.ended true true))
            log := (m.sys k).log ++ [.called id true] }) id i := by
          refine .inr ⟨makeCall ((m.sys k).view id) i true, ?_, rfl, ?_, rfl, ?_⟩
          · simp [Many.take, upd]
          · exact versions_congr fun p hp => (hv p hp).1
          · simp [makeCall, hbb]
        refine h.mark (σ := { m.sys k with
            last := upd (m.sys k).last id (some (makeCall ((m.sys k).view id) i true))
            run := some (r.set id (.ended true true))
            log := (m.sys k).log ++ [.called id true] })
          hr hi rfl rfl rfl rfl rfl ?_ hb (fun _ => hU) (fun _ => hU) (fun hk => ⟨hk, fun _ => rfl⟩)
          (fun _ _ => ⟨rfl, rfl⟩) (by simp)
        intro id' hne; simp only [upd, hne, if_false]; rfl
      · exact h.same k
  | finish order b =>
    simp only [step, inRun]
    cases hr : (m.procs k).run with
    | none =>
      rw [show (m.sys k).run = none from hr]
      exact h.same k
    | some r =>
      rw [show (m.sys k).run = some r from hr]
      have hR := h.run k r hr
      simp only
      split
      · rename_i hj
        simp only [Bool.and_eq_true, List.isPerm_iff, Run.joined, List.all_eq_true] at hj
        have hnc : ∀ id, ¬ Calling m k id := not_calling_waiting hr fun id hid hc => by
          have := hj.1.2 id hid
          rw [hc] at this; simp [Status.isEnded] at this
        have hall : (m.procs k).ok = true → ∀ id i, find id c = some i → Good m id i := by
          intro hk id i hi
          have hid := find_isSome.1 (show (find id c).isSome by rw [hi]; rfl)
          exact hR.good id i hi (hR.ok hk id hid (hj.1.2 id (hR.cfg ▸ hid)))
        rcases finish_cases (m.sys k) r order b with ⟨hd, he⟩ | ⟨-, -, he⟩ | ⟨s, t, -, h1, h2, he⟩ | ⟨-, he⟩
        all_goals rw [he]
        · refine h.ends hr rfl rfl rfl rfl hnc h.file ?_
          intro d hd hok
          simp only [Option.some.injEq] at hd; subst hd
          exact .inr (hall hok)
        · refine h.ends hr rfl rfl rfl rfl hnc h.file ?_
          intro d hd hok
          simp only [Option.some.injEq] at hd; subst hd; simp at hok
        · refine h.ends hr rfl rfl rfl rfl hnc (StoredOk.store hn h hR hj.2 h1 h2) ?_
          intro d hd hok
          simp only [Option.some.injEq] at hd; subst hd
          exact .inr (hall hok)
        · refine h.ends hr rfl rfl rfl rfl hnc h.file ?_
          intro d hd hok
          simp only [Option.some.injEq] at hd; subst hd; simp at hok
      · exact h.same k
  | crash order w =>
    have ht := h.torn hn k order w
    have he : ∀ id, ¬ Calling m k id := he
    cases hr : (m.procs k).run with
    | none =>
      simp only [step, inRun]
      rw [show (m.sys k).run = none from hr]
      exact h.same k
    | some r =>
      have key : (step (m.sys k) (.crash order w)).files = m.files ∧
          (step (m.sys k) (.crash order w)).used = m.used ∧
          (step (m.sys k) (.crash order w)).last = m.last ∧
          (step (m.sys k) (.crash order w)).run = none ∧
          (step (m.sys k) (.crash order w)).done = (m.procs k).done := by
        simp only [step, inRun]
        rw [show (m.sys k).run = some r from hr]
        simp only [crashRun]
        repeat' split
        all_goals exact ⟨rfl, rfl, rfl, rfl, rfl⟩
      obtain ⟨k1, k2, k3, k4, k5⟩ := key
      exact h.ends hr k1 k2 k3 k4 he ht fun d hd _ => .inl (k5 ▸ hd)

/-- Files change from outside while no process runs. -/
theorem MInv.outside {c : Cfg} {m : Many} (h : MInv c m) {p : Str} {t : Option Nat}
    {u : Str → List Nat} (hr : ∀ k, (m.procs k).run = none)
    (ht : ∀ n, t = some n → n ∉ m.used p) (hu : ∀ q, ∀ n ∈ m.used q, n ∈ u q)
    (hp : ∀ n, t = some n → n ∈ u p) : MInv c { m.put p t with used := u } where
  used := by
    intro q n hq
    simp only [Many.put, upd] at hq
    split at hq
    · rename_i e; subst e; exact hp n hq
    · exact hu q n (h.used q n hq)
  file := by
    intro id i s hi hs
    obtain ⟨h1, h2⟩ := h.file id i s hi hs
    refine ⟨fun x hx => ?_, fun he => ?_⟩
    · obtain ⟨n, hn, e⟩ := h1 x hx
      exact ⟨n, hu _ n hn, e⟩
    have he : recorded s.inputs = versions (upd m.files p t) i.inputs := he
    have hne : p ∉ i.inputs := by
      intro hm
      have h3 : (p, fileHash (upd m.files p t) p) ∈ recorded s.inputs := by
        rw [he]; exact List.mem_map.2 ⟨p, hm, rfl⟩
      obtain ⟨x, hx, e⟩ := List.mem_map.1 h3
      simp only [Prod.mk.injEq, fileHash, upd, if_true] at e
      obtain ⟨n, hn, e'⟩ := h1 x hx
      obtain ⟨n', e1, e2⟩ := Option.map_eq_some_iff.1 e.2.symm
      rw [e'] at e2
      have := digits_inj e2
      subst this
      rw [e.1] at hn
      exact ht n' e1 hn
    have hv : versions (upd m.files p t) i.inputs = versions m.files i.inputs :=
      versions_congr fun q hq => by
        simp only [upd]; rw [if_neg]; rintro rfl; exact hne hq
    rw [hv] at he
    rcases h2 he with ⟨j, r, i', h4, -⟩ | ⟨x, h3, h4, h5, h6, h7⟩
    · rw [hr j] at h4; simp at h4
    · exact .inr ⟨x, h3, h4, h5.trans hv.symm, h6, h7⟩
  run := by
    intro k r hk
    have : (m.procs k).run = some r := hk
    rw [hr k] at this; simp at this
  done := by
    intro k d _ _ hf
    simp [Many.put] at hf

/-- A process that is killed breaks nothing while none of its callbacks runs. -/
theorem broken_eq {m : Many} {k : Nat} (h : ∀ id, ¬ Calling m k id) : m.broken k = m := by
  have e : (fun id => if Calling m k id then (m.last id).map fun x => { x with ok := false }
      else m.last id) = m.last := by
    funext id; rw [if_neg (h id)]
  simp only [Many.broken, e]

theorem MInv.step {c : Cfg} {m : Many} (hn : (keys c).Nodup) (h : MInv c m) (e : MEvent)
    (l : List MEvent) (ht : Together c m (e :: l)) : MInv c (mstep m e) := by
  cases e with
  | edit p t =>
    obtain ⟨⟨h1, h2⟩, -⟩ := ht
    refine h.outside h2 ?_ ?_ ?_
    · intro n hn; simp only [Option.some.injEq] at hn; subst hn; exact h1
    · intro q n hn
      simp only [upd]; split
      · rename_i e; subst e; exact List.mem_cons_of_mem _ hn
      · exact hn
    · intro n hn; simp only [Option.some.injEq] at hn; subst hn; simp [upd]
  | delete p =>
    exact h.outside (u := m.used) (t := none) ht.1 (by simp) (fun _ _ hn => hn) (by simp)
  | dropState =>
    have hg : ∀ id i, find id c = some i → Good m id i →
        Good { m with stateFile := none } id i := fun _ _ _ h => h
    exact ⟨h.used, StoredOk.none, fun k r hr => (h.run k r hr).mono rfl rfl hg, h.done⟩
  | act k e =>
    have h1 := ht.1
    cases e with
    | edit p t => exact h
    | delete p => exact h
    | dropState => exact h
    | crash o w =>
      have h1 : ∀ id, ¬ Calling m k id := h1
      simp only [mstep]
      rw [broken_eq h1]
      exact h.act hn k (.crash o w) h1
    | start c' => exact h.act hn k (.start c') h1
    | call id ok => exact h.act hn k (.call id ok) h1
    | otherFail => exact h.act hn k .otherFail trivial
    | begin => exact h.act hn k .begin trivial
    | task id => exact h.act hn k (.task id) trivial
    | look id p v => exact h.act hn k (.look id p v) trivial
    | finish o b => exact h.act hn k (.finish o b) trivial
  | startDuring k j n o c' =>
    have h1 : c' = c := ht.1
    subst h1
    exact h.start hn k _ (h.torn hn j o (some n))

theorem MInv.steps {c : Cfg} (hn : (keys c).Nodup) : ∀ (evs : List MEvent) {m : Many}, MInv c m →
    Together c m evs → MInv c (msteps m evs) := by
  intro evs
  induction evs with
  | nil => intro m h _; exact h
  | cons e l ih =>
    intro m h ht
    exact ih (h.step hn e l ht) ht.2

end Verif.Generator
