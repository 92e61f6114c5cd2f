import Verif.Reg.AgreeSpec

/-! # The times in stored states are times that the files have had -/

namespace Verif.Reg
open Verif Verif.Schema Verif.Json
open Verif.Target (Fixed BinArt objPath outputPath upd paths hashAll)

theorem Dated.mono {u u' : Str → List Nat} {i : PathInfo} (h : Dated u i) (hu : ∀ p, ∀ t ∈ u p, t ∈ u' p) :
    Dated u' i := fun t ht => hu _ t (h t ht)

theorem DatedTarget.mono {u u' : Str → List Nat} {s : TargetSchema} (h : DatedTarget u s)
    (hu : ∀ p, ∀ t ∈ u p, t ∈ u' p) : DatedTarget u' s :=
  ⟨fun i hi => (h.sources i hi).mono hu, fun i hi => (h.headers i hi).mono hu,
    fun i hi => (h.pchs i hi).mono hu, fun i hi => (h.libs i hi).mono hu,
    fun i hi => (h.compileDeps i hi).mono hu, fun i hi => (h.linkDeps i hi).mono hu⟩

theorem DatedTarget.empty (u : Str → List Nat) : DatedTarget u TargetSchema.empty := by
  constructor <;> simp [TargetSchema.empty]

theorem hashAll_dated {u : Str → List Nat} {f : Str → Option Nat} (hf : ∀ p t, f p = some t → t ∈ u p) :
    ∀ {l : List PathInfo}, (∀ i ∈ l, Dated u i) → ∀ i ∈ (hashAll f l).1, Dated u i
  | [], h => by simpa [hashAll] using h
  | k :: l, h => by
    have ih := hashAll_dated hf (l := l) fun i hi => h i (by simp [hi])
    simp only [hashAll]
    split
    · exact h
    · rename_i v hv
      intro i hi
      rcases List.mem_cons.1 hi with rfl | hi
      · intro t ht
        obtain ⟨t', ht', hd⟩ := Option.map_eq_some_iff.1 hv
        have : t' = t := Json.digits_inj (hd.trans ht)
        exact this ▸ hf _ _ ht'
      · exact ih i hi

theorem foldl_dated {u : Str → List Nat} : ∀ {l : List PathInfo} {s : TargetSchema}, (∀ i ∈ l, Dated u i) →
    DatedTarget u s → DatedTarget u (l.foldl (fun st i => addSource st i.path i.hash) s)
  | [], _, _, h => h
  | k :: l, s, hl, h => by
    refine foldl_dated (l := l) (fun i hi => hl i (by simp [hi]))
      ⟨fun i hi => ?_, h.headers, h.pchs, h.libs, h.compileDeps, h.linkDeps⟩
    simp only [addSource, List.mem_append, List.mem_singleton] at hi
    rcases hi with hi | rfl
    · exact h.sources i hi
    · exact hl k (by simp)

/-- The times that a target knows. -/
structure KTarget (σ : Target.Sys) : Prop where
  files : ∀ p t, σ.files p = some t → t ∈ σ.used p
  state : ∀ s, loadTargetFile σ.stateFile = some s → DatedTarget σ.used s
  run : ∀ r, σ.run = some r → DatedTarget σ.used r.user ∧ DatedTarget σ.used r.store ∧
    (∀ i ∈ r.pending, Dated σ.used i) ∧ ∀ i ∈ r.executed, Dated σ.used i

theorem KTarget.of {σ σ' : Target.Sys} (h : KTarget σ) (h1 : σ'.files = σ.files) (h2 : σ'.used = σ.used)
    (h3 : σ'.stateFile = σ.stateFile) (hr : ∀ r, σ'.run = some r → DatedTarget σ.used r.user ∧
      DatedTarget σ.used r.store ∧ (∀ i ∈ r.pending, Dated σ.used i) ∧ ∀ i ∈ r.executed, Dated σ.used i) :
    KTarget σ' := by
  refine ⟨?_, ?_, ?_⟩
  · rw [h1, h2]; exact h.files
  · rw [h3, h2]; exact h.state
  · rw [h2]; exact hr

theorem KTarget.none {σ σ' : Target.Sys} (h : KTarget σ) (h1 : σ'.files = σ.files) (h2 : σ'.used = σ.used)
    (h3 : σ'.stateFile = σ.stateFile) (hr : σ'.run = none) : KTarget σ' :=
  h.of h1 h2 h3 fun r hr' => by rw [hr] at hr'; simp at hr'

theorem KTarget.some {σ σ' : Target.Sys} {r : Target.Run} (h : KTarget σ) (h1 : σ'.files = σ.files)
    (h2 : σ'.used = σ.used) (h3 : σ'.stateFile = σ.stateFile) (hr : σ'.run = some r)
    (hd : DatedTarget σ.used r.user ∧
      DatedTarget σ.used r.store ∧ (∀ i ∈ r.pending, Dated σ.used i) ∧ ∀ i ∈ r.executed, Dated σ.used i) :
    KTarget σ' :=
  h.of h1 h2 h3 fun r' hr' => by
    rw [hr] at hr'; simp only [Option.some.injEq] at hr'; subst hr'; exact hd

theorem toStore_dated {u : Str → List Nat} {r : Target.Run} (h1 : DatedTarget u r.user)
    (h2 : DatedTarget u r.store) : DatedTarget u r.toStore :=
  ⟨h2.sources, h1.headers, h2.pchs, h1.libs, h1.compileDeps, h1.linkDeps⟩

theorem kTarget_stored {σ σ' : Target.Sys} {r : Target.Run} {t : Str} (h : KTarget σ) (hr : σ.run = some r)
    (h1 : σ'.files = σ.files) (h2 : σ'.used = σ.used) (ht : targetText r.toStore = some t)
    (h3 : σ'.stateFile = some t) (h4 : σ'.run = none) : KTarget σ' := by
  obtain ⟨d1, d2, -, -⟩ := h.run r hr
  refine ⟨by rw [h1, h2]; exact h.files, fun s hs => ?_, fun r hr => by rw [h4] at hr; simp at hr⟩
  rw [h3] at hs
  have hlt : loadTargetFile (some t) = some r.toStore := by
    simp [loadTargetFile, loadFile, loadTarget_text ht]
  rw [hlt] at hs
  simp only [Option.some.injEq] at hs
  subst hs
  rw [h2]
  exact toStore_dated d1 d2

theorem kTarget_step {fx : Fixed} {σ : Target.Sys} {e : Target.Event} (h : KTarget σ)
    (hs : ∀ c o, e = .start c o → DatedTarget (fun _ => []) c) : KTarget (Target.step fx σ e) := by
  have hmono : ∀ {c : TargetSchema}, DatedTarget (fun _ => []) c → DatedTarget σ.used c :=
    fun hc => hc.mono fun p t ht => by simp at ht
  have hH := fun {l : List PathInfo} (hl : ∀ i ∈ l, Dated σ.used i) => hashAll_dated h.files hl
  cases e with
  | edit p t =>
    have hu : ∀ q, ∀ x ∈ σ.used q, x ∈ upd σ.used p (t :: σ.used p) q := by
      intro q x hx
      simp only [upd]
      split
      · rename_i e; subst e; exact List.mem_cons_of_mem _ hx
      · exact hx
    refine ⟨?_, fun s hs => (h.state s hs).mono hu, fun r hr => ?_⟩
    · intro q x hx
      simp only [Target.step, Target.Sys.put, upd] at hx ⊢
      split at hx
      · rename_i e
        simp only [Option.some.injEq] at hx
        subst hx
        simp [e]
      · rename_i e; rw [if_neg e]; exact h.files q x hx
    · obtain ⟨d1, d2, d3, d4⟩ := h.run r hr
      exact ⟨d1.mono hu, d2.mono hu, fun i hi => (d3 i hi).mono hu, fun i hi => (d4 i hi).mono hu⟩
  | delete p =>
    refine ⟨?_, h.state, h.run⟩
    intro q x hx
    simp only [Target.step, Target.Sys.put, upd] at hx ⊢
    split at hx
    · simp at hx
    · exact h.files q x hx
  | tamperObj p a => exact ⟨h.files, h.state, h.run⟩
  | tamperPch a => exact ⟨h.files, h.state, h.run⟩
  | tamperBin a => exact ⟨h.files, h.state, h.run⟩
  | dropState =>
    simp only [Target.step]
    split
    · exact ⟨h.files, fun s hs => by simp [loadTargetFile, loadFile] at hs, h.run⟩
    · exact h
  | otherFail => simp only [Target.step]; split <;> exact ⟨h.files, h.state, h.run⟩
  | look p v => simp only [Target.step, Target.lookAt]; split <;> exact ⟨h.files, h.state, h.run⟩
  | start c o =>
    have hc := hmono (hs c o rfl)
    simp only [Target.step, Target.startRun]
    repeat' split
    all_goals first
      | exact h
      | exact h.some rfl rfl rfl rfl ⟨hc, .empty _, by simp, by simp⟩
  | pchTask =>
    simp only [Target.step, Target.inPhase]
    split
    · rename_i r hr
      obtain ⟨d1, d2, d3, d4⟩ := h.run r hr
      have e1 : DatedTarget σ.used { r.user with headers := (hashAll σ.files r.user.headers).1 } :=
        ⟨d1.sources, hH d1.headers, d1.pchs, d1.libs, d1.compileDeps, d1.linkDeps⟩
      have e2 : DatedTarget σ.used { r.user with headers := (hashAll σ.files r.user.headers).1,
                                                 pchs := (hashAll σ.files r.user.pchs).1 } :=
        ⟨d1.sources, hH d1.headers, hH d1.pchs, d1.libs, d1.compileDeps, d1.linkDeps⟩
      split
      · simp only [Target.pchTask]
        repeat' split
        · exact h.some rfl rfl rfl rfl ⟨d1, d2, d3, d4⟩
        · exact h.some rfl rfl rfl rfl ⟨e1, d2, d3, d4⟩
        · exact h.some rfl rfl rfl rfl ⟨e2, d2, d3, d4⟩
        · exact h.some rfl rfl rfl rfl ⟨e2, d2, d3, d4⟩
        · exact h.some rfl rfl rfl rfl ⟨e2,
            ⟨d2.sources, d2.headers, e2.pchs, d2.libs, d2.compileDeps, d2.linkDeps⟩, d3, d4⟩
      · exact h
    · exact h
  | pchExec ok junk =>
    simp only [Target.step, Target.inPhase]
    split
    · rename_i r hr
      obtain ⟨d1, d2, d3, d4⟩ := h.run r hr
      split
      · simp only [Target.pchExec]
        split
        · exact h.some rfl rfl rfl rfl ⟨d1,
            ⟨d2.sources, d2.headers, d1.pchs, d2.libs, d2.compileDeps, d2.linkDeps⟩, d3, d4⟩
        · exact h.some rfl rfl rfl rfl ⟨d1, d2, d3, d4⟩
      · exact h
    · exact h
  | objTask =>
    simp only [Target.step, Target.inPhase]
    split
    · rename_i r hr
      obtain ⟨d1, d2, d3, d4⟩ := h.run r hr
      have e1 : DatedTarget σ.used { r.user with sources := (hashAll σ.files r.user.sources).1 } :=
        ⟨hH d1.sources, d1.headers, d1.pchs, d1.libs, d1.compileDeps, d1.linkDeps⟩
      have e2 : DatedTarget σ.used { r.user with sources := (hashAll σ.files r.user.sources).1,
                                                 headers := (hashAll σ.files r.user.headers).1 } :=
        ⟨hH d1.sources, hH d1.headers, d1.pchs, d1.libs, d1.compileDeps, d1.linkDeps⟩
      have e3 : DatedTarget σ.used { r.user with sources := (hashAll σ.files r.user.sources).1,
                                                 headers := (hashAll σ.files r.user.headers).1,
                                                 compileDeps := (hashAll σ.files r.user.compileDeps).1 } :=
        ⟨hH d1.sources, hH d1.headers, d1.pchs, d1.libs, hH d1.compileDeps, d1.linkDeps⟩
      split
      · simp only [Target.objTask]
        repeat' split
        · exact h.some rfl rfl rfl rfl ⟨d1, d2, d3, d4⟩
        · exact h.some rfl rfl rfl rfl ⟨e1, d2, d3, d4⟩
        · exact h.some rfl rfl rfl rfl ⟨e2, d2, d3, d4⟩
        · exact h.some rfl rfl rfl rfl ⟨e3, d2, d3, d4⟩
        · exact h.some rfl rfl rfl rfl ⟨e3, d2, e3.sources, d4⟩
        · have hp := Target.recompile_perm (hashAll σ.files r.user.sources).1 r.load.sources
          refine h.some rfl rfl rfl rfl ⟨e3, foldl_dated (fun i hi => ?_) d2, fun i hi => ?_, d4⟩
          · exact e3.sources i (hp.mem_iff.1 (List.mem_append_right _ hi))
          · exact e3.sources i (hp.mem_iff.1 (List.mem_append_left _ hi))
      · exact h
    · exact h
  | exec k ok junk =>
    simp only [Target.step, Target.inPhase]
    split
    · rename_i r hr
      obtain ⟨d1, d2, d3, d4⟩ := h.run r hr
      split
      · simp only [Target.execObj]
        split
        · exact h
        · rename_i i hi
          have hi := List.mem_of_getElem? hi
          split
          · refine h.some rfl rfl rfl rfl ⟨d1, d2, fun k hk => d3 k (List.mem_of_mem_eraseIdx hk), ?_⟩
            intro k hk
            rcases List.mem_cons.1 hk with rfl | hk
            · exact d3 k hi
            · exact d4 k hk
          · exact h.some rfl rfl rfl rfl ⟨d1, d2, fun k hk => d3 k (List.mem_of_mem_eraseIdx hk), d4⟩
      · exact h
    · exact h
  | add k =>
    simp only [Target.step, Target.inPhase]
    split
    · rename_i r hr
      obtain ⟨d1, d2, d3, d4⟩ := h.run r hr
      split
      · simp only [Target.addObj]
        split
        · exact h
        · rename_i i hi
          have hi := List.mem_of_getElem? hi
          exact h.some rfl rfl rfl rfl ⟨d1, foldl_dated (l := [i]) (by simpa using d4 i hi) d2, d3,
            fun k hk => d4 k (List.mem_of_mem_eraseIdx hk)⟩
      · exact h
    · exact h
  | linkTask =>
    simp only [Target.step]
    split
    · rename_i r hr
      obtain ⟨d1, d2, d3, d4⟩ := h.run r hr
      have e1 : DatedTarget σ.used { r.user with libs := (hashAll σ.files r.user.libs).1 } :=
        ⟨d1.sources, d1.headers, d1.pchs, hH d1.libs, d1.compileDeps, d1.linkDeps⟩
      have e2 : DatedTarget σ.used { r.user with libs := (hashAll σ.files r.user.libs).1,
                                                 linkDeps := (hashAll σ.files r.user.linkDeps).1 } :=
        ⟨d1.sources, d1.headers, d1.pchs, hH d1.libs, d1.compileDeps, hH d1.linkDeps⟩
      split
      · simp only [Target.linkTask]
        repeat' split
        · exact h.some rfl rfl rfl rfl ⟨d1, d2, d3, d4⟩
        · exact h.some rfl rfl rfl rfl ⟨e1, d2, d3, d4⟩
        · exact h.some rfl rfl rfl rfl ⟨e2, d2, d3, d4⟩
        · exact h.some rfl rfl rfl rfl ⟨e2, d2, d3, d4⟩
        · exact h.some rfl rfl rfl rfl ⟨e2, d2, d3, d4⟩
      · exact h
    · exact h
  | linkExec ok junk =>
    simp only [Target.step, Target.inPhase]
    split
    · rename_i r hr
      obtain ⟨d1, d2, d3, d4⟩ := h.run r hr
      split
      · simp only [Target.linkExec]
        split
        · exact h.some rfl rfl rfl rfl ⟨d1,
            ⟨d2.sources, d2.headers, d2.pchs, d2.libs, d2.compileDeps, d2.linkDeps⟩, d3, d4⟩
        · exact h.some rfl rfl rfl rfl ⟨d1, d2, d3, d4⟩
      · exact h
    · exact h
  | finish canOpen =>
    simp only [Target.step, Target.inPhase]
    split
    · rename_i r hr
      split
      · simp only [Target.finishRun]
        split
        · cases htx : targetText r.toStore with
          | none => simp only [storeText]; exact h.none rfl rfl rfl rfl
          | some t =>
            cases canOpen with
            | false =>
              simp only [storeText, Bool.false_eq_true, if_false]
              exact h.none rfl rfl rfl rfl
            | true =>
              simp only [storeText, if_true]
              exact kTarget_stored h hr rfl rfl htx rfl rfl
        · exact h.none rfl rfl rfl rfl
      · exact h
    · exact h
  | crash wr =>
    simp only [Target.step]
    split
    · rename_i r hr
      simp only [Target.crashRun]
      split
      · exact h.none rfl rfl rfl rfl
      · rename_i n
        split
        · rename_i _ _ _ text hph hdirty htx
          split
          · rename_i hn
            refine ⟨h.files, fun s hs => ?_, by simp⟩
            have hnone : loadTargetFile (some (text.take n)) = none := by
              simp only [loadTargetFile, loadFile, Option.bind_some]
              refine loadTarget_prefix htx (List.take_append_drop n text).symm ?_
              intro e
              have := congrArg List.length e
              simp at this
              omega
            rw [hnone] at hs; simp at hs
          · exact kTarget_stored h hr rfl rfl htx rfl rfl
        · exact h.none rfl rfl rfl rfl
    · exact h

/-- The times that a generator knows. -/
structure KGen (σ : Generator.Sys) : Prop where
  files : ∀ p t, σ.files p = some t → t ∈ σ.used p
  state : ∀ id x, Generator.storedId (loadGenFile σ.stateFile) id = some x → ∀ i ∈ x.inputs, Dated σ.used i
  run : ∀ r, σ.run = some r → (Generator.keys r.cfg).Nodup

theorem KGen.of {σ σ' : Generator.Sys} (h : KGen σ) (h1 : σ'.files = σ.files) (h2 : σ'.used = σ.used)
    (h3 : σ'.stateFile = σ.stateFile) (hr : ∀ r, σ'.run = some r → (Generator.keys r.cfg).Nodup) :
    KGen σ' := by
  refine ⟨?_, ?_, hr⟩
  · rw [h1, h2]; exact h.files
  · rw [h3, h2]; exact h.state

theorem kGen_stored {σ σ' : Generator.Sys} {r : Generator.Run} {order : List Str} {s : GenSchema} {t : Str}
    (h : KGen σ) (hr : σ.run = some r) (ho : order.Perm (Generator.keys r.cfg))
    (hs : Generator.toStore σ.files r order = some s) (ht : genText s = some t)
    (h1 : σ'.files = σ.files) (h2 : σ'.used = σ.used) (h3 : σ'.stateFile = some t) (h4 : σ'.run = none) :
    KGen σ' := by
  obtain ⟨l, hl1, hl2⟩ := Option.map_eq_some_iff.1 hs
  obtain ⟨g1, g2⟩ := Generator.convertAll_inv hl1
  have hn : (Generator.keys l).Nodup := (ho.nodup_iff.2 (h.run r hr)).sublist g1
  have hload : loadGenFile σ'.stateFile = some s := by
    rw [h3]
    simp only [loadGenFile, loadFile, Option.bind_some]
    refine loadGen_text ?_ ht
    rw [← hl2]; exact hn
  refine ⟨by rw [h1, h2]; exact h.files, fun id x hx i hi => ?_, fun r hr => by rw [h4] at hr; simp at hr⟩
  rw [hload] at hx
  simp only [Generator.storedId, Option.bind_some, ← hl2] at hx
  obtain ⟨-, k, hk, hc⟩ := g2 id x (Generator.find_mem hx)
  have hin := (Generator.convert_iff.1 hc).1
  have hm : (i.path, some i.hash) ∈ Generator.recorded x.inputs := List.mem_map.2 ⟨i, hi, rfl⟩
  rw [hin] at hm
  obtain ⟨p, -, he⟩ := List.mem_map.1 hm
  simp only [Prod.mk.injEq] at he
  rw [he.1] at he
  obtain ⟨n, hn1, hn2⟩ := Option.map_eq_some_iff.1 he.2
  intro t ht
  have : n = t := Json.digits_inj (hn2.trans ht)
  rw [h2]
  exact this ▸ h.files _ _ hn1

theorem kGen_step {σ : Generator.Sys} {e : Generator.Event} (h : KGen σ) : KGen (Generator.step σ e) := by
  have hset : ∀ {r : Generator.Run} {id st}, σ.run = some r → ∀ r', some (r.set id st) = some r' →
      (Generator.keys r'.cfg).Nodup := by
    intro r id st hr r' hr'
    simp only [Option.some.injEq] at hr'
    subst hr'
    exact h.run r hr
  cases e with
  | edit p t =>
    have hu : ∀ q, ∀ x ∈ σ.used q, x ∈ upd σ.used p (t :: σ.used p) q := by
      intro q x hx
      simp only [upd]
      split
      · rename_i e; subst e; exact List.mem_cons_of_mem _ hx
      · exact hx
    refine ⟨?_, fun id x hx i hi => (h.state id x hx i hi).mono hu, h.run⟩
    intro q x hx
    simp only [Generator.step, Generator.Sys.put, upd] at hx ⊢
    split at hx
    · rename_i e
      simp only [Option.some.injEq] at hx
      subst hx
      simp [e]
    · rename_i e; rw [if_neg e]; exact h.files q x hx
  | delete p =>
    refine ⟨?_, h.state, h.run⟩
    intro q x hx
    simp only [Generator.step, Generator.Sys.put, upd] at hx ⊢
    split at hx
    · simp at hx
    · exact h.files q x hx
  | dropState =>
    simp only [Generator.step]
    split
    · exact ⟨h.files, fun id x hx => by simp [loadGenFile, loadFile, Generator.storedId] at hx, h.run⟩
    · exact h
  | otherFail => simp only [Generator.step]; split <;> exact ⟨h.files, h.state, h.run⟩
  | start c =>
    simp only [Generator.step, Generator.startRun]
    repeat' split
    · exact h
    · rename_i hn
      refine h.of rfl rfl rfl fun r hr => ?_
      simp only [Option.some.injEq] at hr
      subst hr
      exact hn
    · exact h
  | «begin» =>
    simp only [Generator.step, Generator.inRun, Generator.beginRun]
    split
    · rename_i r hr
      repeat' split
      · exact h
      · exact h.of rfl rfl rfl (by simp)
      · refine h.of rfl rfl rfl fun r' hr' => ?_
        simp only [Option.some.injEq] at hr'
        subst hr'
        exact h.run r hr
    · exact h
  | task id =>
    simp only [Generator.step, Generator.inRun, Generator.taskRun]
    split
    · rename_i r hr
      repeat' split
      all_goals first
        | exact h
        | exact h.of rfl rfl rfl (hset hr)
    · exact h
  | look id p v =>
    simp only [Generator.step, Generator.inRun, Generator.lookAt]
    repeat' split
    all_goals exact ⟨h.files, h.state, h.run⟩
  | call id ok =>
    simp only [Generator.step, Generator.inRun, Generator.callRun]
    split
    · rename_i r hr
      repeat' split
      all_goals first
        | exact h
        | exact h.of rfl rfl rfl (hset hr)
    · exact h
  | finish order canOpen =>
    simp only [Generator.step, Generator.inRun]
    split
    · rename_i r hr
      split
      · rename_i ho
        simp only [Bool.and_eq_true, List.isPerm_iff] at ho
        simp only [Generator.finishRun]
        split
        · split
          · exact h.of rfl rfl rfl (by simp)
          · rename_i s hst
            cases htx : genText s with
            | none => simp only [storeText]; exact h.of rfl rfl rfl (by simp)
            | some t =>
              cases canOpen with
              | false =>
                simp only [storeText, Bool.false_eq_true, if_false]
                exact h.of rfl rfl rfl (by simp)
              | true =>
                simp only [storeText, if_true]
                exact kGen_stored h hr ho.2 hst htx rfl rfl rfl rfl
        · exact h.of rfl rfl rfl (by simp)
      · exact h
    · exact h
  | crash order wr =>
    simp only [Generator.step, Generator.inRun]
    split
    · rename_i r hr
      simp only [Generator.crashRun]
      split
      · exact h.of rfl rfl rfl (by simp)
      · rename_i n
        split
        · rename_i ho
          simp only [Bool.and_eq_true, List.isPerm_iff] at ho
          split
          · exact h.of rfl rfl rfl (by simp)
          · rename_i text htx
            obtain ⟨s, hst, ht⟩ := Option.bind_eq_some_iff.1 htx
            split
            · rename_i hn
              refine ⟨h.files, fun id x hx => ?_, by simp⟩
              rw [Generator.truncated_unreadable (h.run r hr) ho.2 hst ht hn] at hx
              simp [Generator.storedId] at hx
            · exact kGen_stored h hr ho.2 hst ht rfl rfl rfl rfl
        · exact h.of rfl rfl rfl (by simp)
    · exact h

/-! ## Worlds -/

def DComp : Comp → Prop
  | .target _ σ => KTarget σ
  | .gen σ => KGen σ

theorem DComp.dated {c : Comp} (h : DComp c) : DatedState c.used c := by
  cases c with
  | target fx σ => exact h.state
  | gen σ => exact h.state

theorem dComp_step {c : Comp} {e : Ev} (h : DComp c)
    (hs : ∀ x o, e = .t (.start x o) → DatedTarget (fun _ => []) x) : DComp (c.step e) := by
  cases c with
  | target fx σ =>
    cases e with
    | t e => exact kTarget_step (fx := fx) h fun x o hx => hs x o (by rw [hx])
    | g e => exact h
  | gen σ =>
    cases e with
    | t e => exact h
    | g e => exact kGen_step h

theorem dComp_write {c : Comp} {p : Str} {x : Option Nat} (h : DComp c) : DComp (c.write p x) := by
  cases x <;> exact dComp_step (dComp_step h (by simp)) (by simp)

theorem dComp_writes {j : Str} : ∀ (ws : Writes) (w : World), DComp (w.comps j) → DComp ((w.writes ws).comps j) := by
  intro ws
  induction ws with
  | nil => intro w h; exact h
  | cons x l ih => intro w h; exact ih (w.write x.1 x.2) (dComp_write h)

theorem dComp_event {w : World} {e : WEvent} (h : ∀ j, DComp (w.comps j)) (he : Timeless e) :
    ∀ j, DComp ((w.step e).comps j) := by
  intro j
  cases e with
  | edit p t =>
    simp only [World.step, World.write]
    exact dComp_write (h j)
  | delete p =>
    simp only [World.step, World.write]
    exact dComp_write (h j)
  | dropState id =>
    simp only [World.step]
    split
    · exact h j
    · simp only [upd]
      split
      · exact dComp_step (dComp_step (h _) (by simp)) (by simp)
      · exact h j
  | launch g s =>
    simp only [World.step]
    split
    · simp only
      split
      · rename_i hj
        have hc := he j hj
        cases hsj : s j with
        | target c o =>
          refine dComp_step (h j) fun x o' hx => ?_
          simp only [Ev.t.injEq, Target.Event.start.injEq] at hx
          rw [← hx.1]
          exact hc c o hsj
        | gen c => exact dComp_step (h j) (by simp)
      · exact h j
    · exact h j
  | «begin» id => simp only [World.step]; split <;> exact h j
  | task id e ws =>
    simp only [World.step]
    split
    · rename_i hg
      simp only [Bool.and_eq_true, decide_eq_true_eq] at hg
      refine dComp_writes ws (w.stepped id e ws) ?_
      simp only [World.stepped]
      split
      · rename_i e'
        subst e'
        refine dComp_step (h j) ?_
        rintro x o rfl
        simp [Ev.isTask, Target.Event.progress] at hg
      · split
        · exact dComp_step (dComp_step (h j) (by simp)) (by simp)
        · exact h j
    · exact h j
  | look id e =>
    simp only [World.step]
    split
    · rename_i hg
      simp only [Bool.and_eq_true, decide_eq_true_eq] at hg
      simp only [upd]
      split
      · refine dComp_step (h _) ?_
        rintro x o rfl
        simp [Ev.isLook] at hg
      · exact h j
    · exact h j
  | join =>
    simp only [World.step]
    split
    · simp only
      split
      · exact dComp_step (dComp_step (h j) (by simp)) (by simp)
      · exact h j
    · exact h j
  | kill order written =>
    simp only [World.step]
    split
    · simp only
      split
      · exact dComp_step (dComp_step (h j) (by simp)) (by simp)
      · exact h j
    · exact h j

theorem dComp_events : ∀ (evs : List WEvent) (w : World), (∀ j, DComp (w.comps j)) →
    (∀ e ∈ evs, Timeless e) → ∀ j, DComp ((w.steps evs).comps j) := by
  intro evs
  induction evs with
  | nil => intro w h _; exact h
  | cons e l ih =>
    intro w h he
    exact ih (w.step e) (dComp_event h (he e (by simp))) fun x hx => he x (by simp [hx])

theorem dComp_init (kinds : Str → Kind) (j : Str) : DComp ((World.init kinds).comps j) := by
  simp only [World.init]
  cases kinds j with
  | target fx =>
    exact ⟨by simp [Target.Sys.init], by simp [Target.Sys.init, loadTargetFile, loadFile],
      by simp [Target.Sys.init]⟩
  | gen =>
    exact ⟨by simp [Generator.Sys.init],
      by simp [Generator.Sys.init, loadGenFile, loadFile, Generator.storedId], by simp [Generator.Sys.init]⟩

/-- In every history of scripts that give paths, not times, the times in stored states are times that the
files have had. -/
theorem dated_history {kinds : Str → Kind} {hist : List WEvent} (h : ∀ e ∈ hist, Timeless e) (j : Str) :
    DatedState (((World.init kinds).steps hist).comps j).used (((World.init kinds).steps hist).comps j) :=
  (dComp_events hist _ (dComp_init kinds) h j).dated

end Verif.Reg
