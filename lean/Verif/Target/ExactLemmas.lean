import Verif.Target.Sofar

/-! # Consequences used by the exactness properties -/

namespace Verif.Target
open Verif Verif.Command Verif.Schema Verif.Json

variable {f f' : Str → Option Nat} {L : Option TargetSchema} {c : TargetSchema}

/-! ## States that are current for other files -/

theorem versions_congr {l : List PathInfo} (h : ∀ p ∈ paths l, f' p = f p) :
    versions f' l = versions f l := by
  induction l with
  | nil => rfl
  | cons i l ih =>
    simp only [paths, List.map_cons, List.mem_cons, forall_eq_or_imp] at h
    simp only [versions, List.map_cons] at ih ⊢
    rw [ih h.2]
    simp only [version, h.1]

theorem version_congr {p : Str} (h : f' p = f p) : version f' p = version f p := by
  simp only [version, h]

theorem PchCurrent.congr {s : TargetSchema} (h : PchCurrent f s c)
    (h1 : ∀ p ∈ paths c.headers, f' p = f p) (h2 : ∀ p ∈ paths c.pchs, f' p = f p) :
    PchCurrent f' s c :=
  ⟨h.preprocessor, h.common, h.pchFlags, h.cFlags, h.cppFlags, h.includes,
    h.headers.trans (versions_congr h1).symm, h.pchs.trans (versions_congr h2).symm, h.compiled⟩

theorem SharedCurrent.congr {s : TargetSchema} (h : SharedCurrent f s c)
    (h1 : ∀ p ∈ paths c.headers, f' p = f p) (h2 : ∀ p ∈ paths c.pchs, f' p = f p)
    (h3 : ∀ p ∈ paths c.compileDeps, f' p = f p) : SharedCurrent f' s c :=
  ⟨h.preprocessor, h.common, h.pchFlags, h.asm, h.cFlags, h.cppFlags, h.includes,
    h.headers.trans (versions_congr h1).symm, h.deps.trans (versions_congr h3).symm,
    fun hp => (h.pch hp).congr h1 h2⟩

theorem SourceCurrent.congr {s : TargetSchema} {p : Str} (h : SourceCurrent f s p)
    (h1 : f' p = f p) : SourceCurrent f' s p := by
  obtain ⟨i, h2, h3⟩ := h
  exact ⟨i, h2, (version_congr h1).trans h3⟩

theorem LinkCurrent.congr {s : TargetSchema} (h : LinkCurrent f s c)
    (h1 : ∀ p ∈ paths c.libs, f' p = f p) (h2 : ∀ p ∈ paths c.linkDeps, f' p = f p) :
    LinkCurrent f' s c :=
  ⟨h.flags, h.libDirs, h.external, h.libs.trans (versions_congr h1).symm,
    h.deps.trans (versions_congr h2).symm, h.linked⟩

theorem mem_tracked {p : Str} : p ∈ tracked c ↔ p ∈ paths c.sources ∨ p ∈ paths c.headers ∨
    p ∈ paths c.pchs ∨ p ∈ paths c.compileDeps ∨ p ∈ paths c.libs ∨ p ∈ paths c.linkDeps := by
  simp [tracked, or_assoc]

theorem AllCurrent.congr {s : TargetSchema} (h : AllCurrent f s c)
    (h1 : ∀ p ∈ tracked c, f' p = f p) : AllCurrent f' s c :=
  ⟨h.shared.congr (fun p hp => h1 p (mem_tracked.2 (by simp [hp])))
      (fun p hp => h1 p (mem_tracked.2 (by simp [hp])))
      (fun p hp => h1 p (mem_tracked.2 (by simp [hp]))),
    fun p hp => (h.sources p hp).congr (h1 p (mem_tracked.2 (by simp [hp]))), h.noOther,
    h.link.congr (fun p hp => h1 p (mem_tracked.2 (by simp [hp])))
      (fun p hp => h1 p (mem_tracked.2 (by simp [hp])))⟩

/-! ## Runs -/

theorem SuccessfulBuild.quietRun {fx : Fixed} {σ₀ σ : Sys} {c : TargetSchema} {o : List Str}
    {mid : List Event} (h : SuccessfulBuild fx σ₀ c o mid σ) : QuietRun fx σ₀ c o mid σ :=
  ⟨h.idle, h.started, h.quiet, h.result⟩

theorem SuccessfulBuild.current {fx : Fixed} {σ₀ σ : Sys} {c : TargetSchema} {o : List Str}
    {mid : List Event} (h : SuccessfulBuild fx σ₀ c o mid σ) (hn : (paths c.sources).Nodup) :
    ∃ s, loadTargetFile σ.stateFile = some s ∧ AllCurrent σ.files s c := by
  obtain ⟨b, hd⟩ := h.success
  have hr := h.quietRun.report hn hd
  obtain ⟨B, -, -, -, -, -, -, -, s, h1, h2, -⟩ := hr.ok rfl
  exact ⟨s, h1, by rw [hr.files]; exact h2⟩

/-- The commands of a successful run. -/
theorem QuietRun.exact {fx : Fixed} {σ₀ σ : Sys} {c : TargetSchema} {o : List Str}
    {mid : List Event} {d : Done} (h : QuietRun fx σ₀ c o mid σ) (hn : (paths c.sources).Nodup)
    (hd : σ.done = some d) (hok : d.ok = true) :
    d.cfg = c ∧ ∃ (a b : List Entry) (l : List Str),
      commands σ.log = a ++ l.map (fun p => Entry.obj p true) ++ b ∧
      (NeedPch σ₀.files (loadTargetFile σ₀.stateFile) c → a = [.pch true]) ∧
      (¬ NeedPch σ₀.files (loadTargetFile σ₀.stateFile) c → a = []) ∧
      l.Nodup ∧ (∀ p, p ∈ l ↔ NeedObj σ₀.files (loadTargetFile σ₀.stateFile) c p) ∧
      (NeedLink σ₀.files (loadTargetFile σ₀.stateFile) c → b = [.link true]) ∧
      (¬ NeedLink σ₀.files (loadTargetFile σ₀.stateFile) c → b = []) ∧
      (d.built = true ↔ NeedLink σ₀.files (loadTargetFile σ₀.stateFile) c) := by
  have hr := h.report hn hd
  obtain ⟨B, hc, hB, hBok, hi, h1, h2, hb, -⟩ := hr.ok hok
  refine ⟨hr.cfg, preCmd (dP σ₀.files (loadTargetFile σ₀.stateFile) c),
    if dL σ₀.files (loadTargetFile σ₀.stateFile) c then [.link true] else [],
    paths (B.map (·.1)), hc.trans ?_, ?_, ?_, ?_, ?_, ?_, ?_, ?_⟩
  · congr 2
    simp only [objCmds, paths, List.map_map]
    apply List.map_congr_left
    intro x hx
    simp [hBok x hx]
  · intro hp; rw [(dP_iff (fun _ => hi.headers) hi.pchs).2 hp]; rfl
  · intro hp
    cases hdp : dP σ₀.files (loadTargetFile σ₀.stateFile) c
    · rfl
    · exact absurd (dP_need hdp) hp
  · exact (hB.map _).nodup_iff.2 (sel_nodup hn)
  · intro p
    have hpp : (paths (B.map (·.1))).Perm
      (paths (sel σ₀.files (loadTargetFile σ₀.stateFile) c)) := hB.map _
    rw [hpp.mem_iff]
    constructor
    · intro hp
      obtain ⟨i, him, rfl⟩ := mem_paths.1 hp
      exact ((mem_sel hi hn i).1 him).2
    · intro hp
      have hm := hp.1
      rw [← hs_paths σ₀.files] at hm
      obtain ⟨i, him, rfl⟩ := mem_paths.1 hm
      exact mem_paths.2 ⟨i, (mem_sel hi hn i).2 ⟨him, hp⟩, rfl⟩
  · intro hl; rw [(dL_iff hi hn h1 h2).2 hl]; rfl
  · intro hl
    cases hdl : dL σ₀.files (loadTargetFile σ₀.stateFile) c
    · rfl
    · exact absurd ((dL_iff hi hn h1 h2).1 hdl) hl
  · rw [hb]; exact dL_iff hi hn h1 h2

theorem commands_nil {l : List Entry} (h1 : ∀ b, Entry.pch b ∉ commands l)
    (h2 : compiledSources (commands l) = []) (h3 : ∀ b, Entry.link b ∉ commands l) :
    commands l = [] := by
  rw [List.eq_nil_iff_forall_not_mem]
  intro e he
  have hc : e.isCommand = true := by
    simp only [commands, List.mem_filter] at he; exact he.2
  cases e with
  | pch b => exact h1 b he
  | link b => exact h3 b he
  | obj p b =>
    have : p ∈ compiledSources (commands l) := by
      simp only [compiledSources, List.mem_filterMap]
      exact ⟨_, he, rfl⟩
    rw [h2] at this
    simp at this
  | missing _ => simp [Entry.isCommand] at hc
  | storeFailed => simp [Entry.isCommand] at hc
  | other => simp [Entry.isCommand] at hc

/-- At the end the task state says whether the log has a failure. -/
theorem QuietRun.ok_iff {fx : Fixed} {σ₀ σ : Sys} {c : TargetSchema} {o : List Str}
    {mid : List Event} {d : Done} (h : QuietRun fx σ₀ c o mid σ) (hd : σ.done = some d) :
    d.ok = true ↔ ∀ e ∈ σ.log, e.failed = false := by
  have hx := h.inv
  rw [hx.log.done d hd, hx.log.ok]
  simp

/-- A run of a configuration that is up to date. -/
theorem QuietRun.null {fx : Fixed} {σ₀ σ : Sys} {c : TargetSchema} {o : List Str}
    {mid : List Event} (h : QuietRun fx σ₀ c o mid σ) (hn : (paths c.sources).Nodup)
    {s : TargetSchema} (hl : loadTargetFile σ₀.stateFile = some s) (hc : AllCurrent σ₀.files s c) :
    commands σ.log = [] ∧ (σ.objs = σ₀.objs ∧ σ.pch = σ₀.pch ∧ σ.bin = σ₀.bin) ∧
      σ.stateFile = σ₀.stateFile ∧
      ∀ d, σ.done = some d → Entry.other ∉ σ.log → d = ⟨c, true, false⟩ := by
  have hs := h.sofar hn
  rw [hl] at hs
  have hnp : ¬ NeedPch σ₀.files (some s) c := fun hp => hp.2 s rfl (hc.shared.pch hp.1)
  have hno : ∀ p, ¬ NeedObj σ₀.files (some s) c p := fun p hp =>
    hp.2 s rfl ⟨hc.shared, hc.sources p hp.1⟩
  have hnl : ¬ NeedLink σ₀.files (some s) c := fun hp => hp s rfl hc
  have hcmd : commands σ.log = [] := by
    refine commands_nil (fun b hb => hnp (hs.pch b hb)) ?_ (fun b hb => hnl (hs.link b hb).1)
    rw [List.eq_nil_iff_forall_not_mem]
    exact fun p hp => hno p (hs.obj p hp)
  obtain ⟨h1, h2⟩ := h.unchanged hn hl hc
  refine ⟨hcmd, h.outputs hcmd, h1, ?_⟩
  intro d hd ho
  have hok : d.ok = true := by
    rw [h.ok_iff hd]
    intro e he
    cases e with
    | missing ph =>
      obtain ⟨p, hp, hf⟩ := h.missing he
      exfalso
      obtain ⟨hi, h3, h4⟩ := hc.inputs
      have : ∃ t, σ₀.files p = some t := by
        rcases mem_tracked.1 hp with hp | hp | hp | hp | hp | hp
        · exact present_iff.1 hi.sources p hp
        · exact present_iff.1 hi.headers p hp
        · refine present_iff.1 (hi.pchs ?_) p hp
          intro he; rw [he] at hp; simp [paths] at hp
        · exact present_iff.1 hi.deps p hp
        · exact present_iff.1 h3 p hp
        · exact present_iff.1 h4 p hp
      obtain ⟨t, ht⟩ := this
      rw [hf] at ht; simp at ht
    | storeFailed => exact absurd he h2
    | other => exact absurd he ho
    | pch b => rw [mem_commands rfl, hcmd] at he; simp at he
    | obj p b => rw [mem_commands rfl, hcmd] at he; simp at he
    | link b => rw [mem_commands rfl, hcmd] at he; simp at he
  obtain ⟨e1, -, -, -, -, -, -, -, -, -, -, e2⟩ := h.exact hn hd hok
  have hb : d.built = false := by
    cases hb : d.built
    · rfl
    · rw [hl] at e2; exact absurd (e2.1 hb) hnl
  cases d; simp_all

/-! ## What was linked -/

structure Linked (fx : Fixed) (c : TargetSchema) (o : List Str) (σ : Sys) : Prop where
  late : ∀ r, σ.run = some r → r.phase = .fin
  bin : ∃ a, σ.bin = some a ∧ a.cmd = cmdText (linkCommand fx c o) ∧
    a.objs = o.map fun p => σ.objs (objPath fx p)

theorem linked_step {fx : Fixed} {sf : Option Str} {o : List Str} {σ : Sys} {e : Event}
    (h1 : e.outside = false) (h2 : e.isStart = false) (h : XInv f L c sf o σ)
    (hl : Entry.link true ∈ σ.log → Linked fx c o σ) (hm : Entry.link true ∈ (step fx σ e).log) :
    Linked fx c o (step fx σ e) := by
  by_cases hold : Entry.link true ∈ σ.log
  · have hk := hl hold
    revert hm
    cases e <;> simp only [Event.outside, Event.isStart, Bool.true_eq_false] at h1 h2
    case otherFail =>
      simp only [step]
      split
      · exact fun _ => ⟨hk.late, hk.bin⟩
      · exact fun _ => hk
    case linkTask =>
      simp only [step]
      split
      · rename_i r hr
        have := hk.late r hr
        simp only [this]
        simp
        exact fun _ => hk
      · exact fun _ => hk
    case look p v =>
      simp only [step, lookAt]
      split
      · exact fun _ => ⟨hk.late, hk.bin⟩
      · exact fun _ => hk
    case finish b =>
      simp only [step, inPhase, finishRun]
      repeat' split
      all_goals first
        | exact fun _ => hk
        | exact fun _ => ⟨by simp, hk.bin⟩
    case crash b =>
      simp only [step, crashRun]
      repeat' split
      all_goals first
        | exact fun _ => hk
        | exact fun _ => ⟨by simp, hk.bin⟩
    all_goals
      simp only [step, inPhase]
      split
      · rename_i r hr
        simp only [hk.late r hr]
        simp
        exact fun _ => hk
      · exact fun _ => hk
  · revert hm
    cases e <;> simp only [Event.outside, Event.isStart, Bool.true_eq_false] at h1 h2
    case linkExec ok junk =>
      simp only [step, inPhase]
      split
      · rename_i r hr
        split
        · simp only [linkExec]
          split
          · intro _
            refine ⟨by simp +contextual, ⟨_, rfl, ?_, ?_⟩⟩
            · simp only [makeBin, (h.run r hr).cfg, (h.run r hr).order]
            · simp only [makeBin, (h.run r hr).order]
          · intro hm; simp [Sys.fail, hold] at hm
        · exact fun hm => absurd hm hold
      · exact fun hm => absurd hm hold
    all_goals
      simp only [step, inPhase, Sys.put, lookAt, pchTask, objTask, linkTask, pchExec, execObj, addObj, finishRun,
        crashRun]
      repeat' split
      all_goals first
        | exact fun hm => absurd hm hold
        | (intro hm; simp [Sys.fail, hold] at hm; done)

theorem linked_steps {fx : Fixed} {sf : Option Str} {o : List Str}
    (evs : List Event) : ∀ {σ : Sys}, (∀ e ∈ evs, e.outside = false ∧ e.isStart = false) →
    XInv f L c sf o σ → (Entry.link true ∈ σ.log → Linked fx c o σ) →
    Entry.link true ∈ (steps fx σ evs).log → Linked fx c o (steps fx σ evs) := by
  induction evs with
  | nil => intro σ _ _ h hm; exact h hm
  | cons e l ih =>
    intro σ he h hl hm
    obtain ⟨h1, h2⟩ := he e List.mem_cons_self
    exact ih (fun e' h' => he e' (List.mem_cons_of_mem _ h')) (xinv_step h1 h2 h)
      (linked_step h1 h2 h hl) hm

theorem QuietRun.linked {fx : Fixed} {σ₀ σ : Sys} {c : TargetSchema} {o : List Str}
    {mid : List Event} (h : QuietRun fx σ₀ c o mid σ) (hm : Entry.link true ∈ σ.log) :
    ∃ a, σ.bin = some a ∧ a.cmd = cmdText (linkCommand fx c o) ∧
      a.objs = o.map fun p => σ.objs (objPath fx p) := by
  rw [← h.result] at hm ⊢
  refine (linked_steps mid h.quiet (xinv_start h.idle h.started) ?_ hm).bin
  rw [(start_log h.idle h.started).1]
  simp

/-- The order of the objects is one of the sources. -/
theorem QuietRun.order {fx : Fixed} {σ₀ σ : Sys} {c : TargetSchema} {o : List Str}
    {mid : List Event} (h : QuietRun fx σ₀ c o mid σ) :
    o.Perm (distinct (srcPaths c)) := by
  have hs := h.started
  revert hs
  simp only [step, startRun, h.idle]
  split
  · rename_i hc
    simp only [Bool.and_eq_true] at hc
    exact fun _ => List.isPerm_iff.1 hc.1
  · simp [h.idle]

/-! ## Repeated sources -/

theorem lookupInfo_erased {l : List PathInfo} {p : Str} : lookupInfo (eraseInfo l p) p = none := by
  rw [lookupInfo_none]
  intro h
  obtain ⟨i, hi, e⟩ := mem_paths.1 h
  have := (List.mem_filter.1 hi).2
  simp [e] at this

theorem recompile_absent {prev : List PathInfo} : ∀ {cur : List PathInfo} {i : PathInfo}, i ∈ cur →
    lookupInfo prev i.path = none →
    (recompile prev cur).selected ≠ [] ∧ (recompile prev cur).dirty = true := by
  intro cur
  induction cur generalizing prev with
  | nil => simp
  | cons j l ih =>
    intro i hi hl
    rcases List.mem_cons.1 hi with rfl | hi
    · simp [recompile, hl]
    · simp only [recompile]
      split
      · simp
      · rename_i h hj
        have hl' : lookupInfo (eraseInfo prev j.path) i.path = none := by
          by_cases e : i.path = j.path
          · rw [e]; exact lookupInfo_erased
          · rw [lookupInfo_erase e]; exact hl
        obtain ⟨h1, h2⟩ := ih hi hl'
        split
        · simp
        · exact ⟨h1, h2⟩

theorem recompile_repeated : ∀ {cur prev : List PathInfo}, ¬ (paths cur).Nodup →
    (recompile prev cur).selected ≠ [] ∧ (recompile prev cur).dirty = true := by
  intro cur
  induction cur with
  | nil => intro prev h; simp [paths] at h
  | cons i l ih =>
    intro prev h
    simp only [recompile]
    split
    · simp
    · by_cases hm : i.path ∈ paths l
      · obtain ⟨j, hj, e⟩ := mem_paths.1 hm
        have := recompile_absent (prev := eraseInfo prev i.path) hj (by rw [e]; exact lookupInfo_erased)
        split
        · simp
        · exact this
      · have hnd : ¬ (paths l).Nodup := by
          intro hnd
          refine h ?_
          simp only [paths, List.map_cons, List.nodup_cons]
          exact ⟨hm, hnd⟩
        split
        · simp
        · exact ih hnd

theorem QuietRun.duplicates {fx : Fixed} {σ₀ σ : Sys} {c : TargetSchema} {o : List Str}
    {mid : List Event} {d : Done} (h : QuietRun fx σ₀ c o mid σ)
    (hr : ¬ (paths c.sources).Nodup) (hd : σ.done = some d) (hok : d.ok = true) :
    (∃ p ∈ paths c.sources, Entry.obj p true ∈ σ.log) ∧ Entry.link true ∈ σ.log ∧
      d.built = true := by
  obtain ⟨σ', r, b, hlog, hx, hph, hrun, rfl⟩ := h.inv.done d hd
  obtain ⟨hfiles, hcmd, hcfg, hcases⟩ := finish_cases hd
  have hfin := hx.phase
  simp only [XPhase, hph] at hfin
  have hok' : σ'.ok = true := by
    rcases hcases with h | h | h
    · rw [← h.2.1]; exact hok
    · rw [h.2.1] at hok; simp at hok
    · rw [← h.2.1]; exact hok
  have hr' : ¬ (paths (hs σ₀.files c.sources)).Nodup := by rw [hs_paths]; exact hr
  rcases hfin with ⟨-, ho⟩ | ⟨B, hF⟩ | ⟨B, b', hl⟩
  · rw [ho] at hok'; simp at hok'
  · rw [hF.failed] at hok'; simp at hok'
  · have hdo : dO σ₀.files (loadTargetFile σ₀.stateFile) c = true := by
      simp [dO, (recompile_repeated (prev := (ld (loadTargetFile σ₀.stateFile)).sources) hr').2]
    have hdl : dL σ₀.files (loadTargetFile σ₀.stateFile) c = true := by
      rw [dL, hdo]; simp [linkDirty]
    have hsel : sel σ₀.files (loadTargetFile σ₀.stateFile) c ≠ [] := by
      unfold sel
      split
      · intro e; rw [e] at hr'; simp [paths] at hr'
      · exact (recompile_repeated hr').1
    have hcov : (B.map (·.1)).Perm (sel σ₀.files (loadTargetFile σ₀.stateFile) c) := by
      simpa [hl.pending] using hl.mid.cover
    have hall := allOk_of_ok hlog hok'
    have hb' : b' = true := by
      have := hall (.link b') (by rw [hl.cmds, hdl]; simp)
      simpa [Entry.failed] using this
    refine ⟨?_, ?_, ?_⟩
    · obtain ⟨i, hi⟩ := List.exists_mem_of_ne_nil _ hsel
      obtain ⟨x, hxB, e⟩ := List.mem_map.1 (hcov.mem_iff.2 hi)
      refine ⟨i.path, ?_, ?_⟩
      · rw [← hs_paths σ₀.files]
        exact mem_paths.2 ⟨i, sel_dum_perm.mem_iff.1 (List.mem_append_right _ hi), rfl⟩
      · rw [mem_commands rfl, hcmd, hl.cmds]
        refine List.mem_append_left _ (List.mem_append_right _ (objCmds_mem.2 ⟨x, hxB, by rw [e], hl.ok x hxB⟩))
    · rw [mem_commands rfl, hcmd, hl.cmds, hdl, hb']; simp
    · rcases hcases with h | h | h
      · exact h.2.2.1
      · rw [h.2.1] at hok; simp at hok
      · rw [hl.dirty, hdl] at h; simp at h

end Verif.Target
