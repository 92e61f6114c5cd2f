import Verif.Target.ExactLemmas
import Verif.Target.Examples
import Verif.Target.SoundProps

/-!
# Exactness of incremental builds

`QuietRun fx σ₀ c o mid σ`: from the idle state `σ₀` a build of `c` was started and ran,
in the schedule `mid`, to `σ`; `mid` may stop anywhere and may contain failing
commands, failures of other targets, a failing store and a crash.
`commands σ.log` are the commands of that run in the order in which they ended.
-/

namespace Verif.Target
open Verif Verif.Command Verif.Schema Verif.Json

/-! ## Exactly what is needed -/

/-- Whatever the state file contains, a run up to any point has compiled only what was
needed, no source twice, and has linked only after everything needed was compiled. -/
theorem C04_C05_only_needed {fx : Fixed} {σ₀ σ : Sys} {c : TargetSchema} {o : List Str}
    {mid : List Event} (hn : (paths c.sources).Nodup) (h : QuietRun fx σ₀ c o mid σ) :
    (∀ b, Entry.pch b ∈ σ.log → NeedPch σ₀.files (loadTargetFile σ₀.stateFile) c) ∧
    (compiledSources σ.log).Nodup ∧
    (∀ p ∈ compiledSources σ.log, NeedObj σ₀.files (loadTargetFile σ₀.stateFile) c p) ∧
    (∀ b, Entry.link b ∈ σ.log → NeedLink σ₀.files (loadTargetFile σ₀.stateFile) c ∧
      (∀ p, NeedObj σ₀.files (loadTargetFile σ₀.stateFile) c p → Entry.obj p true ∈ σ.log) ∧
      (NeedPch σ₀.files (loadTargetFile σ₀.stateFile) c → Entry.pch true ∈ σ.log)) := by
  have hs := h.sofar hn
  refine ⟨fun b hb => hs.pch b ((mem_commands rfl).1 hb), ?_, ?_, ?_⟩
  · rw [← compiledSources_commands]; exact hs.once
  · rw [← compiledSources_commands]; exact hs.obj
  · intro b hb
    obtain ⟨h1, h2, h3⟩ := hs.link b ((mem_commands rfl).1 hb)
    exact ⟨h1, fun p hp => (mem_commands rfl).2 (h2 p hp), fun hp => (mem_commands rfl).2 (h3 hp)⟩

/-- The commands of a successful run are exactly the needed ones: the PCH, the sources
in some order, the link. -/
theorem C04_C05_exactly_needed {fx : Fixed} {σ₀ σ : Sys} {c : TargetSchema} {o : List Str}
    {mid : List Event} {d : Done} (hn : (paths c.sources).Nodup) (h : QuietRun fx σ₀ c o mid σ)
    (hd : σ.done = some d) (hok : d.ok = true) :
    d.cfg = c ∧ ∃ (a b : List Entry) (l : List Str),
      commands σ.log = a ++ l.map (fun p => Entry.obj p true) ++ b ∧
      (NeedPch σ₀.files (loadTargetFile σ₀.stateFile) c → a = [.pch true]) ∧
      (¬ NeedPch σ₀.files (loadTargetFile σ₀.stateFile) c → a = []) ∧
      l.Nodup ∧ (∀ p, p ∈ l ↔ NeedObj σ₀.files (loadTargetFile σ₀.stateFile) c p) ∧
      (NeedLink σ₀.files (loadTargetFile σ₀.stateFile) c → b = [.link true]) ∧
      (¬ NeedLink σ₀.files (loadTargetFile σ₀.stateFile) c → b = []) ∧
      (d.built = true ↔ NeedLink σ₀.files (loadTargetFile σ₀.stateFile) c) :=
  h.exact hn hd hok

/-! ## C04 -/

/-- Null rebuild.  `σ₁` is the result of a successful build, `σ₂` any later idle state
with the same state file and the same versions of the tracked files (everything else
may differ). -/
theorem C04_null_rebuild {fx : Fixed} {σ₀ σ₁ σ₂ σ₃ : Sys} {c : TargetSchema} {o₁ o₂ : List Str}
    {mid₁ mid₂ : List Event} (hn : (paths c.sources).Nodup)
    (h₁ : SuccessfulBuild fx σ₀ c o₁ mid₁ σ₁) (same : SameExcept [] c σ₁ σ₂)
    (h₂ : QuietRun fx σ₂ c o₂ mid₂ σ₃) :
    commands σ₃.log = [] ∧ (σ₃.objs = σ₂.objs ∧ σ₃.pch = σ₂.pch ∧ σ₃.bin = σ₂.bin) ∧
      σ₃.stateFile = σ₂.stateFile ∧
      ∀ d, σ₃.done = some d → Entry.other ∉ σ₃.log → d = ⟨c, true, false⟩ := by
  obtain ⟨s, hl, hc⟩ := h₁.current hn
  refine h₂.null hn (s := s) ?_ ?_
  · rw [same.state]; exact hl
  · exact hc.congr fun p hp => same.files p hp (by simp)

/-! ## C05 -/

/-- One source has a new version. -/
theorem C05_one_source {fx : Fixed} {σ₀ σ₁ σ₂ σ₃ : Sys} {c : TargetSchema} {o₁ o₂ : List Str}
    {mid₁ mid₂ : List Event} {p : Str} (hn : (paths c.sources).Nodup)
    (h₁ : SuccessfulBuild fx σ₀ c o₁ mid₁ σ₁) (same : SameExcept [p] c σ₁ σ₂)
    (hp : p ∈ paths c.sources) (edited : version σ₂.files p ≠ version σ₁.files p)
    (only : p ∉ paths c.headers ∧ p ∉ paths c.pchs ∧ p ∉ paths c.compileDeps ∧ p ∉ paths c.libs ∧
      p ∉ paths c.linkDeps)
    (h₂ : QuietRun fx σ₂ c o₂ mid₂ σ₃) :
    (∀ e ∈ commands σ₃.log, (∃ b, e = .obj p b) ∨ ∃ b, e = .link b) ∧
    (compiledSources σ₃.log).Nodup ∧
    (∀ d, σ₃.done = some d → d.ok = true →
      commands σ₃.log = [.obj p true, .link true] ∧ d.built = true) := by
  obtain ⟨s, hl, hc⟩ := h₁.current hn
  have hl2 : loadTargetFile σ₂.stateFile = some s := by rw [same.state]; exact hl
  have hf : ∀ q ∈ tracked c, q ≠ p → σ₂.files q = σ₁.files q := fun q hq hne =>
    same.files q hq (by simpa using hne)
  obtain ⟨n1, n2, n3, n4, n5⟩ := only
  have hsh : SharedCurrent σ₂.files s c := hc.shared.congr
    (fun q hq => hf q (mem_tracked.2 (by simp [hq])) (fun e => n1 (e ▸ hq)))
    (fun q hq => hf q (mem_tracked.2 (by simp [hq])) (fun e => n2 (e ▸ hq)))
    (fun q hq => hf q (mem_tracked.2 (by simp [hq])) (fun e => n3 (e ▸ hq)))
  have hnp : ¬ NeedPch σ₂.files (some s) c := fun h => h.2 s rfl (hsh.pch h.1)
  have hpc : ¬ SourceCurrent σ₂.files s p := by
    rintro ⟨i, h1, h2⟩
    obtain ⟨j, h3, h4⟩ := hc.sources p hp
    rw [h1] at h3
    cases h3
    exact edited (h2.trans h4.symm)
  have hno : ∀ q, NeedObj σ₂.files (some s) c q ↔ q = p := by
    intro q
    constructor
    · intro hq
      apply Classical.byContradiction
      intro hne
      refine hq.2 s rfl ⟨hsh, (hc.sources q hq.1).congr (hf q (mem_tracked.2 (.inl hq.1)) hne)⟩
    · rintro rfl
      refine ⟨hp, ?_⟩
      rintro s' e ⟨-, h⟩
      cases e
      exact hpc h
  have hnl : NeedLink σ₂.files (some s) c := by
    rintro s' e h
    cases e
    exact hpc (h.sources p hp)
  obtain ⟨c1, c2, c3, -⟩ := C04_C05_only_needed hn h₂
  rw [hl2] at c1 c3
  refine ⟨?_, c2, ?_⟩
  · intro e he
    simp only [commands, List.mem_filter] at he
    cases e with
    | pch b => exact absurd (c1 b he.1) hnp
    | obj q b =>
      have := (hno q).1 (c3 q (List.mem_filterMap.2 ⟨_, he.1, rfl⟩))
      exact .inl ⟨b, by rw [this]⟩
    | link b => exact .inr ⟨b, rfl⟩
    | missing _ => simp [Entry.isCommand] at he
    | storeFailed => simp [Entry.isCommand] at he
    | other => simp [Entry.isCommand] at he
  · intro d hd hok
    obtain ⟨-, a, b, l, e1, -, e2, e3, e4, e5, -, e6⟩ := h₂.exact hn hd hok
    rw [hl2] at e2 e4 e5 e6
    have : l = [p] := by
      have hmem : ∀ q, q ∈ l ↔ q = p := fun q => (e4 q).trans (hno q)
      match l, e3, hmem with
      | [], _, hm => exact absurd ((hm p).2 rfl) (by simp)
      | [a], _, hm => rw [(hm a).1 (by simp)]
      | a :: b :: l, hd, hm =>
        have h1 := (hm a).1 (by simp)
        have h2 := (hm b).1 (by simp)
        rw [h1, h2] at hd
        simp at hd
    rw [e1, e2 hnp, this, e5 hnl]
    exact ⟨rfl, e6.2 hnl⟩

/-! ## C06 -/

/-- The inputs that all objects share. -/
def SharedChanged (f : Str → Option Nat) (s c : TargetSchema) : Prop :=
  s.preprocessorFlags ≠ c.preprocessorFlags ∨ s.commonCompileFlags ≠ c.commonCompileFlags ∨
  s.pchObjectFlags ≠ c.pchObjectFlags ∨ s.asmCompileFlags ≠ c.asmCompileFlags ∨
  s.cCompileFlags ≠ c.cCompileFlags ∨ s.cppCompileFlags ≠ c.cppCompileFlags ∨
  s.includeDirs ≠ c.includeDirs ∨ recorded s.headers ≠ versions f c.headers ∨
  recorded s.compileDeps ≠ versions f c.compileDeps

/-- A changed shared input: the run compiles either nothing (it ended or failed before)
or, if it is finished, every source; if it succeeds every source is compiled and the
target is linked. -/
theorem C06_shared_change {fx : Fixed} {σ₀ σ : Sys} {c s : TargetSchema} {o : List Str}
    {mid : List Event} {d : Done} (hn : (paths c.sources).Nodup) (h : QuietRun fx σ₀ c o mid σ)
    (hl : loadTargetFile σ₀.stateFile = some s) (changed : SharedChanged σ₀.files s c)
    (hd : σ.done = some d) :
    (compiledSources σ.log = [] ∧ d.ok = false ∨
      (compiledSources σ.log).Perm (paths c.sources)) ∧
    (d.ok = true → (∀ p ∈ paths c.sources, Entry.obj p true ∈ σ.log) ∧ Entry.link true ∈ σ.log) := by
  have hns : ¬ SharedCurrent σ₀.files s c := by
    intro hc
    rcases changed with h | h | h | h | h | h | h | h | h
    · exact h hc.preprocessor
    · exact h hc.common
    · exact h hc.pchFlags
    · exact h hc.asm
    · exact h hc.cFlags
    · exact h hc.cppFlags
    · exact h hc.includes
    · exact h hc.headers
    · exact h hc.deps
  have hno : ∀ p, NeedObj σ₀.files (loadTargetFile σ₀.stateFile) c p ↔ p ∈ paths c.sources := by
    intro p
    refine ⟨fun h => h.1, fun h => ⟨h, ?_⟩⟩
    intro s' e
    rw [hl] at e
    cases e
    exact fun h => hns h.1
  have hnl : NeedLink σ₀.files (loadTargetFile σ₀.stateFile) c := by
    intro s' e
    rw [hl] at e
    cases e
    exact fun h => hns h.shared
  have hr := h.report hn hd
  have hok : d.ok = true → (∀ p ∈ paths c.sources, Entry.obj p true ∈ σ.log) ∧
      Entry.link true ∈ σ.log := by
    intro hok
    obtain ⟨-, a, b, l, e1, -, e2, e3, e4, e5, -, e6⟩ := h.exact hn hd hok
    have hm : ∀ e, e.isCommand = true → e ∈ a ++ l.map (fun p => Entry.obj p true) ++ b → e ∈ σ.log := by
      intro e he h'; rw [mem_commands he, e1]; exact h'
    refine ⟨fun p hp => hm _ rfl ?_, hm _ rfl ?_⟩
    · have : p ∈ l := (e4 p).2 ((hno p).2 hp)
      simp [this]
    · rw [e5 hnl]; simp
  refine ⟨?_, hok⟩
  by_cases he : compiledSources σ.log = []
  · cases hdo : d.ok
    · exact .inl ⟨he, rfl⟩
    · right
      have hall := (hok hdo).1
      have : paths c.sources = [] := by
        rw [List.eq_nil_iff_forall_not_mem]
        intro p hp
        have : p ∈ compiledSources σ.log := List.mem_filterMap.2 ⟨_, hall p hp, rfl⟩
        rw [he] at this; simp at this
      rw [he, this]
  · right
    refine (List.perm_ext_iff_of_nodup hr.objOnce hn).2 fun p => ?_
    exact ⟨fun hp => (hno p).1 (hr.objNeeded p hp), fun hp => hr.objAll he p ((hno p).2 hp)⟩

/-! ## C08 -/

/-- A run compiled something and stored its state; nothing changes. The next run compiles
only sources whose command failed, no PCH; if it comes to compiling it compiles all of
them; if it succeeds it compiles them and links if the previous run had not. -/
theorem C08_failed_retried {fx : Fixed} {σ₀ σ₁ σ₂ σ₃ : Sys} {c : TargetSchema} {o₁ o₂ : List Str}
    {mid₁ mid₂ : List Event} {d₁ : Done} (hn : (paths c.sources).Nodup)
    (h₁ : QuietRun fx σ₀ c o₁ mid₁ σ₁) (hd₁ : σ₁.done = some d₁) (stored : d₁.built = true)
    (some_compiled : compiledSources σ₁.log ≠ []) (same : SameExcept [] c σ₁ σ₂)
    (h₂ : QuietRun fx σ₂ c o₂ mid₂ σ₃) :
    (∀ b, Entry.pch b ∉ σ₃.log) ∧ (compiledSources σ₃.log).Nodup ∧
    (∀ p ∈ compiledSources σ₃.log, Entry.obj p false ∈ σ₁.log) ∧
    (∀ d, σ₃.done = some d → compiledSources σ₃.log ≠ [] →
      ∀ p, Entry.obj p false ∈ σ₁.log → p ∈ compiledSources σ₃.log) ∧
    (∀ d, σ₃.done = some d → d.ok = true → (∃ p, Entry.obj p false ∈ σ₁.log) →
      ∃ l : List Str, l.Nodup ∧ (∀ p, p ∈ l ↔ Entry.obj p false ∈ σ₁.log) ∧
        commands σ₃.log = l.map (fun p => Entry.obj p true) ++ [.link true]) := by
  have hr := h₁.report hn hd₁
  obtain ⟨hi, hst⟩ := hr.failed some_compiled
  obtain ⟨s, hl, hsh, hoth, hsrc, -⟩ := hst stored
  have hl2 : loadTargetFile σ₂.stateFile = some s := by rw [same.state]; exact hl
  have hf : ∀ q ∈ tracked c, σ₂.files q = σ₀.files q := fun q hq => by
    rw [same.files q hq (by simp), hr.files]
  have hsh2 : SharedCurrent σ₂.files s c := hsh.congr
    (fun q hq => hf q (mem_tracked.2 (by simp [hq])))
    (fun q hq => hf q (mem_tracked.2 (by simp [hq])))
    (fun q hq => hf q (mem_tracked.2 (by simp [hq])))
  have hnp : ¬ NeedPch σ₂.files (some s) c := fun h => h.2 s rfl (hsh2.pch h.1)
  have hfail_src : ∀ p, Entry.obj p false ∈ σ₁.log → p ∈ paths c.sources := fun p hp =>
    (hr.objNeeded p (List.mem_filterMap.2 ⟨_, hp, rfl⟩)).1
  have hno : ∀ q, NeedObj σ₂.files (some s) c q ↔ Entry.obj q false ∈ σ₁.log := by
    intro q
    constructor
    · intro hq
      apply Classical.byContradiction
      intro hne
      exact hq.2 s rfl ⟨hsh2, ((hsrc q hq.1).2 hne).congr (hf q (mem_tracked.2 (.inl hq.1)))⟩
    · intro hq
      have hm := hfail_src q hq
      refine ⟨hm, ?_⟩
      rintro s' e ⟨-, h⟩
      cases e
      exact (hsrc q hm).1 (h.congr (hf q (mem_tracked.2 (.inl hm))).symm) hq
  obtain ⟨c1, c2, c3, -⟩ := C04_C05_only_needed hn h₂
  rw [hl2] at c1 c3
  refine ⟨fun b hb => hnp (c1 b hb), c2, fun p hp => (hno p).1 (c3 p hp), ?_, ?_⟩
  · intro d hd hne p hp
    have := (h₂.report hn hd).objAll hne p
    rw [hl2] at this
    exact this ((hno p).2 hp)
  · rintro d hd hok ⟨p, hp⟩
    obtain ⟨-, a, b, l, e1, -, e2, e3, e4, e5, -, e6⟩ := h₂.exact hn hd hok
    rw [hl2] at e2 e4 e5 e6
    have hnl : NeedLink σ₂.files (some s) c := by
      rintro s' e h
      cases e
      exact ((hno p).2 hp).2 s rfl ⟨hsh2, h.sources p (hfail_src p hp)⟩
    refine ⟨l, e3, fun q => (e4 q).trans (hno q), ?_⟩
    rw [e1, e2 hnp, e5 hnl]
    rfl

/-! ## C13 -/

/-- The configuration without the source `p`. -/
def withoutSource (p : Str) (c : TargetSchema) : TargetSchema :=
  { c with sources := c.sources.filter fun i => i.path ≠ p }

theorem paths_without (p : Str) (c : TargetSchema) :
    paths (withoutSource p c).sources = (paths c.sources).filter (· ≠ p) := by
  simp only [withoutSource, paths, List.filter_map]
  rfl

/-- One source is removed: only the link command, and not with that source's object. -/
theorem C13_removed_source {fx : Fixed} {σ₀ σ₁ σ₂ σ₃ : Sys} {c : TargetSchema} {o₁ o₂ : List Str}
    {mid₁ mid₂ : List Event} {p : Str} (hn : (paths c.sources).Nodup)
    (h₁ : SuccessfulBuild fx σ₀ c o₁ mid₁ σ₁) (same : SameExcept [] c σ₁ σ₂)
    (hp : p ∈ paths c.sources)
    (h₂ : QuietRun fx σ₂ (withoutSource p c) o₂ mid₂ σ₃) :
    (∀ e ∈ commands σ₃.log, ∃ b, e = .link b) ∧
    (∀ d, σ₃.done = some d → d.ok = true →
      commands σ₃.log = [.link true] ∧
      ∃ a, σ₃.bin = some a ∧ a.cmd = cmdText (linkCommand fx (withoutSource p c) o₂) ∧
        a.objs = (o₂.map fun q => σ₃.objs (objPath fx q)) ∧ p ∉ o₂) := by
  obtain ⟨s, hl, hc⟩ := h₁.current hn
  have hn2 : (paths (withoutSource p c).sources).Nodup := by
    rw [paths_without]; exact hn.filter _
  have hl2 : loadTargetFile σ₂.stateFile = some s := by rw [same.state]; exact hl
  have hc2 : AllCurrent σ₂.files s c := hc.congr fun q hq => same.files q hq (by simp)
  have hsh : SharedCurrent σ₂.files s (withoutSource p c) :=
    ⟨hc2.shared.preprocessor, hc2.shared.common, hc2.shared.pchFlags, hc2.shared.asm,
      hc2.shared.cFlags, hc2.shared.cppFlags, hc2.shared.includes, hc2.shared.headers,
      hc2.shared.deps, fun hp => by
        have h := hc2.shared.pch hp
        exact ⟨h.preprocessor, h.common, h.pchFlags, h.cFlags, h.cppFlags, h.includes, h.headers,
          h.pchs, h.compiled⟩⟩
  have hnp : ¬ NeedPch σ₂.files (some s) (withoutSource p c) := fun h => h.2 s rfl (hsh.pch h.1)
  have hno : ∀ q, ¬ NeedObj σ₂.files (some s) (withoutSource p c) q := by
    intro q hq
    refine hq.2 s rfl ⟨hsh, hc2.sources q ?_⟩
    have := hq.1
    rw [paths_without] at this
    exact (List.mem_filter.1 this).1
  have hps : p ∈ paths s.sources := by
    obtain ⟨i, h1, -⟩ := hc.sources p hp
    refine mem_paths.2 ⟨i, List.mem_of_find?_eq_some h1, ?_⟩
    simpa using List.find?_some h1
  have hnl : NeedLink σ₂.files (some s) (withoutSource p c) := by
    rintro s' e h
    cases e
    have := h.noOther p hps
    rw [paths_without] at this
    simp at this
  obtain ⟨c1, c2, c3, -⟩ := C04_C05_only_needed hn2 h₂
  rw [hl2] at c1 c3
  refine ⟨?_, ?_⟩
  · intro e he
    simp only [commands, List.mem_filter] at he
    cases e with
    | pch b => exact absurd (c1 b he.1) hnp
    | obj q b => exact absurd (c3 q (List.mem_filterMap.2 ⟨_, he.1, rfl⟩)) (hno q)
    | link b => exact ⟨b, rfl⟩
    | missing _ => simp [Entry.isCommand] at he
    | storeFailed => simp [Entry.isCommand] at he
    | other => simp [Entry.isCommand] at he
  · intro d hd hok
    obtain ⟨-, a, b, l, e1, -, e2, e3, e4, e5, -, e6⟩ := h₂.exact hn2 hd hok
    rw [hl2] at e2 e4 e5 e6
    have hlnil : l = [] := by
      rw [List.eq_nil_iff_forall_not_mem]
      exact fun q hq => hno q ((e4 q).1 hq)
    have hcmd : commands σ₃.log = [.link true] := by
      rw [e1, e2 hnp, hlnil, e5 hnl]; rfl
    refine ⟨hcmd, ?_⟩
    obtain ⟨a, h1, h2, h3⟩ := h₂.linked ((mem_commands rfl).2 (by rw [hcmd]; simp))
    refine ⟨a, h1, h2, h3, ?_⟩
    intro hpo
    have := h₂.order.mem_iff.1 hpo
    rw [show srcPaths (withoutSource p c) = paths (withoutSource p c).sources from rfl,
      distinct_of_nodup hn2, paths_without] at this
    simp at this

/-! ## C14 -/

/-- A link input changed, the target was not linked, or something was compiled: the
target is linked in this run, or the run ends in FAILURE. -/
theorem C14_link_inputs {fx : Fixed} {σ₀ σ : Sys} {c s : TargetSchema} {o : List Str}
    {mid : List Event} {d : Done} (hn : (paths c.sources).Nodup) (h : QuietRun fx σ₀ c o mid σ)
    (hl : loadTargetFile σ₀.stateFile = some s) (hd : σ.done = some d)
    (changed : s.linkFlags ≠ c.linkFlags ∨ s.libDirs ≠ c.libDirs ∨ s.externalLibs ≠ c.externalLibs ∨
      recorded s.libs ≠ versions σ₀.files c.libs ∨
      recorded s.linkDeps ≠ versions σ₀.files c.linkDeps ∨ s.targetLinked = false ∨
      (∃ b, Entry.pch b ∈ σ.log) ∨ ∃ p b, Entry.obj p b ∈ σ.log) :
    Entry.link true ∈ σ.log ∨ d.ok = false := by
  cases hok : d.ok
  · exact .inr rfl
  left
  obtain ⟨-, a, b, l, e1, -, e2, e3, e4, e5, -, e6⟩ := h.exact hn hd hok
  have hnl : NeedLink σ₀.files (loadTargetFile σ₀.stateFile) c := by
    intro s' e hc
    rw [hl] at e
    cases e
    rcases changed with h' | h' | h' | h' | h' | h' | ⟨b, h'⟩ | ⟨p, b, h'⟩
    · exact h' hc.link.flags
    · exact h' hc.link.libDirs
    · exact h' hc.link.external
    · exact h' hc.link.libs
    · exact h' hc.link.deps
    · rw [hc.link.linked] at h'; simp at h'
    · have := (C04_C05_only_needed hn h).1 b h'
      exact this.2 s hl (hc.shared.pch this.1)
    · have := (C04_C05_only_needed hn h).2.2.1 p (List.mem_filterMap.2 ⟨_, h', rfl⟩)
      exact this.2 s hl ⟨hc.shared, hc.sources p this.1⟩
  rw [mem_commands rfl, e1, e5 hnl]
  simp

/-- Without a usable state every run links or ends in FAILURE. -/
theorem C14_no_state {fx : Fixed} {σ₀ σ : Sys} {c : TargetSchema} {o : List Str}
    {mid : List Event} {d : Done} (hn : (paths c.sources).Nodup) (h : QuietRun fx σ₀ c o mid σ)
    (hl : loadTargetFile σ₀.stateFile = none) (hd : σ.done = some d) :
    Entry.link true ∈ σ.log ∨ d.ok = false := by
  cases hok : d.ok
  · exact .inr rfl
  left
  obtain ⟨-, a, b, l, e1, -, e2, e3, e4, e5, -, e6⟩ := h.exact hn hd hok
  rw [mem_commands rfl, e1, e5 (by intro s e; rw [hl] at e; simp at e)]
  simp

/-! ## C10 -/

/-- The result of an undisturbed run: SUCCESS exactly if no command failed, every file
the build looks at exists, the state could be stored, and no other target failed. -/
theorem C10_success_iff {fx : Fixed} {σ₀ σ : Sys} {c : TargetSchema} {o : List Str}
    {mid : List Event} {d : Done} (hn : (paths c.sources).Nodup) (h : QuietRun fx σ₀ c o mid σ)
    (hd : σ.done = some d) :
    d.ok = true ↔ Entry.pch false ∉ σ.log ∧ (∀ p, Entry.obj p false ∉ σ.log) ∧
      Entry.link false ∉ σ.log ∧ (∀ p ∈ tracked c, ∃ t, σ₀.files p = some t) ∧
      Entry.storeFailed ∉ σ.log ∧ Entry.other ∉ σ.log := by
  constructor
  · intro hok
    have hall := (h.ok_iff hd).1 hok
    have hno : ∀ e, e.failed = true → e ∉ σ.log := by
      intro e he hm; rw [hall e hm] at he; simp at he
    refine ⟨hno _ rfl, fun p => hno _ rfl, hno _ rfl, ?_, hno _ rfl, hno _ rfl⟩
    obtain ⟨B, -, -, -, hi, h1, h2, -⟩ := (h.report hn hd).ok hok
    intro p hp
    rcases mem_tracked.1 hp with hp | hp | hp | hp | hp | hp
    · exact present_iff.1 hi.sources p hp
    · exact present_iff.1 hi.headers p hp
    · refine present_iff.1 (hi.pchs ?_) p hp
      intro he; rw [he] at hp; simp [paths] at hp
    · exact present_iff.1 hi.deps p hp
    · exact present_iff.1 h1 p hp
    · exact present_iff.1 h2 p hp
  · rintro ⟨h1, h2, h3, h4, h5, h6⟩
    rw [h.ok_iff hd]
    intro e he
    cases e with
    | pch b => cases b <;> first | rfl | exact absurd he h1
    | obj p b => cases b <;> first | rfl | exact absurd he (h2 p)
    | link b => cases b <;> first | rfl | exact absurd he h3
    | missing ph =>
      obtain ⟨p, hp, hf⟩ := h.missing he
      obtain ⟨t, ht⟩ := h4 p hp
      rw [hf] at ht; simp at ht
    | storeFailed => exact absurd he h5
    | other => exact absurd he h6

/-! ## C57, C59 -/

/-- What holds of C57: compilers and templates are not compared (see
`C57_toolchain_change_false`), but without a stored state a successful run issues every
command, with the templates in use now. -/
theorem C57_rebuilt_without_state_partial {fx : Fixed} {σ₀ σ : Sys} {c : TargetSchema}
    {o : List Str} {mid : List Event} {d : Done} (hn : (paths c.sources).Nodup)
    (h : QuietRun fx σ₀ c o mid σ) (hl : loadTargetFile σ₀.stateFile = none)
    (hd : σ.done = some d) (hok : d.ok = true) :
    ∃ l : List Str, l.Perm (paths c.sources) ∧
      commands σ.log = (if c.pchs = [] then [] else [.pch true]) ++
        l.map (fun p => Entry.obj p true) ++ [.link true] := by
  obtain ⟨-, a, b, l, e1, e2, e2', e3, e4, e5, -, e6⟩ := h.exact hn hd hok
  have hnone : ∀ s, loadTargetFile σ₀.stateFile ≠ some s := by simp [hl]
  refine ⟨l, ?_, ?_⟩
  · refine (List.perm_ext_iff_of_nodup e3 hn).2 fun p => ?_
    rw [e4 p]
    exact ⟨fun h => h.1, fun h => ⟨h, fun s e => absurd e (hnone s)⟩⟩
  · rw [e1, e5 fun s e => absurd e (hnone s)]
    split
    · rename_i hp; rw [e2' fun h => h.1 hp]
    · rename_i hp; rw [e2 ⟨hp, fun s e => absurd e (hnone s)⟩]

/-- C59 is false: if a source is listed twice, every successful run compiles something
and links, however often it is repeated. -/
theorem C59_repeated_source_false {fx : Fixed} {σ₀ σ : Sys} {c : TargetSchema} {o : List Str}
    {mid : List Event} {d : Done} (repeated : ¬ (paths c.sources).Nodup)
    (h : QuietRun fx σ₀ c o mid σ) (hd : σ.done = some d) (hok : d.ok = true) :
    (∃ p ∈ paths c.sources, Entry.obj p true ∈ σ.log) ∧ Entry.link true ∈ σ.log ∧
      d.built = true :=
  h.duplicates repeated hd hok

/-- What holds of C59: without a repeated source a successful run is followed by runs
that do nothing. -/
theorem C59_fixpoint_partial {fx : Fixed} {σ₀ σ₁ σ₂ : Sys} {c : TargetSchema} {o₁ o₂ : List Str}
    {mid₁ mid₂ : List Event} {d : Done} (hn : (paths c.sources).Nodup)
    (h₁ : SuccessfulBuild fx σ₀ c o₁ mid₁ σ₁) (h₂ : QuietRun fx σ₁ c o₂ mid₂ σ₂)
    (hd : σ₂.done = some d) (ho : Entry.other ∉ σ₂.log) :
    commands σ₂.log = [] ∧ d = ⟨c, true, false⟩ := by
  obtain ⟨h1, -, -, h4⟩ := C04_null_rebuild hn h₁ ⟨rfl, fun _ _ _ => rfl⟩ h₂
  exact ⟨h1, h4 d hd ho⟩

/-! ## Concrete cases -/

/-- Just built. -/
def exBuilt : Sys := steps exFixed Sys.init (exPre ++ .start exCfg exOrder :: exFull)

theorem exBuilt_build : SuccessfulBuild exFixed (steps exFixed Sys.init exPre) exCfg exOrder exFull
    exBuilt := by
  have h : exBuilt =
      steps exFixed (step exFixed (steps exFixed Sys.init exPre) (.start exCfg exOrder)) exFull := by
    simp [exBuilt, steps]
  rw [h]
  exact ex_build

theorem sameExcept_refl (c : TargetSchema) (σ : Sys) : SameExcept [] c σ σ :=
  ⟨rfl, fun _ _ _ => rfl⟩

theorem sameExcept_edit (fx : Fixed) (c : TargetSchema) (σ : Sys) (p : Str) (t : Nat) :
    SameExcept [p] c σ (step fx σ (.edit p t)) := by
  refine ⟨rfl, fun q _ hq => ?_⟩
  simp only [List.mem_singleton] at hq
  simp [step, Sys.put, upd, hq]

theorem sameExcept_untracked {c : TargetSchema} {σ σ' : Sys} {p : Str} (h : SameExcept [p] c σ σ')
    (hp : p ∉ tracked c) : SameExcept [] c σ σ' :=
  ⟨h.state, fun q hq _ => h.files q hq (by simp only [List.mem_singleton]; rintro rfl; exact hp hq)⟩

/-- A run from `σ` that can be started and gets through. -/
def exRunOk (σ : Sys) (c : TargetSchema) (o : List Str) (mid : List Event) : Bool :=
  σ.run.isNone && (step exFixed σ (.start c o)).run.isSome &&
    mid.all (fun e => !e.outside && !e.isStart)

theorem exRun {σ : Sys} {c : TargetSchema} {o : List Str} {mid : List Event}
    (h : exRunOk σ c o mid = true) :
    QuietRun exFixed σ c o mid (steps exFixed σ (.start c o :: mid)) := by
  simp only [exRunOk, Bool.and_eq_true, Option.isNone_iff_eq_none, List.all_eq_true,
    Bool.not_eq_true'] at h
  exact ⟨h.1.1, h.1.2, h.2, rfl⟩

/-- C04: the run that finds nothing to do, after an unrelated file appeared. -/
example := C04_null_rebuild (by decide) exBuilt_build
  (sameExcept_untracked (sameExcept_edit exFixed exCfg exBuilt b!"/p/README" 8) (by decide +kernel))
  (exRun (c := exCfg) (o := exOrder) (mid := exNull) (by decide +kernel))

example : (steps exFixed exBuilt (.start exCfg exOrder :: exNull)).done
    = some ⟨exCfg, true, false⟩ := by decide +kernel

/-- C05: main.cpp is edited. -/
def exEdited : Sys := step exFixed exBuilt (.edit b!"/p/src/main.cpp" 8)

def exOne : List Event :=
  [.pchTask, .objTask, .exec 0 true none, .add 0, .linkTask, .linkExec true none, .finish true]

example := C05_one_source (by decide) exBuilt_build (σ₂ := exEdited)
  (sameExcept_edit exFixed exCfg exBuilt b!"/p/src/main.cpp" 8)
  (by decide) (by decide +kernel) (by decide +kernel)
  (exRun (c := exCfg) (o := exOrder) (mid := exOne) (by decide +kernel))

example : (steps exFixed exEdited (.start exCfg exOrder :: exOne)).done
      = some ⟨exCfg, true, true⟩ ∧
    commands (steps exFixed exEdited (.start exCfg exOrder :: exOne)).log
      = [.obj b!"/p/src/main.cpp" true, .link true] := by decide +kernel

/-- C06: another C++ flag; the PCH flag set is concerned as well. -/
example : ∃ s, loadTargetFile exBuilt.stateFile = some s ∧ SharedChanged exBuilt.files s exCfg2 := by
  refine ⟨_, Option.eq_some_of_isSome (by decide +kernel), ?_⟩
  exact .inr (.inr (.inr (.inr (.inr (.inl (by decide +kernel))))))

example : exRunOk exBuilt exCfg2 exOrder exFull = true ∧
    commands (steps exFixed exBuilt (.start exCfg2 exOrder :: exFull)).log
      = [.pch true, .obj b!"/p/src/util.c" true, .obj b!"/p/src/main.cpp" true, .link true] := by
  decide +kernel

/-- C08: the compile of `util.c` fails. -/
def exPartFail : List Event :=
  [ .pchTask, .pchExec true none, .objTask, .exec 1 false none, .exec 0 true none, .add 0,
    .linkTask, .finish true ]

def exPartFailed : Sys := steps exFixed exBuilt (.start exCfg2 exOrder :: exPartFail)

example := C08_failed_retried (c := exCfg2) (σ₀ := exBuilt) (o₁ := exOrder) (mid₁ := exPartFail)
  (d₁ := ⟨exCfg2, false, true⟩) (by decide) (exRun (by decide +kernel)) (by decide +kernel) rfl
  (by decide +kernel) (sameExcept_refl _ _)
  (exRun (o := exOrder) (mid := exOne) (by decide +kernel))

example : exPartFailed.done = some ⟨exCfg2, false, true⟩ ∧
    commands (steps exFixed exPartFailed (.start exCfg2 exOrder :: exOne)).log
      = [.obj b!"/p/src/util.c" true, .link true] := by decide +kernel

/-- C13: `util.c` is removed. -/
def exLinkOnly : List Event := [.pchTask, .objTask, .linkTask, .linkExec true none, .finish true]

example := C13_removed_source (by decide) exBuilt_build (p := b!"/p/src/util.c")
  (sameExcept_refl _ _) (by decide)
  (exRun (o := [b!"/p/src/main.cpp"]) (mid := exLinkOnly) (by decide +kernel))

example : commands (steps exFixed exBuilt (.start (withoutSource b!"/p/src/util.c" exCfg)
    [b!"/p/src/main.cpp"] :: exLinkOnly)).log = [.link true] := by decide +kernel

/-- C14: a new version of a library. -/
example : ∃ s, loadTargetFile exBuilt.stateFile = some s ∧
    recorded s.libs ≠ versions (step exFixed exBuilt (.edit b!"/p/lib/libz.a" 8)).files exCfg.libs := by
  refine ⟨_, Option.eq_some_of_isSome (by decide +kernel), ?_⟩
  decide +kernel

example : exRunOk (step exFixed exBuilt (.edit b!"/p/lib/libz.a" 8)) exCfg exOrder exLinkOnly = true ∧
    (steps exFixed (step exFixed exBuilt (.edit b!"/p/lib/libz.a" 8))
      (.start exCfg exOrder :: exLinkOnly)).done = some ⟨exCfg, true, true⟩ := by decide +kernel

/-- C57: the state is removed. -/
example := C57_rebuilt_without_state_partial (c := exCfg) (o := exOrder) (mid := exFull)
  (σ₀ := step exFixed exBuilt .dropState) (d := ⟨exCfg, true, true⟩) (by decide)
  (exRun (by decide +kernel)) (by decide +kernel) (by decide +kernel) rfl

/-- C59: `util.c` is listed twice; an unchanged rebuild compiles it again. -/
def exTwice : TargetSchema :=
  { exPlain with sources := exPlain.sources ++ [⟨b!"/p/src/util.c", []⟩] }

def exTwiceFull : List Event :=
  [.objTask, .exec 0 true none, .exec 0 true none, .exec 0 true none, .add 0, .add 0, .add 0,
    .linkTask, .linkExec true none, .finish true]

def exTwiceBuilt : Sys := steps exFixed Sys.init (exFiles ++ .start exTwice exOrder :: exTwiceFull)

example : exTwiceBuilt.done = some ⟨exTwice, true, true⟩ := by decide +kernel

example := C59_repeated_source_false (c := exTwice) (o := exOrder) (mid := exOne)
  (σ₀ := exTwiceBuilt) (d := ⟨exTwice, true, true⟩) (by decide +kernel)
  (exRun (by decide +kernel)) (by decide +kernel) rfl

end Verif.Target
