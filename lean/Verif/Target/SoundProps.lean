import Verif.Target.Examples

/-!
# No outdated artifacts after a successful build (C01, C02, C03, C12, C56)

Reading guide.  `steps fx Sys.init pre` is any state reached from nothing by a
history `pre` of file edits and deletions, builds in any schedule, command
failures, failures of other targets, crashes at any point (also with half of the
state file written) and losses of the state file.  `SuccessfulBuild` is a build that
starts there, in any schedule, during which nobody else changes a file, and that
ends in SUCCESS.  `cleanObj`, `cleanPch`, `cleanBin` describe what a build from
scratch produces from the files as they are now.

The theorems are partial: `Family` and `Disciplined` state the conditions on the
history, and `Refute.lean` shows that the full statements are false without them.
-/

namespace Verif.Target
open Verif Verif.Command Verif.Schema Verif.Json

/-- C01.  Every object is what a build from scratch would produce. -/
theorem C01_no_stale_object_partial (fx : Fixed) (K : TargetSchema → Prop) (hsh : Shipped fx)
    (hf : Family fx K) (pre mid : List Event) (c : TargetSchema) (order : List Str) (σ : Sys)
    (hd : Disciplined fx K (pre ++ [.start c order]))
    (hb : SuccessfulBuild fx (steps fx Sys.init pre) c order mid σ) :
    ∀ p ∈ paths c.sources, σ.objs (objPath fx p) = some (cleanObj fx σ.files c p) :=
  (build_clean hsh.compileLocal hsh.pchLocal (hd.inv hsh hf).1 hb).1.obj

/-- C02.  The target is what a build from scratch would produce, for some iteration
order of the hash map of objects. -/
theorem C02_no_stale_binary_partial (fx : Fixed) (K : TargetSchema → Prop) (hsh : Shipped fx)
    (hf : Family fx K) (pre mid : List Event) (c : TargetSchema) (order : List Str) (σ : Sys)
    (hd : Disciplined fx K (pre ++ [.start c order]))
    (hb : SuccessfulBuild fx (steps fx Sys.init pre) c order mid σ) :
    ∃ order' : List Str, order'.Perm (paths c.sources) ∧
      σ.bin = some (cleanBin fx σ.files c order') :=
  (build_clean hsh.compileLocal hsh.pchLocal (hd.inv hsh hf).1 hb).1.bin

/-- C03.  The precompiled header is what a build from scratch would produce. -/
theorem C03_no_stale_pch_partial (fx : Fixed) (K : TargetSchema → Prop) (hsh : Shipped fx)
    (hf : Family fx K) (pre mid : List Event) (c : TargetSchema) (order : List Str) (σ : Sys)
    (hd : Disciplined fx K (pre ++ [.start c order]))
    (hb : SuccessfulBuild fx (steps fx Sys.init pre) c order mid σ) (hp : c.pchs ≠ []) :
    σ.pch = some (cleanPch fx σ.files c) :=
  (build_clean hsh.compileLocal hsh.pchLocal (hd.inv hsh hf).1 hb).1.pch hp

/-- C01, C02 and C03 under the exact conditions the proof needs, event by event, and
for every template whose compile and PCH commands depend on compile inputs only. -/
theorem C01_C02_C03_general_partial (fx : Fixed) (hlc : CompileLocal fx) (hlp : PchLocal fx)
    (pre mid : List Event) (c : TargetSchema) (order : List Str) (σ : Sys)
    (ha : AllAllowed fx Sys.init (pre ++ [.start c order]))
    (hb : SuccessfulBuild fx (steps fx Sys.init pre) c order mid σ) : Clean fx σ c :=
  (build_clean hlc hlp ha hb).1

/-- C12.  One configuration, any number of crashes at any points, any edits: a later
successful build leaves nothing outdated. -/
theorem C12_crash_safe_partial (fx : Fixed) (hsh : Shipped fx) (c : TargetSchema)
    (hn : (paths c.sources).Nodup)
    (hi : ∀ p ∈ paths c.sources, ∀ q ∈ paths c.sources, objPath fx p = objPath fx q → p = q)
    (pre mid : List Event) (order : List Str) (σ : Sys)
    (hs : ∀ c' o, Event.start c' o ∈ pre → c' = c)
    (ht : ∀ e ∈ pre, e.tampers = false)
    (hu : ∀ pre' p t post, pre = pre' ++ .edit p t :: post → Event.edit p t ∉ pre')
    (he : ∀ pre' p t post, pre = pre' ++ .edit p t :: post →
      (steps fx Sys.init pre').run = none ∨ (c.pchs ≠ [] → p ∉ paths c.headers))
    (hb : SuccessfulBuild fx (steps fx Sys.init pre) c order mid σ) : Clean fx σ c := by
  have hf : Family fx (· = c) := by
    refine ⟨?_, ?_, ?_, ?_⟩
    · rintro _ rfl; exact hn
    · rintro _ _ rfl rfl; exact hi
    · rintro _ _ rfl rfl h1 h2; exact absurd h2 h1
    · rintro _ _ rfl rfl _ _ _; rfl
  refine (build_clean hsh.compileLocal hsh.pchLocal (Disciplined.inv (K := (· = c)) ?_ hsh hf).1 hb).1
  have hpost : ∀ pre' p t post, pre ++ [Event.start c order] = pre' ++ .edit p t :: post →
      ∃ post', pre = pre' ++ .edit p t :: post' := by
    intro pre' p t post hm
    rcases List.eq_nil_or_concat post with rfl | ⟨post', e, rfl⟩
    · have := congrArg List.getLast? hm
      simp at this
    · have h3 : pre ++ [Event.start c order] = (pre' ++ .edit p t :: post') ++ [e] := by
        rw [hm]; simp
      exact ⟨post', (List.append_inj' h3 rfl).1⟩
  refine ⟨?_, ?_, ?_, ?_, .inl fun _ _ h1 h2 => h1.trans h2.symm⟩
  · intro c' o hm
    rcases List.mem_append.1 hm with hm | hm
    · exact hs c' o hm
    · simp only [List.mem_singleton, Event.start.injEq] at hm; exact hm.1
  · intro e hm
    rcases List.mem_append.1 hm with hm | hm
    · exact ht e hm
    · simp only [List.mem_singleton] at hm; rw [hm]; rfl
  · intro pre' p t post hm
    obtain ⟨post', h2⟩ := hpost pre' p t post hm
    exact hu pre' p t post' h2
  · intro pre' p t post hm
    obtain ⟨post', h2⟩ := hpost pre' p t post hm
    rcases he pre' p t post' h2 with h3 | h3
    · exact .inl h3
    · exact .inr fun c' hc' => by rw [hc']; exact h3

/-- C12, any configuration: when no usable state is left, for example because the
process was killed while writing it, the next build may use any configuration
without repeated sources and colliding object files, whatever happened before. -/
theorem C12_unreadable_state_safe (fx : Fixed) (hsh : Shipped fx)
    (pre mid : List Event) (c : TargetSchema) (order : List Str) (σ : Sys)
    (hn : (paths c.sources).Nodup)
    (hi : ∀ p ∈ paths c.sources, ∀ q ∈ paths c.sources, objPath fx p = objPath fx q → p = q)
    (hu : loadTargetFile (steps fx Sys.init pre).stateFile = none)
    (hb : SuccessfulBuild fx (steps fx Sys.init pre) c order mid σ) : Clean fx σ c :=
  (build_clean_scratch hsh.compileLocal hsh.pchLocal hn hi hu hb).1

/-- C56, the part that holds: whatever was deleted or replaced, in any history, a
successful build after the state file was deleted recreates everything. -/
theorem C56_recreated_without_state_partial (fx : Fixed) (hsh : Shipped fx)
    (pre mid : List Event) (c : TargetSchema) (order : List Str) (σ : Sys)
    (hn : (paths c.sources).Nodup)
    (hi : ∀ p ∈ paths c.sources, ∀ q ∈ paths c.sources, objPath fx p = objPath fx q → p = q)
    (hr : (steps fx Sys.init pre).run = none)
    (hb : SuccessfulBuild fx (steps fx Sys.init (pre ++ [.dropState])) c order mid σ) :
    Clean fx σ c := by
  refine (build_clean_scratch hsh.compileLocal hsh.pchLocal hn hi ?_ hb).1
  rw [steps_append]
  simp [steps, step] at hr ⊢
  simp [hr]; rfl

/-! ## The hypotheses are met -/

theorem ex_shipped : Shipped exFixed := by simp [Shipped, exFixed]

/-- After a first build, an edit and two crashes, a full build succeeds. -/
theorem ex_build : SuccessfulBuild exFixed (steps exFixed Sys.init exPre) exCfg exOrder exFull
    (steps exFixed (step exFixed (steps exFixed Sys.init exPre) (.start exCfg exOrder)) exFull) where
  idle := by decide +kernel
  started := by decide +kernel
  quiet := by decide
  result := rfl
  success := ⟨true, by decide +kernel⟩

theorem ex_disciplined : Disciplined exFixed (· = exCfg) (exPre ++ [.start exCfg exOrder]) := by
  refine disciplined_single ?_ (by decide) (by decide +kernel)
  intro c o h
  simp [exPre, exFiles, exFull] at h
  all_goals first | exact h.1 | (rcases h with h | h | h | h <;> exact h.1)

example :=
  C01_no_stale_object_partial exFixed (· = exCfg) ex_shipped ex_family exPre exFull exCfg exOrder _
    ex_disciplined ex_build
example :=
  C02_no_stale_binary_partial exFixed (· = exCfg) ex_shipped ex_family exPre exFull exCfg exOrder _
    ex_disciplined ex_build
example :=
  C03_no_stale_pch_partial exFixed (· = exCfg) ex_shipped ex_family exPre exFull exCfg exOrder _
    ex_disciplined ex_build (by decide)

/-- The half-written state of the last crash is indeed unreadable. -/
example : loadTargetFile (steps exFixed Sys.init exPre).stateFile = none := by decide +kernel
example : (steps exFixed Sys.init exPre).stateFile.isSome = true := by decide +kernel

example := C12_unreadable_state_safe exFixed ex_shipped exPre exFull exCfg exOrder _
  (by decide +kernel) (by decide +kernel) (by decide +kernel) ex_build

/-- The last object and the PCH are deleted, the target is replaced, then the state
file is deleted. -/
def exTampered : List Event :=
  exFiles ++ .start exCfg exOrder :: exFull ++
    [.tamperObj b!"/p/build/gcc/hello/src/main.cpp.o" none, .tamperPch none, .tamperBin none]

example := C56_recreated_without_state_partial exFixed ex_shipped exTampered exFull exCfg exOrder _
  (by decide +kernel) (by decide +kernel) (by decide +kernel)
  { idle := by decide +kernel, started := by decide +kernel, quiet := by decide, result := rfl
    success := ⟨true, by decide +kernel⟩ }

/-- Several configurations: two flag sets, builds that are not killed. -/
def exCfg2 : TargetSchema := { exCfg with cppCompileFlags := [b!"-O0"] }

def exPre2 : List Event :=
  exFiles ++ .start exCfg exOrder :: exFull ++ .start exCfg2 exOrder :: exFull

theorem ex_family2 : Family exFixed (fun c => c = exCfg ∨ c = exCfg2) where
  nodup := by rintro c (rfl | rfl) <;> decide +kernel
  inj := by rintro a b (rfl | rfl) (rfl | rfl) <;> decide +kernel
  pchKept := by
    intro a b ha hb h1 h2
    have : b.pchs ≠ [] := by rcases hb with rfl | rfl <;> decide
    exact absurd h2 this
  pchLang := by rintro a b (rfl | rfl) (rfl | rfl) _ _ _ <;> rfl

theorem ex_disciplined2 :
    Disciplined exFixed (fun c => c = exCfg ∨ c = exCfg2) (exPre2 ++ [.start exCfg exOrder]) where
  starts := by
    intro c o h
    simp [exPre2, exFiles, exFull] at h
    rcases h with h | h | h
    · exact .inl h.1
    · exact .inr h.1
    · exact .inl h.1
  untouched := by decide
  headers := fun pre p t post he =>
    .inl (idleEdits_spec _ _ (by decide +kernel) pre p t post he).1
  stamps := fun pre p t post he hm =>
    (idleEdits_spec (fx := exFixed) _ _ (by decide +kernel) pre p t post he).2 ((used_steps exFixed pre).2 hm)
  losses := by
    refine .inr ⟨by intro w h; simp [exPre2, exFiles, exFull] at h, ?_⟩
    have hall : ∀ n, n ≤ (exPre2 ++ [Event.start exCfg exOrder]).length →
        Entry.storeFailed ∉ (steps exFixed Sys.init
          ((exPre2 ++ [Event.start exCfg exOrder]).take n)).log := by decide +kernel
    intro pre b post he
    have := hall (pre.length + 1) (by rw [he]; simp)
    rw [he] at this
    simpa [List.take_append, List.take_of_length_le] using this

example :=
  C01_no_stale_object_partial exFixed _ ex_shipped ex_family2 exPre2 exFull exCfg exOrder _
    ex_disciplined2
    { idle := by decide +kernel, started := by decide +kernel, quiet := by decide, result := rfl
      success := ⟨true, by decide +kernel⟩ }

/-- A source is edited while it is compiled.  The command had read the old version, the
new version is there when the link command runs. -/
def exDuring : List Event :=
  exFiles ++ [ .start exCfg exOrder, .pchTask, .pchExec true none, .objTask,
    .edit b!"/p/src/main.cpp" 8, .look b!"/p/src/main.cpp" (some 1), .exec 0 true none,
    .exec 0 true none, .add 0, .add 0, .linkTask, .linkExec true none, .finish true ]

/-- That build reports success with an object of the old version, -/
example : (steps exFixed Sys.init exDuring).done = some ⟨exCfg, true, true⟩ ∧
    ((steps exFixed Sys.init exDuring).objs b!"/p/build/gcc/hello/src/main.cpp.o").map (·.src)
      = some (some (digits 1)) ∧
    (steps exFixed Sys.init exDuring).files b!"/p/src/main.cpp" = some 8 := by decide +kernel

/-- and the next build compiles the new one. -/
example :=
  C01_no_stale_object_partial exFixed (· = exCfg) ex_shipped ex_family exDuring
    [.pchTask, .objTask, .exec 0 true none, .add 0, .linkTask, .linkExec true none, .finish true]
    exCfg exOrder _
    { starts := by
        intro c o h
        simp [exDuring, exFiles] at h
        exact h.1
      untouched := by decide
      stamps := editsFresh_spec _ (by decide +kernel)
      headers := by
        intro pre p t post he
        by_cases hp : p = b!"/p/include/a.h"
        · refine .inl ?_
          subst hp
          have := idleOf_spec (fx := exFixed) b!"/p/include/a.h" _ Sys.init (by decide +kernel) _ _ _ he
          simpa using this
        · exact .inr fun c hc _ => by subst hc; simpa [exCfg, paths] using hp
      losses := .inl fun _ _ ha hb => ha.trans hb.symm }
    { idle := by decide +kernel, started := by decide +kernel, quiet := by decide, result := rfl
      success := ⟨true, by decide +kernel⟩ }

end Verif.Target
