import Verif.Target.ManyProps
import Verif.Target.SoundProps

/-! # Several processes: examples, and why C102 is partial -/

namespace Verif.Target
open Verif Verif.Command Verif.Schema Verif.Json

/-! ## A check of `Together` for the first `N` processes -/

def togetherB (N : Nat) (fx : Fixed) (c : TargetSchema) (m : Many) : List MEvent → Bool
  | [] => true
  | e :: l =>
    (match e with
      | .edit p t => decide (t ∉ m.used p) && (List.range N).all fun k => (m.procs k).run.isNone
      | .delete _ => (List.range N).all fun k => (m.procs k).run.isNone
      | .act k e => decide (k < N) && (e.tidy && match e with
        | .start c' _ => decide (c' = c)
        | _ => true)
      | .startDuring k _ _ c' _ => decide (k < N) && decide (c' = c)) &&
    togetherB N fx c (mstep fx m e) l

theorem togetherB_spec {N : Nat} {fx : Fixed} {c : TargetSchema} : ∀ (evs : List MEvent) (m : Many),
    (∀ k, N ≤ k → (m.procs k).run = none) → togetherB N fx c m evs = true → Together fx c m evs := by
  intro evs
  induction evs with
  | nil => intro m _ _; trivial
  | cons e evs ih =>
    intro m hm h
    simp only [togetherB, Bool.and_eq_true] at h
    have hall : ((List.range N).all fun k => (m.procs k).run.isNone) = true →
        ∀ k, (m.procs k).run = none := by
      intro h k
      by_cases hk : k < N
      · simpa using List.all_eq_true.1 h k (List.mem_range.2 hk)
      · exact hm k (by omega)
    have hother : ∀ k σ, k < N → ∀ j, N ≤ j → ((m.take k σ).procs j).run = none := by
      intro k σ hk j hj
      show (if j = k then _ else m.procs j).run = none
      rw [if_neg (by omega)]; exact hm j hj
    refine ⟨?_, ih _ ?_ h.2⟩
    · have h1 := h.1
      cases e with
      | edit p t =>
        simp only [Bool.and_eq_true, decide_eq_true_eq] at h1 ⊢
        exact ⟨h1.1, hall h1.2⟩
      | delete p => exact hall h1
      | act k e =>
        simp only [Bool.and_eq_true, decide_eq_true_eq] at h1 ⊢
        refine ⟨h1.2.1, ?_⟩
        intro c' o he
        have h2 := h1.2.2
        rw [he] at h2
        simpa using h2
      | startDuring k j n c' o =>
        simp only [Bool.and_eq_true, decide_eq_true_eq] at h1 ⊢
        exact h1.2
    · have h1 := h.1
      cases e with
      | edit p t => exact hm
      | delete p => exact hm
      | act k e =>
        simp only [Bool.and_eq_true, decide_eq_true_eq] at h1
        simp only [mstep]
        split
        · exact hm
        · exact hother k _ h1.1
      | startDuring k j n c' o =>
        simp only [Bool.and_eq_true, decide_eq_true_eq] at h1
        exact hother k _ h1.1

/-! ## Three processes -/

def mFiles : List MEvent :=
  [ .edit b!"/p/src/main.cpp" 1, .edit b!"/p/src/util.c" 2, .edit b!"/p/include/a.h" 3,
    .edit b!"/p/include/pch.h" 4, .edit b!"/p/lib/libz.a" 5, .edit b!"/p/gen/v.txt" 6 ]

/-- Process 0 is killed after one object; process 1 starts before that and process 2 while 1
writes the state file; a compile command of 2 fails; process 0 starts again, finds what 1
stored, and builds nothing. -/
def exTogether : List MEvent :=
  mFiles ++ [ .act 0 (.start exCfg exOrder), .act 0 .pchTask, .act 0 (.pchExec true none),
    .act 1 (.start exCfg exOrder), .act 0 .objTask, .act 1 .pchTask, .act 0 (.exec 1 true none),
    .act 1 (.pchExec true none), .act 0 (.crash none), .act 1 .objTask, .act 1 (.exec 0 true none),
    .act 1 (.add 0), .act 1 (.exec 0 true none), .act 1 (.add 0), .act 1 .linkTask,
    .act 1 (.linkExec true none), .startDuring 2 1 50 exCfg exOrder, .act 1 (.finish true),
    .act 2 .pchTask, .act 2 (.pchExec true none), .act 0 (.start exCfg exOrder), .act 2 .objTask,
    .act 0 .pchTask, .act 2 (.exec 0 true none), .act 2 (.exec 0 false none), .act 0 .objTask,
    .act 0 .linkTask, .act 0 (.finish true) ]

theorem exTogether_ok : Together exFixed exCfg Many.init exTogether :=
  togetherB_spec (N := 3) _ _ (fun _ _ => rfl) (by decide +kernel)

theorem exTogether_zero : Succeeded (msteps exFixed Many.init exTogether) 0 :=
  ⟨⟨exCfg, true, false⟩, by decide +kernel, rfl, by decide +kernel⟩

theorem exTogether_one : Succeeded (msteps exFixed Many.init exTogether) 1 :=
  ⟨⟨exCfg, true, true⟩, by decide +kernel, rfl, by decide +kernel⟩

/-- Process 2 is still building, and has failed. -/
example : ((msteps exFixed Many.init exTogether).procs 2).run.isSome = true ∧
    ((msteps exFixed Many.init exTogether).procs 2).ok = false := by decide +kernel

example := C102_concurrent_partial exFixed ex_shipped exCfg (by decide +kernel) (by decide +kernel)
  exTogether exTogether_ok 0 exTogether_zero

/-- The course of process 1 is that of a process alone: it compiles and links everything. -/
example := C102_independent exFixed (msteps exFixed Many.init mFiles) 1 exCfg exOrder
  ((exTogether.drop 10)) (by decide +kernel)

example : ((msteps exFixed Many.init exTogether).procs 1).log =
    [.pch true, .obj b!"/p/src/main.cpp" true, .obj b!"/p/src/util.c" true, .link true] := by
  decide +kernel

/-! ## Why it is partial -/

/-- Everything is as in `C102_concurrent_partial`, one condition left aside: stamps are new,
built files are changed by commands only, all processes have ended, and then a further process
builds undisturbed and ends with SUCCESS, but an object is not what a build from scratch
leaves. -/
structure StaleTogether (fx : Fixed) (c : TargetSchema) (evs last : List MEvent) (k : Nat) : Prop where
  idle : ∀ j, ((msteps fx Many.init evs).procs j).run = none
  alone : ∀ e ∈ last, ∃ e', e = .act k e'
  success : Succeeded (msteps fx (msteps fx Many.init evs) last) k
  stale : ∃ p ∈ paths c.sources, (msteps fx (msteps fx Many.init evs) last).objs (objPath fx p) ≠
    some (cleanObj fx (msteps fx (msteps fx Many.init evs) last).files c p)

/-- The further process runs no command. -/
def mNull (k : Nat) : List MEvent :=
  [.act k (.start exCfg exOrder), .act k .pchTask, .act k .objTask, .act k .linkTask,
    .act k (.finish true)]

/-- All commands succeed and only `c` is built. -/
def calmB (c : TargetSchema) (evs : List MEvent) : Bool :=
  evs.all fun e =>
    match e with
    | .act _ (.start c' _) => decide (c' = c)
    | .act _ (.pchExec ok _) | .act _ (.exec _ ok _) | .act _ (.linkExec ok _) => ok
    | .act _ (.crash _) | .act _ .otherFail | .act _ (.finish false) => false
    | .startDuring _ _ _ _ _ => false
    | _ => true

/-- Process 0 compiles; meanwhile `main.cpp` is edited and process 1 started.  The slow compile
command of process 0, which has read the old file, ends after that of process 1. -/
def exEdit : List MEvent :=
  mFiles ++ [ .act 0 (.start exCfg exOrder), .act 0 .pchTask, .act 0 (.pchExec true none),
    .act 0 .objTask, .edit b!"/p/src/main.cpp" 11,
    .act 1 (.start exCfg exOrder), .act 1 .pchTask, .act 1 (.pchExec true none), .act 1 .objTask,
    .act 1 (.exec 0 true none), .act 1 (.exec 0 true none), .act 1 (.add 0), .act 1 (.add 0),
    .act 0 (.look b!"/p/src/main.cpp" (some 1)), .act 0 (.exec 0 true none),
    .act 0 (.exec 0 true none), .act 0 (.add 0), .act 0 (.add 0), .act 0 .linkTask,
    .act 0 (.linkExec true none), .act 0 (.finish true),
    .act 1 .linkTask, .act 1 (.linkExec true none), .act 1 (.finish true) ]

theorem stale_idle {fx : Fixed} {evs : List MEvent} (N : Nat)
    (h : ∀ k, k < N → ((msteps fx Many.init evs).procs k).run = none)
    (hs : ∀ e ∈ evs, match e with
      | .act k _ | .startDuring k _ _ _ _ => k < N
      | _ => True) : ∀ j, ((msteps fx Many.init evs).procs j).run = none := by
  intro j
  by_cases hj : j < N
  · exact h j hj
  · clear h
    suffices hg : ∀ (evs : List MEvent) (m : Many), (∀ e ∈ evs, match e with
        | .act k _ | .startDuring k _ _ _ _ => k < N
        | _ => True) → (m.procs j).run = none → ((msteps fx m evs).procs j).run = none from
      hg evs Many.init hs rfl
    intro evs
    induction evs with
    | nil => intro m _ h; exact h
    | cons e evs ih =>
      intro m hs h
      refine ih _ (fun e he => hs e (List.mem_cons_of_mem _ he)) ?_
      have h1 := hs e List.mem_cons_self
      cases e with
      | edit p t => exact h
      | delete p => exact h
      | act k e =>
        simp only at h1
        simp only [mstep]
        split
        · exact h
        · show (if j = k then _ else m.procs j).run = none
          rw [if_neg (by omega)]; exact h
      | startDuring k i n c o =>
        simp only at h1
        show (if j = k then _ else m.procs j).run = none
        rw [if_neg (by omega)]; exact h

/-- A file is edited while a process builds (which a process alone survives), and a second
process starts: the build reports SUCCESS with an old object, and so do all later builds. -/
theorem C102_edit_false : calmB exCfg exEdit = true ∧ StaleTogether exFixed exCfg exEdit (mNull 2) 2 :=
  ⟨by decide +kernel, stale_idle 2 (by decide +kernel) (by simp [exEdit, mFiles]),
    by simp [mNull], ⟨⟨exCfg, true, false⟩, by decide +kernel, rfl, by decide +kernel⟩,
    b!"/p/src/main.cpp", by decide +kernel, by decide +kernel⟩

/-- Two processes with different compile flags (as after an edit of the build script). -/
def exFlags : List MEvent :=
  mFiles ++ [ .act 0 (.start exCfg2 exOrder), .act 0 .pchTask, .act 0 (.pchExec true none),
    .act 0 .objTask,
    .act 1 (.start exCfg exOrder), .act 1 .pchTask, .act 1 (.pchExec true none), .act 1 .objTask,
    .act 1 (.exec 0 true none), .act 1 (.exec 0 true none), .act 1 (.add 0), .act 1 (.add 0),
    .act 0 (.exec 0 true none), .act 0 (.exec 0 true none), .act 0 (.add 0), .act 0 (.add 0),
    .act 0 .linkTask, .act 0 (.linkExec true none), .act 0 (.finish true),
    .act 1 .linkTask, .act 1 (.linkExec true none), .act 1 (.finish true) ]

/-- Files are edited between builds only, all commands succeed: SUCCESS with objects that were
compiled with the flags of the other process. -/
theorem C102_flags_false : StaleTogether exFixed exCfg exFlags (mNull 2) 2 :=
  ⟨stale_idle 2 (by decide +kernel) (by simp [exFlags, mFiles]),
    by simp [mNull], ⟨⟨exCfg, true, false⟩, by decide +kernel, rfl, by decide +kernel⟩,
    b!"/p/src/main.cpp", by decide +kernel, by decide +kernel⟩

/-- A compile command of process 0 fails and removes its output, after process 1 has linked. -/
def exFailure : List MEvent :=
  mFiles ++ [ .act 0 (.start exCfg exOrder), .act 0 .pchTask, .act 0 (.pchExec true none),
    .act 0 .objTask,
    .act 1 (.start exCfg exOrder), .act 1 .pchTask, .act 1 (.pchExec true none), .act 1 .objTask,
    .act 1 (.exec 0 true none), .act 1 (.exec 0 true none), .act 1 (.add 0), .act 1 (.add 0),
    .act 1 .linkTask, .act 1 (.linkExec true none),
    .act 0 (.exec 0 false (some none)), .act 0 (.exec 0 true none), .act 0 (.add 0),
    .act 0 .linkTask, .act 0 (.finish true), .act 1 (.finish true) ]

/-- One configuration and no edit: the object is gone, and later builds report SUCCESS. -/
theorem C102_failure_false : StaleTogether exFixed exCfg exFailure (mNull 2) 2 :=
  ⟨stale_idle 2 (by decide +kernel) (by simp [exFailure, mFiles]),
    by simp [mNull], ⟨⟨exCfg, true, false⟩, by decide +kernel, rfl, by decide +kernel⟩,
    b!"/p/src/main.cpp", by decide +kernel, by decide +kernel⟩

end Verif.Target
