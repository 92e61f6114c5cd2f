import Verif.Generator.ManyProps

/-! # Several processes: examples, and why C103 is partial -/

namespace Verif.Generator
open Verif Verif.Schema Verif.Json
open Verif.Target (Reads fileHash upd)

/-! ## Checks for the first `N` processes -/

/-- The events are those of the first `N` processes. -/
def MEvent.below (N : Nat) : MEvent → Bool
  | .act k _ | .startDuring k _ _ _ _ => k < N
  | _ => true

theorem below_idle {N : Nat} {j : Nat} (hj : N ≤ j) : ∀ (evs : List MEvent) (m : Many),
    (∀ e ∈ evs, e.below N = true) → (m.procs j).run = none → ((msteps m evs).procs j).run = none := by
  intro evs
  induction evs with
  | nil => intro m _ h; exact h
  | cons e evs ih =>
    intro m hs h
    refine ih _ (fun e he => hs e (List.mem_cons_of_mem _ he)) ?_
    have h1 := hs e List.mem_cons_self
    cases e with
    | edit p t => exact h
    | delete p => exact h
    | dropState => exact h
    | act k e =>
      have hk : k < N := by simpa [MEvent.below] using h1
      rw [mstep_other m e (by omega)]; exact h
    | startDuring k i n o c =>
      have hk : k < N := by simpa [MEvent.below] using h1
      simp only [mstep, Many.take]
      rw [if_neg (by omega)]; exact h

theorem below_quiet {N : Nat} {evs : List MEvent} (hs : ∀ e ∈ evs, e.below N = true)
    (h : ∀ k, k < N → ((msteps Many.init evs).procs k).run.isNone = true) (j : Nat) :
    ((msteps Many.init evs).procs j).run = none := by
  by_cases hj : j < N
  · simpa using h j hj
  · exact below_idle (by omega) evs Many.init hs rfl

theorem below_calling {N : Nat} {evs : List MEvent} {id : Str} (hs : ∀ e ∈ evs, e.below N = true)
    (h : ∀ k, k < N → ¬ Calling (msteps Many.init evs) k id) (j : Nat) :
    ¬ Calling (msteps Many.init evs) j id := by
  by_cases hj : j < N
  · exact h j hj
  · rintro ⟨r, i, h1, -⟩
    rw [below_idle (by omega) evs Many.init hs rfl] at h1; simp at h1

/-! ## Three processes -/

def mIn : List MEvent := [.edit b!"/p/a.in" 1, .edit b!"/p/b.in" 2]

/-- Process 1 starts while the callback of `a` runs in process 0, and calls it too; process 0 is
killed between two callbacks; process 2 starts while 1 writes the state file and calls `b`; process 0
starts again, finds what 1 stored, and calls nothing. -/
def exActs : List MEvent :=
  [ .act 0 (.start (exGen [7])), .act 0 .begin, .act 0 (.task b!"a"),
    .act 1 (.start (exGen [7])), .act 1 .begin, .act 1 (.task b!"a"), .act 0 (.call b!"a" true),
    .act 0 (.crash [] none), .act 1 (.task b!"b"), .act 1 (.call b!"b" true),
    .act 1 (.call b!"a" true), .startDuring 2 1 9 [b!"a", b!"b"] (exGen [7]),
    .act 1 (.finish [b!"a", b!"b"] true), .act 2 .begin, .act 2 (.task b!"b"),
    .act 0 (.start (exGen [7])), .act 0 .begin, .act 0 (.task b!"a"), .act 0 (.task b!"b"),
    .act 0 (.finish [b!"b", b!"a"] true) ]

def exTogether : List MEvent := mIn ++ exActs

theorem exTogether_ok : Together (exGen [7]) Many.init exTogether := by
  refine ⟨⟨by decide +kernel, fun _ => rfl⟩, ⟨by decide +kernel, fun _ => rfl⟩, rfl, trivial, trivial,
    rfl, trivial, trivial, rfl, ?_, trivial, rfl, rfl, rfl, trivial, trivial, trivial, rfl, trivial,
    trivial, trivial, trivial, trivial⟩
  intro id
  rintro ⟨r, i, h1, h2, h3⟩
  have hcases : id = b!"a" ∨ id = b!"b" := by
    have hc : r.cfg = exGen [7] := by
      have := congrArg (Option.map Run.cfg) h1
      exact (Option.some.inj this).symm
    rw [hc] at h2
    have := find_mem h2
    simp only [exGen, List.mem_cons, Prod.mk.injEq, List.not_mem_nil, or_false] at this
    rcases this with ⟨e, -⟩ | ⟨e, -⟩
    · exact .inl e
    · exact .inr e
  have hs := congrArg (Option.map fun r : Run => (r.status b!"a", r.status b!"b")) h1
  simp only [Option.map_some] at hs
  have hs' : some (Status.ended true true, Status.waiting) = some (r.status b!"a", r.status b!"b") :=
    Eq.trans (by decide +kernel) hs
  simp only [Option.some.injEq, Prod.mk.injEq] at hs'
  rcases hcases with rfl | rfl
  · rw [← hs'.1] at h3; cases h3
  · rw [← hs'.2] at h3; cases h3

theorem succeeded_of {m : Many} {k : Nat} (h1 : (m.procs k).done.map (·.ok) = some true)
    (h2 : (m.procs k).fresh = true) : Succeeded m k := by
  obtain ⟨d, hd, ho⟩ := Option.map_eq_some_iff.1 h1
  exact ⟨d, hd, ho, h2⟩

/-- The callback of `b` still runs in process 2, and the one of `a` in no process. -/
example : Calling (msteps Many.init exTogether) 2 b!"b" ∧
    ∀ j, ¬ Calling (msteps Many.init exTogether) j b!"a" :=
  ⟨by decide +kernel, below_calling (N := 3) (by decide +kernel) (by decide +kernel)⟩

example : UpToDate (msteps Many.init exTogether) b!"a"
    ⟨[b!"/p/a.in"], [b!"/p/a.out"], some (exH [7])⟩ :=
  C103_concurrent_partial (exGen [7]) (by decide +kernel) exTogether exTogether_ok 0
    (succeeded_of (by decide +kernel) (by decide +kernel)) b!"a" _ rfl
    (below_calling (N := 3) (by decide +kernel) (by decide +kernel))

/-- The course of process 1 is that of a process alone. -/
example := C103_independent (msteps Many.init (exTogether.take 5)) 1 (exGen [7]) (exActs.drop 4)
  (by decide +kernel)

example : ((msteps Many.init exTogether).procs 1).log = [.called b!"b" true, .called b!"a" true] ∧
    ((msteps Many.init exTogether).procs 0).log = [.unchanged b!"a", .unchanged b!"b"] := by
  decide +kernel

/-! ## Why it is partial -/

/-- All processes have ended, and then a further process runs `c` undisturbed, ends with SUCCESS
and calls nothing, but an id is not up to date. -/
structure StaleTogether (c : Cfg) (evs last : List MEvent) (k : Nat) : Prop where
  idle : ∀ j, ((msteps Many.init evs).procs j).run = none
  alone : ∀ e ∈ last, ∃ e', e = .act k e'
  success : Succeeded (msteps (msteps Many.init evs) last) k
  nothing : calledIds ((msteps (msteps Many.init evs) last).procs k).log = []
  stale : ∃ id i, find id c = some i ∧ ¬ UpToDate (msteps (msteps Many.init evs) last) id i

def mNull (k : Nat) : List MEvent :=
  [ .act k (.start (exGen [7])), .act k .begin, .act k (.task b!"a"), .act k (.task b!"b"),
    .act k (.finish [b!"a", b!"b"] true) ]

theorem stale_of {m : Many} {id : Str} {i : IdCfg}
    (h : (m.last id).map (·.ok) = some false ∨
      (m.last id).map (·.inputs) ≠ some (versions m.files i.inputs) ∨
      (m.last id).map (·.blob) ≠ blobOf i.handler) : ¬ UpToDate m id i := by
  rintro ⟨x, h1, h2, h3, -, h5⟩
  rw [h1] at h
  simp only [Option.map_some, Option.some.injEq, h2, h3, ← h5] at h
  simp at h

/-- The steps of process 1, from start to end. -/
def mOne : List MEvent :=
  [ .act 1 (.start (exGen [7])), .act 1 .begin, .act 1 (.task b!"a"), .act 1 (.task b!"b"),
    .act 1 (.call b!"a" true), .act 1 (.call b!"b" true), .act 1 (.finish [b!"a", b!"b"] true) ]

/-- The callback of `a` starts in process 0. -/
def mZero (c : Cfg) : List MEvent := [.act 0 (.start c), .act 0 .begin, .act 0 (.task b!"a")]

/-- Process 0 is killed while its callback runs, after process 1 has stored the state: the broken
output is taken for a good one by all later runs. -/
theorem C103_killed_false : StaleTogether (exGen [7])
    (mIn ++ mZero (exGen [7]) ++ mOne ++ [.act 0 (.crash [] none)]) (mNull 2) 2 :=
  ⟨below_quiet (N := 2) (by decide +kernel) (by decide +kernel), by simp [mNull],
    succeeded_of (by decide +kernel) (by decide +kernel), by decide +kernel,
    b!"a", _, rfl, stale_of (.inl (by decide +kernel))⟩

/-- The callback of process 0 fails, after process 1 has stored the state. -/
theorem C103_failure_false : StaleTogether (exGen [7])
    (mIn ++ mZero (exGen [7]) ++ mOne ++ [.act 0 (.call b!"a" false), .act 0 (.crash [] none)])
    (mNull 2) 2 :=
  ⟨below_quiet (N := 2) (by decide +kernel) (by decide +kernel), by simp [mNull],
    succeeded_of (by decide +kernel) (by decide +kernel), by decide +kernel,
    b!"a", _, rfl, stale_of (.inl (by decide +kernel))⟩

/-- An input is edited while the callback of process 0 runs, which has read it before.  The callback
ends after process 1 has stored the state, and process 0 is killed before it stores anything. -/
theorem C103_edit_false : StaleTogether (exGen [7])
    (mIn ++ mZero (exGen [7]) ++ [.edit b!"/p/a.in" 11] ++ mOne ++
      [.act 0 (.look b!"a" b!"/p/a.in" (some 1)), .act 0 (.call b!"a" true), .act 0 (.crash [] none)])
    (mNull 2) 2 :=
  ⟨below_quiet (N := 2) (by decide +kernel) (by decide +kernel), by simp [mNull],
    succeeded_of (by decide +kernel) (by decide +kernel), by decide +kernel,
    b!"a", _, rfl, stale_of (.inr (.inl (by decide +kernel)))⟩

/-- Process 0 runs with other data, as after an edit of the build script, and its callback ends after
process 1 has stored the state. -/
theorem C103_configurations_false : StaleTogether (exGen [7])
    (mIn ++ mZero (exGen [8]) ++ mOne ++ [.act 0 (.call b!"a" true), .act 0 (.crash [] none)])
    (mNull 2) 2 :=
  ⟨below_quiet (N := 2) (by decide +kernel) (by decide +kernel), by simp [mNull],
    succeeded_of (by decide +kernel) (by decide +kernel), by decide +kernel,
    b!"a", _, rfl, stale_of (.inr (.inr (by decide +kernel)))⟩

end Verif.Generator
