import Verif.Reg.Tests
import Verif.Command.Props

/-!
# Tests (C75, C76)
-/

namespace Verif.Reg
open Verif
open Verif.Command (Seg srcs vals)
open Verif.Env (Answer Shell execute)

/-! ## C76 -/

/-- The value of a placeholder in the command of a test: `{executable}` is the path of the
target, in quotes if it contains a space; other names come from the configuration. -/
def testValue (t : TestInfo) (name : Str) : Option Str :=
  if name = b!"executable" then some (Path.displayString t.target)
  else Command.lookupArg t.config.args name

theorem bound_test (t : TestInfo) (n : Str) :
    Command.bound (Command.addDefaults [] [(b!"executable", Path.displayString t.target)])
      t.config.args n = testValue t n := by
  simp only [Command.bound, Command.addDefaults, List.foldl_cons, List.foldl_nil, Command.addDefault,
    Command.lookupArg, Option.isSome_none, Bool.false_eq_true, if_false, List.nil_append,
    Command.getDefault, testValue]
  by_cases h : n = b!"executable"
  · subst h; simp
  · rw [if_neg (fun e => h e.symm), if_neg h]; rfl

/-- C76.  The command that is run is the given one with its placeholders replaced, in the
given directory. -/
theorem C76_command (answer : Shell) (t : TestInfo) (l : List Seg)
    (hl : ∀ x ∈ l, x.Ok) (ht : t.command = srcs l) (c : Str) (hv : vals (testValue t) l = some c)
    (hc : c ≠ []) : (testRunner answer t).executed = some (c, t.config.dir) := by
  have h : Command.construct (Command.addDefaults [] [(b!"executable", Path.displayString t.target)])
      t.command t.config.args = .value c := by
    rw [Command.construct_value_iff]
    refine ⟨l, hl, ht.symm, ?_⟩
    rw [← hv]; congr 1; funext n; exact bound_test t n
  simp only [testRunner, h, execute, if_neg hc]
  split <;> rfl

/-- C76.  Nothing else is ever run for a test; a command with a placeholder that has no value
or an empty command is a failure. -/
theorem C76_only_command (answer : Shell) (t : TestInfo) :
    (∃ l c, (∀ x ∈ l, Seg.Ok x) ∧ t.command = srcs l ∧ vals (testValue t) l = some c ∧ c ≠ [] ∧
      (testRunner answer t).executed = some (c, t.config.dir) ∧
      (testRunner answer t).ok = (answer c t.config.dir).ok) ∨
    ((testRunner answer t).executed = none ∧ (testRunner answer t).ok = false ∧
      ∀ l c, (∀ x ∈ l, Seg.Ok x) → t.command = srcs l → vals (testValue t) l = some c → c = []) := by
  cases hc : Command.construct
      (Command.addDefaults [] [(b!"executable", Path.displayString t.target)])
      t.command t.config.args with
  | value c =>
    obtain ⟨l, h1, h2, h3⟩ := (Command.construct_value_iff _ _ _ _).1 hc
    have h3' : vals (testValue t) l = some c := by
      rw [← h3]; congr 1; funext n; exact (bound_test t n).symm
    by_cases he : c = []
    · refine .inr ⟨by simp [testRunner, hc, he, execute, TestRun.none], by simp [testRunner, hc, he, execute, TestRun.none], ?_⟩
      intro l' c' hl' ht' hv'
      have : Command.construct (Command.addDefaults [] [(b!"executable", Path.displayString t.target)])
          t.command t.config.args = .value c' := by
        rw [Command.construct_value_iff]
        refine ⟨l', hl', ht'.symm, ?_⟩
        rw [← hv']; congr 1; funext n; exact bound_test t n
      rw [hc, Command.Out.value.injEq] at this
      rw [← this, he]
    · refine .inl ⟨l, c, h1, h2.symm, h3', he, C76_command answer t l h1 h2.symm c h3' he, ?_⟩
      simp only [testRunner, hc, execute, if_neg he]
      cases (answer c t.config.dir).ok <;> rfl
  | fatal =>
    refine .inr ⟨by simp [testRunner, hc, TestRun.none], by simp [testRunner, hc, TestRun.none], ?_⟩
    intro l c hl ht hv
    have : Command.construct (Command.addDefaults [] [(b!"executable", Path.displayString t.target)])
        t.command t.config.args = .value c := by
      rw [Command.construct_value_iff]
      refine ⟨l, hl, ht.symm, ?_⟩
      rw [← hv]; congr 1; funext n; exact bound_test t n
    rw [hc] at this; simp at this
  | unspecified =>
    refine .inr ⟨by simp [testRunner, hc, TestRun.none], by simp [testRunner, hc, TestRun.none], ?_⟩
    intro l c hl ht hv
    have : Command.construct (Command.addDefaults [] [(b!"executable", Path.displayString t.target)])
        t.command t.config.args = .value c := by
      rw [Command.construct_value_iff]
      refine ⟨l, hl, ht.symm, ?_⟩
      rw [← hv]; congr 1; funext n; exact bound_test t n
    rw [hc] at this; simp at this

/-- An example: a test with an argument whose target lies in a directory with a space. -/
def testExample : TestInfo :=
  ⟨b!"/b d/hello", b!"{executable} --n={n} {{}}", ⟨[(b!"n", b!"3")], some b!"/w", .printBoth, false, false⟩⟩

example : (∀ x ∈ [Seg.field b!"executable", .text b!" --n=", .field b!"n", .text b!" ", .openBrace,
      .closeBrace], x.Ok) ∧
    testExample.command = srcs [.field b!"executable", .text b!" --n=", .field b!"n", .text b!" ",
      .openBrace, .closeBrace] ∧
    vals (testValue testExample) [.field b!"executable", .text b!" --n=", .field b!"n", .text b!" ",
      .openBrace, .closeBrace] = some b!"\"/b d/hello\" --n=3 {}" ∧
    testRunner (fun _ _ => ⟨[b!"hi"], [], true⟩) testExample =
      ⟨some (b!"\"/b d/hello\" --n=3 {}", some b!"/w"), .captured [b!"hi"], .captured [],
        [(b!"STDOUT", b!"hi"), (b!"STDERR", [])], true⟩ := by decide +kernel

/-- What a test that was executed did. -/
theorem executed_run {answer : Shell} {t : TestInfo} {c : Str}
    (h : (testRunner answer t).executed = some (c, t.config.dir)) : testRunner answer t =
      if (answer c t.config.dir).ok then
        ⟨some (c, t.config.dir), (streams t.config (answer c t.config.dir)).1,
          (streams t.config (answer c t.config.dir)).2, prints t.config (answer c t.config.dir), true⟩
      else ⟨some (c, t.config.dir), (streams t.config (answer c t.config.dir)).1,
          (streams t.config (answer c t.config.dir)).2, [], false⟩ := by
  simp only [testRunner] at h ⊢
  split at h
  · rename_i v hv
    by_cases he : v = []
    · simp [he, execute, TestRun.none] at h
    · simp only [execute, if_neg he] at h ⊢
      have hvc : v = c := by
        split at h <;> simp only [Option.some.injEq, Prod.mk.injEq, and_true] at h <;> exact h
      subst hvc
      rfl
  · simp [TestRun.none] at h

/-- C76.  Where the output of a test that is run goes: to the console, to the vectors of the
user, or it is kept and, if the test succeeds, printed. -/
theorem C76_output_partial (answer : Shell) (t : TestInfo) (c : Str)
    (h : (testRunner answer t).executed = some (c, t.config.dir)) :
    let a := answer c t.config.dir
    let r := testRunner answer t
    (t.config.type = .defaultBehaviour → r.out = .console ∧ r.err = .console ∧ r.printed = []) ∧
    (t.config.type = .userRedirect → r.printed = [] ∧
      r.out = (if t.config.userOut then .user a.out else .console) ∧
      r.err = (if t.config.userErr then .user a.err else .console)) ∧
    (t.config.type = .printStdout ∨ t.config.type = .printBoth → a.ok = true →
      ∀ x, a.out = [x] → (b!"STDOUT", x) ∈ r.printed) ∧
    (t.config.type = .printStderr ∨ t.config.type = .printBoth → a.ok = true →
      ∀ x, a.err = [x] → (b!"STDERR", x) ∈ r.printed) ∧
    (t.config.type = .printStdout → r.err = .console ∧ ∀ x ∈ r.printed, x.1 = b!"STDOUT") ∧
    (t.config.type = .printStderr → r.out = .console ∧ ∀ x ∈ r.printed, x.1 = b!"STDERR") := by
  have hr := executed_run h
  simp only [hr]
  cases hok : (answer c t.config.dir).ok <;> cases ht : t.config.type <;>
    simp [streams, prints, ht, Command.aggregate] <;> intros <;> simp_all [Command.aggregate]

theorem aggregate_length : ∀ l : List Str, (Command.aggregate l).length = l.flatten.length + (l.length - 1)
  | [] => rfl
  | [a] => by simp [Command.aggregate]
  | a :: b :: l => by
    have := aggregate_length (b :: l)
    simp only [Command.aggregate, List.length_append, List.length_cons, List.flatten_cons] at this ⊢
    omega

theorem aggregate_flatten (l : List Str) : Command.aggregate l = l.flatten ↔ l.length ≤ 1 := by
  constructor
  · intro h
    have := aggregate_length l
    rw [h] at this
    omega
  · intro h
    match l, h with
    | [], _ => rfl
    | [a], _ => simp [Command.aggregate]

/-- C76, exactly: of a test that is run and whose output is to be printed, the output is printed as the test
wrote it if and only if the test succeeded and wrote at most one piece. -/
theorem C76_exact (answer : Shell) (t : TestInfo) (c : Str)
    (h : (testRunner answer t).executed = some (c, t.config.dir)) :
    let a := answer c t.config.dir
    let r := testRunner answer t
    (t.config.type = .printStdout ∨ t.config.type = .printBoth →
      ((b!"STDOUT", a.out.flatten) ∈ r.printed ↔ a.ok = true ∧ a.out.length ≤ 1)) ∧
    (t.config.type = .printStderr ∨ t.config.type = .printBoth →
      ((b!"STDERR", a.err.flatten) ∈ r.printed ↔ a.ok = true ∧ a.err.length ≤ 1)) := by
  have hr := executed_run h
  have h1 := aggregate_flatten (answer c t.config.dir).out
  have h2 := aggregate_flatten (answer c t.config.dir).err
  simp only [hr]
  have n1 : ¬ b!"STDOUT" = b!"STDERR" := by decide
  have n2 : ¬ b!"STDERR" = b!"STDOUT" := by decide
  refine ⟨?_, ?_⟩ <;> rintro (ht | ht) <;> cases hok : (answer c t.config.dir).ok <;>
    simp only [if_true, if_false, Bool.false_eq_true, prints, ht, List.mem_cons, List.not_mem_nil, or_false,
      Prod.mk.injEq, true_and, false_and, false_or, n1, n2, false_iff, not_false_iff, eq_comm (b := Command.aggregate _), h1, h2]

example : testExample.config.type = .printBoth ∧
    (testRunner (fun _ _ => ⟨[b!"hi"], [b!"a", b!"b"], true⟩) testExample).executed =
      some (b!"\"/b d/hello\" --n=3 {}", some b!"/w") := by decide +kernel

/-- C76, what fails: the output of a failing test is not shown anywhere.  It is kept in a
vector that is dropped, because the failure is raised before printing. -/
theorem C76_failed_output_false (answer : Shell) (t : TestInfo)
    (ht : t.config.type = .printBoth) (hf : (testRunner answer t).ok = false) :
    (testRunner answer t).printed = [] ∧ ∀ l, (testRunner answer t).out ≠ .user l ∧
      (testRunner answer t).err ≠ .user l := by
  revert hf
  simp only [testRunner]
  split
  · split
    · simp [TestRun.none]
    · split
      · simp
      · simp [streams, ht]
  · simp [TestRun.none]

/-- C76, what fails: output that arrives in two pieces is printed with a space between
them. -/
theorem C76_pieces_false : ∃ t answer,
    (testRunner answer t).ok = true ∧ (answer b!"/t" none).out = [b!"pas", b!"sed"] ∧
    (testRunner answer t).printed = [(b!"STDOUT", b!"pas sed")] :=
  ⟨⟨b!"/t", b!"{executable}", ⟨[], none, .printStdout, false, false⟩⟩,
    fun _ _ => ⟨[b!"pas", b!"sed"], [], true⟩, by decide +kernel⟩

example : (testRunner (fun _ _ => ⟨[b!"assertion failed"], [], false⟩) testExample).ok = false ∧
    testExample.config.type = .printBoth := by decide +kernel

/-! ## C75 -/

/-- What holds at every point of a schedule. -/
structure TInv (result : Str → TestRun) (ids : List Str) (s : TestState) : Prop where
  perm : s.dead = false → (∀ x ∈ s.ended, x.2.ok = true) →
    (s.waiting ++ s.running ++ s.ended.map (·.1)).Perm ids
  count : ∀ id, (s.waiting ++ s.running ++ s.ended.map (·.1)).count id ≤ ids.count id
  res : ∀ x ∈ s.ended, x.2 = result x.1

theorem tInv_step {policy : Policy} {result : Str → TestRun} {ids : List Str} {s : TestState}
    (h : TInv result ids s) (e : TestEvent) : TInv result ids (testStep policy result s e) := by
  cases e with
  | «begin» id =>
    simp only [testStep]
    split
    · rename_i hg
      simp only [Bool.and_eq_true, Bool.not_eq_true', decide_eq_true_eq] at hg
      have hp : (s.waiting.erase id ++ (s.running ++ [id]) ++ s.ended.map (·.1)).Perm
          (s.waiting ++ s.running ++ s.ended.map (·.1)) := by
        refine List.Perm.append_right _ ?_
        have h1 : s.waiting.Perm (id :: s.waiting.erase id) := List.perm_cons_erase hg.2
        refine List.Perm.trans ?_ (List.Perm.append_right _ h1.symm)
        simp only [List.cons_append]
        rw [← List.append_assoc]
        exact List.perm_append_comm.trans (by simp)
      refine ⟨fun hd he => hp.trans (h.perm hd he), fun i => ?_, h.res⟩
      simp only
      rw [hp.count_eq i]; exact h.count i
    · exact h
  | finish id =>
    simp only [testStep]
    split
    · rename_i hg
      simp only [Bool.and_eq_true, Bool.not_eq_true', decide_eq_true_eq] at hg
      have hp : (s.waiting ++ s.running.erase id ++ (s.ended ++ [(id, result id)]).map (·.1)).Perm
          (s.waiting ++ s.running ++ s.ended.map (·.1)) := by
        have h1 : s.running.Perm (id :: s.running.erase id) := List.perm_cons_erase hg.2
        rw [List.append_assoc, List.append_assoc]
        refine List.Perm.append_left _ ?_
        refine List.Perm.trans ?_ (List.Perm.append_right _ h1.symm)
        simp only [List.map_append, List.map_cons, List.map_nil, List.cons_append]
        rw [← List.append_assoc]
        exact List.perm_append_comm.trans (by simp)
      have hres : ∀ x ∈ s.ended ++ [(id, result id)], x.2 = result x.1 := by
        intro x hx
        rcases List.mem_append.1 hx with hx | hx
        · exact h.res x hx
        · simp only [List.mem_singleton] at hx; subst hx; rfl
      have hc : ∀ i, (s.waiting ++ s.running.erase id ++
          (s.ended ++ [(id, result id)]).map (·.1)).count i ≤ ids.count i := by
        intro i; rw [hp.count_eq i]; exact h.count i
      split
      · refine ⟨fun hd he => ?_, hc, hres⟩
        exact hp.trans (h.perm hd (fun x hx => he x (List.mem_append_left _ hx)))
      · rename_i hbad
        have no : ¬ ∀ x ∈ s.ended ++ [(id, result id)], x.2.ok = true := fun he =>
          hbad (he (id, result id) (by simp))
        split
        · exact ⟨fun hd => by simp at hd, hc, hres⟩
        · refine ⟨fun _ he => absurd he no, fun i => ?_, hres⟩
          refine Nat.le_trans ?_ (hc i)
          simp only [List.nil_append, List.append_assoc, List.count_append]
          omega
    · exact h

theorem tInv_run (policy : Policy) (result : Str → TestRun) (ids : List Str) (evs : List TestEvent) :
    TInv result ids (runTest policy result ids evs) := by
  have : ∀ (s : TestState), TInv result ids s → TInv result ids (evs.foldl (testStep policy result) s) := by
    induction evs with
    | nil => intro s h; exact h
    | cons e l ih => intro s h; exact ih _ (tInv_step h e)
  exact this _ ⟨fun _ _ => by simp, fun _ => by simp, by simp⟩

/-- C75.  At every point of every schedule no test was begun twice, and a test that ended
did what its command does. -/
theorem C75_at_most_once (policy : Policy) (result : Str → TestRun) (ids : List Str)
    (hn : ids.Nodup) (evs : List TestEvent) :
    let s := runTest policy result ids evs
    (s.running ++ s.ended.map (·.1)).Nodup ∧ ∀ x ∈ s.ended, x.1 ∈ ids ∧ x.2 = result x.1 := by
  have h := tInv_run policy result ids evs
  have hc : ∀ i, ((runTest policy result ids evs).running ++
      (runTest policy result ids evs).ended.map (·.1)).count i ≤ ids.count i := by
    intro i
    refine Nat.le_trans ?_ (h.count i)
    rw [List.append_assoc, List.count_append (l₁ := (runTest policy result ids evs).waiting)]
    omega
  refine ⟨?_, fun x hx => ⟨?_, h.res x hx⟩⟩
  · rw [List.nodup_iff_count]
    intro i
    exact Nat.le_trans (hc i) (List.nodup_iff_count.1 hn i)
  · have h1 : 0 < ((runTest policy result ids evs).running ++
        (runTest policy result ids evs).ended.map (·.1)).count x.1 := by
      rw [List.count_pos_iff]
      exact List.mem_append_right _ (List.mem_map_of_mem hx)
    exact List.count_pos_iff.1 (Nat.lt_of_lt_of_le h1 (hc x.1))

/-- C75.  When `RunTest` ends and no test failed, every registered test was run exactly once. -/
theorem C75_all_run (policy : Policy) (result : Str → TestRun) (ids : List Str)
    (evs : List TestEvent) (ho : (runTest policy result ids evs).over = true)
    (hd : (runTest policy result ids evs).dead = false)
    (hok : ∀ x ∈ (runTest policy result ids evs).ended, x.2.ok = true) :
    ((runTest policy result ids evs).ended.map (·.1)).Perm ids := by
  have h := (tInv_run policy result ids evs).perm hd hok
  simp only [TestState.over, hd, Bool.false_or, Bool.and_eq_true, decide_eq_true_eq] at ho
  rw [ho.1, ho.2] at h
  simpa using h

/-- A failure is noticed when exceptions end the process. -/
structure DInv (s : TestState) : Prop where
  dead : s.dead = true ↔ ∃ x ∈ s.ended, x.2.ok = false

/-- C75.  If an exception that leaves a task ends the process, then a failing test does, and
nothing else does.  Missing for the full statement: other versions of taskflow, for which it
is false. -/
theorem C75_failure_partial (result : Str → TestRun) (ids : List Str) (evs : List TestEvent) :
    (runTest .terminate result ids evs).dead = true ↔
      ∃ x ∈ (runTest .terminate result ids evs).ended, x.2.ok = false := by
  have : ∀ (s : TestState), DInv s → DInv (evs.foldl (testStep .terminate result) s) := by
    induction evs with
    | nil => intro s h; exact h
    | cons e l ih =>
      intro s h
      refine ih _ ⟨?_⟩
      have hd := h.dead
      cases e with
      | «begin» id => simp only [testStep]; split <;> exact hd
      | finish id =>
        simp only [testStep]
        split
        · rename_i hg
          simp only [Bool.and_eq_true, Bool.not_eq_true', decide_eq_true_eq] at hg
          split
          · rename_i hok
            simp only [hg.1, Bool.false_eq_true, false_iff] at hd ⊢
            rintro ⟨x, hx, hb⟩
            rcases List.mem_append.1 hx with hx | hx
            · exact hd ⟨x, hx, hb⟩
            · simp only [List.mem_singleton] at hx; subst hx; simp [hok] at hb
          · rename_i hbad
            simp only [true_iff]
            exact ⟨(id, result id), by simp, by simpa using hbad⟩
        · exact hd
  exact (this ⟨ids, [], [], false⟩ ⟨by simp⟩).dead

/-- C75, what fails: if taskflow keeps the exception, `RunTest` returns as after a success
although a test failed, and another test was not run. -/
theorem C75_failure_false : ∃ result ids evs,
    let s := runTest .keep result ids evs
    s.over = true ∧ s.dead = false ∧ s.ended.map (·.1) = [b!"a"] ∧ ids = [b!"a", b!"b"] ∧
      ∀ x ∈ s.ended, x.2.ok = false :=
  ⟨fun _ => TestRun.none, [b!"a", b!"b"], [.begin b!"a", .finish b!"a"], by decide +kernel⟩

example :
    let s := runTest .terminate (fun _ => testRunner (fun _ _ => ⟨[b!"hi"], [], true⟩) testExample)
      [b!"a", b!"b", b!"c"] [.begin b!"b", .begin b!"a", .finish b!"a", .begin b!"c", .finish b!"b", .finish b!"c"]
    s.over = true ∧ s.dead = false ∧ (∀ x ∈ s.ended, x.2.ok = true) ∧
      s.ended.map (·.1) = [b!"a", b!"b", b!"c"] := by decide +kernel

end Verif.Reg
