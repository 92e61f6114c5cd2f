import Verif.Reg.Life
import Verif.Reg.Spec

/-!
# The life of a build script (C74, C75)

The theorems are about every sequence of calls.
-/

namespace Verif.Reg
open Verif

/-! ## Vocabulary -/

/-- The registrations among the calls, in order. -/
def registrations : List Op → List Call
  | [] => []
  | .reg c :: l => c :: registrations l
  | _ :: l => registrations l

/-- The last command line that was parsed in `l`, with no `Args::Deinit` since. -/
def LastLine (l : List Op) (clean : Option Bool) (root build : Str) : Prop :=
  ∃ pre post, l = pre ++ .parse (.good clean root build) :: post ∧
    (∀ o ∈ post, (∀ x, o ≠ .parse x) ∧ o ≠ .argsDeinit)

/-- The call sets or resets the directories of the project. -/
def Op.setsProject : Op → Bool
  | .projectInit _ _ => true
  | .projectDeinit => true
  | .regDeinit => true
  | _ => false

/-! ## Helper lemmas -/

theorem ops_append (n : Nat) (s : State) (l m : List Op) :
    ops n s (l ++ m) = ops n (ops n s l) m := by
  induction l generalizing s with
  | nil => cases s <;> rfl
  | cons o l ih =>
    cases s with
    | «at» p => simp only [List.cons_append, ops]; exact ih _
    | exit k => simp only [List.cons_append, ops]; cases m <;> rfl
    | hangs => simp only [List.cons_append, ops]; cases m <;> rfl

theorem script_snoc {n : Nat} {l : List Op} {o : Op} {p : Proc}
    (h : script n (l ++ [o]) = .at p) : ∃ q, script n l = .at q ∧ op n q o = .at p := by
  rw [script, ops_append] at h
  rw [script]
  cases hs : ops n (.at Proc.init) l with
  | «at» q => rw [hs] at h; exact ⟨q, rfl, by simpa [ops] using h⟩
  | exit k => rw [hs] at h; simp [ops] at h
  | hangs => rw [hs] at h; simp [ops] at h

theorem snoc_induction {P : List α → Prop} (h0 : P []) (h1 : ∀ l a, P l → P (l ++ [a])) (l : List α) :
    P l := by
  rw [← List.reverse_reverse l]
  induction l.reverse with
  | nil => exact h0
  | cons a l ih => rw [List.reverse_cons]; exact h1 _ _ ih

theorem registrations_append (l m : List Op) :
    registrations (l ++ m) = registrations l ++ registrations m := by
  induction l with
  | nil => rfl
  | cons o l ih => cases o <;> simp [registrations, ih]

theorem calls_snoc {n : Nat} {s t : Script} {l : List Call} {c : Call}
    (h : calls n s l = .ok t) : calls n s (l ++ [c]) = call n t c := by
  induction l generalizing s with
  | nil =>
    simp only [calls, Outcome.ok.injEq] at h; subst h
    simp only [List.nil_append, calls]
    cases call n s c <;> rfl
  | cons a l ih =>
    simp only [List.cons_append, calls] at h ⊢
    cases ha : call n s a with
    | ok s' => rw [ha] at h; exact ih h
    | fatal => rw [ha] at h; simp at h
    | running => rw [ha] at h; simp at h

/-- Parsed arguments come from a command line. -/
theorem lastLine_of_parsed {n : Nat} (l : List Op) : ∀ {p : Proc}, script n l = .at p →
    p.args = some true → ∃ clean, LastLine l clean p.root p.build := by
  induction l using snoc_induction with
  | h0 => intro p h; simp only [script, ops, State.at.injEq] at h; subst h; simp [Proc.init]
  | h1 l o ih =>
    intro p h ha
    obtain ⟨q, hq, ho⟩ := script_snoc h
    have keep : ∀ (_ : q.args = some true) (_ : p.root = q.root) (_ : p.build = q.build)
        (_ : (∀ x, o ≠ .parse x) ∧ o ≠ .argsDeinit), ∃ clean, LastLine (l ++ [o]) clean p.root p.build := by
      intro ha hr hb hne
      obtain ⟨c, pre, post, rfl, hp⟩ := ih hq ha
      refine ⟨c, pre, post ++ [o], by simp [hr, hb], ?_⟩
      intro x hx
      rcases List.mem_append.1 hx with hx | hx
      · exact hp x hx
      · simp only [List.mem_singleton] at hx; subst hx; exact hne
    cases o with
    | argsInit =>
      simp only [op, State.at.injEq] at ho
      split at ho <;> subst ho
      · exact keep ha rfl rfl (by simp)
      · simp at ha
    | argsDeinit => simp only [op, State.at.injEq] at ho; subst ho; simp at ha
    | parse x =>
      simp only [op] at ho
      split at ho
      · simp at ho
      · simp at ho
      · rename_i c r b _
        simp only [State.at.injEq] at ho; subst ho
        exact ⟨c, l, [], rfl, by simp⟩
    | projectInit r b => simp only [op, State.at.injEq] at ho; subst ho; exact keep ha rfl rfl (by simp)
    | projectDeinit => simp only [op, State.at.injEq] at ho; subst ho; exact keep ha rfl rfl (by simp)
    | regInit cwd =>
      simp only [op] at ho
      split at ho
      · simp only [State.at.injEq] at ho; subst ho; exact keep ha rfl rfl (by simp)
      · split at ho
        · rename_i ha'
          simp only [State.at.injEq] at ho; subst ho; exact keep ha' rfl rfl (by simp)
        · simp at ho
    | regDeinit => simp only [op, State.at.injEq] at ho; subst ho; exact keep ha rfl rfl (by simp)
    | reg c =>
      simp only [op] at ho
      split at ho
      · simp at ho
      · split at ho
        · simp only [State.at.injEq] at ho; subst ho; exact keep ha rfl rfl (by simp)
        · simp at ho
        · simp at ho
    | run cb ok =>
      simp only [op] at ho
      split at ho
      · simp at ho
      · split at ho
        · simp only [State.at.injEq] at ho; subst ho; exact keep ha rfl rfl (by simp)
        · simp at ho

/-! ## C74 -/

/-- C74.  When something can be registered, the script is `pre`, `Reg::Init`, `post`, where
the arguments were parsed in `pre`, there is no `Reg::Deinit` in `post`, and exactly what
was registered in `post` is registered. -/
theorem C74_initialized (n : Nat) (l : List Op) (p : Proc) (s : Script)
    (h : script n l = .at p) (hs : p.reg = some s) :
    ∃ pre cwd post q clean, l = pre ++ .regInit cwd :: post ∧ script n pre = .at q ∧ q.reg = none ∧
      LastLine pre clean q.root q.build ∧ .regDeinit ∉ post ∧
      calls n ⟨Graph.empty, []⟩ (registrations post) = .ok s ∧
      ((∀ o ∈ post, o.setsProject = false) →
        p.project = some (Path.append cwd q.root, Path.append cwd q.build)) := by
  induction l using snoc_induction generalizing p s with
  | h0 => simp only [script, ops, State.at.injEq] at h; subst h; simp [Proc.init] at hs
  | h1 l o ih =>
    obtain ⟨q, hq, ho⟩ := script_snoc h
    -- calls that change neither the registration nor the project
    have keep : ∀ (_ : q.reg = some s) (_ : o.setsProject = false → p.project = q.project)
        (_ : registrations [o] = []) (_ : o ≠ .regDeinit),
        ∃ pre cwd post q clean, l ++ [o] = pre ++ .regInit cwd :: post ∧ script n pre = .at q ∧
          q.reg = none ∧ LastLine pre clean q.root q.build ∧ .regDeinit ∉ post ∧
          calls n ⟨Graph.empty, []⟩ (registrations post) = .ok s ∧
          ((∀ o ∈ post, o.setsProject = false) →
            p.project = some (Path.append cwd q.root, Path.append cwd q.build)) := by
      intro hr hp hreg hne
      obtain ⟨pre, cwd, post, q', c, rfl, h1, h2, h3, h4, h5, h6⟩ := ih q s hq hr
      refine ⟨pre, cwd, post ++ [o], q', c, by simp, h1, h2, h3, ?_, ?_, ?_⟩
      · simp [h4, hne.symm]
      · rw [registrations_append, hreg, List.append_nil]; exact h5
      · intro hall
        rw [hp (hall o (by simp))]
        exact h6 (fun x hx => hall x (by simp [hx]))
    cases o with
    | argsInit =>
      simp only [op, State.at.injEq] at ho
      split at ho <;> subst ho <;> exact keep hs (fun _ => rfl) rfl (by simp)
    | argsDeinit => simp only [op, State.at.injEq] at ho; subst ho; exact keep hs (fun _ => rfl) rfl (by simp)
    | parse x =>
      simp only [op] at ho
      split at ho
      · simp at ho
      · simp at ho
      · simp only [State.at.injEq] at ho; subst ho; exact keep hs (fun _ => rfl) rfl (by simp)
    | projectInit r b =>
      simp only [op, State.at.injEq] at ho; subst ho; exact keep hs (by simp [Op.setsProject]) rfl (by simp)
    | projectDeinit =>
      simp only [op, State.at.injEq] at ho; subst ho; exact keep hs (by simp [Op.setsProject]) rfl (by simp)
    | regInit cwd =>
      simp only [op] at ho
      split at ho
      · simp only [State.at.injEq] at ho; subst ho; exact keep hs (fun _ => rfl) rfl (by simp)
      · rename_i hr
        split at ho
        · rename_i ha
          simp only [State.at.injEq] at ho; subst ho
          simp only [Option.some.injEq] at hs; subst hs
          obtain ⟨c, hc⟩ := lastLine_of_parsed l hq ha
          exact ⟨l, cwd, [], q, c, rfl, hq, hr, hc, by simp, rfl, fun _ => rfl⟩
        · simp at ho
    | regDeinit => simp only [op, State.at.injEq] at ho; subst ho; simp at hs
    | reg c =>
      simp only [op] at ho
      split at ho
      · simp at ho
      · rename_i s0 hr
        split at ho
        · rename_i s' hcall
          simp only [State.at.injEq] at ho; subst ho
          simp only [Option.some.injEq] at hs; subst hs
          obtain ⟨pre, cwd, post, q', c', rfl, h1, h2, h3, h4, h5, h6⟩ := ih q s0 hq hr
          refine ⟨pre, cwd, post ++ [.reg c], q', c', by simp, h1, h2, h3, by simp [h4], ?_, ?_⟩
          · rw [registrations_append]
            simp only [registrations]
            rw [calls_snoc h5]; exact hcall
          · intro hall
            exact h6 (fun x hx => hall x (by simp [hx]))
        · simp at ho
        · simp at ho
    | run cb ok =>
      simp only [op] at ho
      split at ho
      · simp at ho
      · split at ho
        · simp only [State.at.injEq] at ho; subst ho; exact keep hs (fun _ => rfl) rfl (by simp)
        · simp at ho

/-- C74.  Without `Reg::Init` since the start or the last `Reg::Deinit`, registering (even
under a condition that is false) and running end the process with status 1. -/
theorem C74_not_initialized (n : Nat) (l post : List Op) (hp : ∀ cwd, .regInit cwd ∉ post) (o : Op)
    (ho : (∃ c, o = .reg c) ∨ ∃ cb ok, o = .run cb ok)
    (hl : l = post ∨ ∃ pre, l = pre ++ .regDeinit :: post) (q : Proc) (hq : script n l = .at q) :
    script n (l ++ [o]) = .exit 1 := by
  have e : script n (l ++ [o]) = op n q o := by
    rw [script, ops_append, ← script, hq]; rfl
  cases hs : q.reg with
  | none => rcases ho with ⟨c, rfl⟩ | ⟨cb, ok, rfl⟩ <;> simp [e, op, hs]
  | some s =>
    exfalso
    obtain ⟨pre', cwd, post', -, -, e, -, -, -, hn, -⟩ := C74_initialized n l q s hq hs
    rcases hl with rfl | ⟨pre, rfl⟩
    · exact hp cwd (by rw [e]; simp)
    · rcases List.append_eq_append_iff.1 e with ⟨a, rfl, h2⟩ | ⟨a, rfl, h2⟩
      · cases a with
        | nil => simp at h2
        | cons x a =>
          simp only [List.cons_append, List.cons.injEq] at h2
          exact hp cwd (by rw [h2.2]; simp)
      · cases a with
        | nil => simp at h2
        | cons x a =>
          simp only [List.cons_append, List.cons.injEq] at h2
          exact hn (by rw [h2.2]; simp)

/-- C74.  `Reg::Init` without parsed arguments is fatal; a second `Reg::Init` does nothing. -/
theorem C74_init (n : Nat) (l : List Op) (p : Proc) (h : script n l = .at p) (cwd : Str) :
    (p.reg = none → p.args ≠ some true → script n (l ++ [.regInit cwd]) = .exit 1) ∧
    (p.reg ≠ none → script n (l ++ [.regInit cwd]) = .at p) := by
  have e : script n (l ++ [.regInit cwd]) = op n p (.regInit cwd) := by
    rw [script, ops_append, ← script, h]; rfl
  rw [e]
  constructor
  · intro hr ha; simp [op, hr, ha]
  · intro hr
    cases hs : p.reg with
    | none => exact absurd hs hr
    | some s => simp [op, hs]

/-- C74.  The arguments count as parsed exactly when a command line was parsed and there is
no `Args::Deinit` since. -/
theorem C74_parsed (n : Nat) (l : List Op) (p : Proc) (h : script n l = .at p) :
    p.args = some true ↔ ∃ clean root build, LastLine l clean root build := by
  constructor
  · intro ha
    obtain ⟨c, hc⟩ := lastLine_of_parsed l h ha
    exact ⟨c, _, _, hc⟩
  · rintro ⟨c, r, b, pre, post, rfl, hp⟩
    induction post using snoc_induction generalizing p with
    | h0 =>
      obtain ⟨q, -, ho⟩ := script_snoc h
      simp only [op] at ho
      split at ho
      · simp at ho
      · simp at ho
      · simp only [State.at.injEq] at ho; subst ho; rfl
    | h1 post o ih =>
      have h' : script n ((pre ++ .parse (.good c r b) :: post) ++ [o]) = .at p := by simpa using h
      obtain ⟨q, hq, ho⟩ := script_snoc h'
      have hq' := ih q (fun x hx => hp x (by simp [hx])) hq
      obtain ⟨h1, h2⟩ := hp o (by simp)
      cases o with
      | argsInit => simp only [op, hq', State.at.injEq] at ho; rw [← ho]; simpa using hq'
      | argsDeinit => exact absurd rfl h2
      | parse x => exact absurd rfl (h1 x)
      | projectInit r b => simp only [op, State.at.injEq] at ho; rw [← ho]; exact hq'
      | projectDeinit => simp only [op, State.at.injEq] at ho; rw [← ho]; exact hq'
      | regInit cwd =>
        simp only [op] at ho
        split at ho
        · simp only [State.at.injEq] at ho; rw [← ho]; exact hq'
        · split at ho
          · simp only [State.at.injEq] at ho; rw [← ho]; exact hq'
          · rename_i hne; exact absurd hq' hne
      | regDeinit => simp only [op, State.at.injEq] at ho; rw [← ho]; exact hq'
      | reg c =>
        simp only [op] at ho
        split at ho
        · simp at ho
        · split at ho
          · simp only [State.at.injEq] at ho; rw [← ho]; exact hq'
          · simp at ho
          · simp at ho
      | run cb ok =>
        simp only [op] at ho
        split at ho
        · simp at ho
        · split at ho
          · simp only [State.at.injEq] at ho; rw [← ho]; exact hq'
          · simp at ho

/-- C74.  The function for the end of the process is installed exactly when `Reg::Init` was called.
After it nothing is left of the project, the arguments and what was registered: whatever needs them
ends the process with status 1.  Being installed several times is harmless. -/
theorem C74_exit (n : Nat) (l : List Op) (p : Proc) (h : script n l = .at p) :
    (0 < p.hooks ↔ ∃ cwd, .regInit cwd ∈ l) ∧ hook (hook p) = hook p ∧ (hook p).project = none ∧
    (hook p).did = p.did ∧
    ∀ o, (∃ x, o = .parse x) ∨ (∃ cwd, o = .regInit cwd) ∨ (∃ c, o = .reg c) ∨ (∃ cb ok, o = .run cb ok) →
      op n (hook p) o = .exit 1 := by
  refine ⟨?_, rfl, rfl, rfl, ?_⟩
  · suffices hs : (0 < p.hooks ↔ ∃ cwd, .regInit cwd ∈ l) ∧ (p.reg.isSome = true → 0 < p.hooks) from hs.1
    revert p h
    refine snoc_induction (P := fun l => ∀ p, script n l = .at p →
      (0 < p.hooks ↔ ∃ cwd, .regInit cwd ∈ l) ∧ (p.reg.isSome = true → 0 < p.hooks)) ?_ ?_ l
    · intro p h
      simp only [script, ops, State.at.injEq] at h
      subst h
      simp [Proc.init]
    · intro l o ih p h
      obtain ⟨q, hq, ho⟩ := script_snoc h
      obtain ⟨ih1, ih2⟩ := ih q hq
      cases o <;> simp only [op] at ho
      case argsInit =>
        cases ho
        split <;> simp_all
      case argsDeinit => cases ho; simp_all
      case parse x =>
        split at ho <;> simp only [State.at.injEq, reduceCtorEq] at ho
        subst ho
        simp_all
      case projectInit => cases ho; simp_all
      case projectDeinit => cases ho; simp_all
      case regInit cwd =>
        split at ho
        · rename_i s hs
          cases ho
          have := ih2 (by simp [hs])
          exact ⟨⟨fun _ => ⟨cwd, by simp⟩, fun _ => this⟩, fun _ => this⟩
        · split at ho
          · cases ho
            exact ⟨⟨fun _ => ⟨cwd, by simp⟩, fun _ => by simp⟩, fun _ => by simp⟩
          · cases ho
      case regDeinit => cases ho; simp_all
      case reg c =>
        split at ho
        · cases ho
        · split at ho <;> simp only [State.at.injEq, reduceCtorEq] at ho
          subst ho
          simp_all
      case run =>
        split at ho
        · cases ho
        · split at ho <;> simp only [State.at.injEq, reduceCtorEq] at ho
          subst ho
          simp_all
  · rintro o (⟨x, rfl⟩ | ⟨cwd, rfl⟩ | ⟨c, rfl⟩ | ⟨cb, ok, rfl⟩) <;> simp [op, hook]

/-- A script with two builders, its second `Reg::Init` ignored. -/
def lifeExample : List Op :=
  [.argsInit, .parse (.good none b!"src" b!"/tmp/out"), .regInit b!"/home/u",
    .reg (.build ⟨true, false⟩ b!"a"), .regInit b!"/", .reg (.build ⟨true, false⟩ b!"b"),
    .reg (.dep ⟨true, false⟩ b!"b" b!"a"), .run true true]

example : script 10 lifeExample = .at ⟨some true, false, b!"src", b!"/tmp/out",
    some (b!"/home/u/src", b!"/tmp/out"),
    some ⟨⟨[b!"a", b!"b"], [(b!"a", b!"b")], []⟩, []⟩, 1,
    [.built [b!"a", b!"b"], .postBuild, .tested []]⟩ := by decide +kernel

example : script 10 [.argsInit, .regInit b!"/"] = .exit 1 ∧
    script 10 [.argsInit, .parse (.good none b!"" b!""), .regInit b!"/", .regDeinit,
      .reg (.func ⟨false, false⟩ 0)] = .exit 1 := by decide +kernel

/-- Deinitialised and initialised again, what was registered before is forgotten. -/
example : (match script 10 (lifeExample ++ [.regDeinit, .regInit b!"/x", .reg (.build ⟨true, false⟩ b!"b")]) with
    | .at p => (p.reg.map (·.graph.ids), p.project)
    | _ => (none, none)) = (some [b!"b"], some (b!"/x/src", b!"/tmp/out")) := by decide +kernel

/-- Initialised twice, the function is installed twice. -/
example : (match script 10 (lifeExample ++ [.regDeinit, .regInit b!"/x"]) with
    | .at p => decide (p.hooks = 2 ∧ op 10 (hook p) (.run false true) = .exit 1)
    | _ => false) = true := by decide

/-- Calls other than these leave the directories of the project alone. -/
theorem op_project {n : Nat} {p q : Proc} {o : Op} (h : op n p o = .at q) (hs : o.setsProject = false)
    (hr : ∀ cwd, o ≠ .regInit cwd) : q.project = p.project := by
  cases o with
  | regInit cwd => exact absurd rfl (hr cwd)
  | projectInit r b => simp [Op.setsProject] at hs
  | projectDeinit => simp [Op.setsProject] at hs
  | regDeinit => simp [Op.setsProject] at hs
  | _ =>
    revert h
    simp only [op]
    repeat' split
    all_goals
      intro h
      first
        | (simp only [State.at.injEq] at h; rw [← h])
        | (exact absurd h (by simp))

/-- C74.  `Project::Init` sets the directories; `Project::Deinit` and `Reg::Deinit` take them down;
without `Project::Init` and `Reg::Init` since, they stay as they are. -/
theorem C74_project (n : Nat) (pre post : List Op) (o : Op)
    (hp : ∀ x ∈ post, x.setsProject = false ∧ ∀ cwd, x ≠ .regInit cwd) (p : Proc)
    (h : script n (pre ++ o :: post) = .at p) :
    (∀ r b, o = .projectInit r b → p.project = some (r, b)) ∧
    (o = .projectDeinit ∨ o = .regDeinit → p.project = none) := by
  induction post using snoc_induction generalizing p with
  | h0 =>
    obtain ⟨q, -, ho⟩ := script_snoc h
    constructor
    · intro r b e
      rw [e] at ho
      simp only [op, State.at.injEq] at ho
      rw [← ho]
    · rintro (e | e) <;>
        (rw [e] at ho; simp only [op, State.at.injEq] at ho; rw [← ho])
  | h1 post x ih =>
    have h' : script n ((pre ++ o :: post) ++ [x]) = .at p := by simpa using h
    obtain ⟨q, hq, hx⟩ := script_snoc h'
    have hpx := hp x (by simp)
    rw [op_project hx hpx.1 hpx.2]
    exact ih (fun y hy => hp y (by simp [hy])) q hq

/-- C74.  A command line that CLI11 refuses ends the process with the status that CLI11 asks for,
when the arguments were initialised, and with status 1 otherwise. -/
theorem C74_bad_line (n : Nat) (l : List Op) (p : Proc) (h : script n l = .at p) (s : Nat) :
    script n (l ++ [.parse (.bad s)]) = .exit (if p.args.isSome then s else 1) := by
  have e : script n (l ++ [.parse (.bad s)]) = op n p (.parse (.bad s)) := by
    rw [script, ops_append, ← script, h]; rfl
  rw [e]
  cases ha : p.args <;> simp [op, ha]

example := C74_project 9 [.projectInit b!"/a" b!"/b"] [.argsInit, .argsDeinit] .regDeinit
  (by simp [Op.setsProject]) _ rfl

example : script 9 [.argsInit, .parse (.bad 106)] = .exit 106 := by decide

/-- C74, what fails: the `--clean` flag outlives `Args::Deinit`.  After a command line with
the flag, a later one without it still asks for a clean build. -/
theorem C74_clean_false :
    ∃ l root build p, LastLine l none root build ∧ script 0 l = .at p ∧ p.clean = true := by
  refine ⟨[.argsInit, .parse (.good (some true) b!"" b!"b"), .argsDeinit, .argsInit,
    .parse (.good none b!"" b!"b")], b!"", b!"b",
    ⟨some true, true, b!"", b!"b", none, none, 0, []⟩, ?_, by decide +kernel, rfl⟩
  exact ⟨[.argsInit, .parse (.good (some true) b!"" b!"b"), .argsDeinit, .argsInit], [], rfl, by simp⟩

/-! ## C75 -/

/-- C75.  `Reg::Run` builds what is registered, then calls the given function, then runs the
registered tests; after a failed build the process ends with status 1 and neither the
function nor a test is run. -/
theorem C75_run_order (n : Nat) (l : List Op) (p : Proc) (s : Script) (h : script n l = .at p)
    (hs : p.reg = some s) (callback : Bool) :
    (∃ q, script n (l ++ [.run callback true]) = .at q ∧
      q.did = p.did ++ [.built s.graph.ids] ++ (if callback then [.postBuild] else []) ++ [.tested s.graph.tests]) ∧
    script n (l ++ [.run callback false]) = .exit 1 := by
  have e : ∀ o, script n (l ++ [o]) = op n p o := by
    intro o; rw [script, ops_append, ← script, h]; rfl
  simp [e, op, hs]

end Verif.Reg
