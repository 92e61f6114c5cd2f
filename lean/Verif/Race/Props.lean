import Verif.Race.Lemmas

/-!
# C83: data races and deadlocks of a parallel build

The statements use `Reachable`, `RaceOn`, `Step` and `Plan` of `Verif.Race.Model`.
-/

namespace Verif.Race
open Verif

/-! ## What each task touches -/

/-- The tasks of targets and of generators. -/
def Task.ofTarget : Task → Bool
  | .pch _ | .objects _ | .compile .. | .link _ | .finish _ => true
  | _ => false

/-- Where the tasks of a builder may read and write. -/
def Own (t : Task) (b : Str) (w : Bool) (l : Loc) : Prop :=
  l = .taskState ∨ (l = .project ∧ w = false) ∨
  (t.ofTarget = true ∧ ∃ f, l = .target b f) ∨ (t.ofTarget = false ∧ ∃ f, l = .gen b f)

theorem accs_all_map {α : Type} (H : List Mutex) (f : α → Code) (l : List α)
    (x : Bool × Loc × List Mutex) :
    x ∈ accs H (Code.all (l.map f)) ↔ ∃ a ∈ l, x ∈ accs H (f a) := by
  induction l with
  | nil => simp [Code.all, accs]
  | cons a l ih => simp [Code.all, accs, ih]

theorem accs_own (P : Plan) (t : Task) (b : Str) (i : Nat) (hp : t.place = some (b, i))
    (w : Bool) (l : Loc) (H : List Mutex) (h : (w, l, H) ∈ accs [] (P.code t)) : Own t b w l := by
  cases t <;> simp only [Task.place, Option.some.injEq, Prod.mk.injEq, reduceCtorEq] at hp <;>
    obtain ⟨rfl, -⟩ := hp
  case store b =>
    simp only [Plan.code, storeCode, accs, List.mem_append, accs_all_map, setTaskState,
      getTaskState, Code.all] at h
    rcases h with (⟨a, -, h⟩ | h) | h
    · simp only [List.mem_cons, List.not_mem_nil, or_false, false_or, Prod.mk.injEq] at h
      rcases h with ⟨rfl, rfl, -⟩ | ⟨rfl, rfl, -⟩ <;> simp [Own, Task.ofTarget]
    · simp only [List.mem_cons, List.not_mem_nil, or_false, false_or, Prod.mk.injEq] at h
      rcases h with ⟨rfl, rfl, -⟩ | ⟨rfl, rfl, -⟩ | ⟨rfl, rfl, -⟩ | ⟨rfl, rfl, -⟩ | ⟨rfl, rfl, -⟩ |
        ⟨rfl, rfl, -⟩ | ⟨rfl, rfl, -⟩ <;> simp [Own, Task.ofTarget]
    · simp only [List.mem_cons, List.not_mem_nil, or_false, false_or, Prod.mk.injEq] at h
      rcases h with ⟨rfl, rfl, -⟩ | ⟨rfl, rfl, -⟩ <;> simp [Own, Task.ofTarget]
  all_goals
    simp only [Plan.code, pchCode, objectsCode, compileCode, linkCode, finishCode, idsCode, idCode,
      ifSuccess, addSource, accs, setTaskState, getTaskState, Code.all, List.mem_append,
      List.mem_cons, List.not_mem_nil, or_false, false_or, Prod.mk.injEq] at h
    simp only [Own, Task.ofTarget]
    grind

theorem accs_test {b : Str} {v : List Nat} {w : Bool} {l : Loc} {H : List Mutex}
    (h : (w, l, H) ∈ accs [] (testCode b v)) : w = false ∨ ∃ n ∈ v, l = .redirect n := by
  simp only [testCode, accs, List.mem_append, accs_all_map, List.mem_cons, List.not_mem_nil,
    or_false, Prod.mk.injEq] at h
  rcases h with (⟨rfl, -⟩ | ⟨rfl, -⟩) | ⟨n, hn, -, rfl, -⟩
  · exact .inl rfl
  · exact .inl rfl
  · exact .inr ⟨n, hn, rfl⟩

theorem accs_test_redirect {b : Str} {v : List Nat} {w : Bool} {n : Nat} {H : List Mutex}
    (h : (w, Loc.redirect n, H) ∈ accs [] (testCode b v)) : n ∈ v := by
  simp only [testCode, accs, List.mem_append, accs_all_map, List.mem_cons, List.not_mem_nil,
    or_false, Prod.mk.injEq, reduceCtorEq, false_and, and_false, false_or] at h
  obtain ⟨m, hm, -, h, -⟩ := h
  simp only [Loc.redirect.injEq] at h
  exact h ▸ hm

theorem accs_compile {b : Str} {w : Bool} {l : Loc} {H : List Mutex}
    (h : (w, l, H) ∈ accs [] (compileCode b)) :
    l = .taskState ∨ (w = false ∧ l = .target b .objectFiles) ∨
      (l = .target b .storeSources ∧ Mutex.addSource b ∈ H) := by
  simp only [compileCode, addSource, accs, setTaskState, getTaskState, List.mem_append,
      List.mem_cons, List.not_mem_nil, or_false, false_or, Prod.mk.injEq] at h
  grind

theorem accs_id {b s : Str} {w : Bool} {l : Loc} {H : List Mutex}
    (h : (w, l, H) ∈ accs [] (idCode b s)) :
    l = .taskState ∨ (w = false ∧ l ∈ [Loc.gen b .comparator, .gen b .load, .gen b .ids,
      .gen b .command]) ∨ l = .gen b (.idInfo s) ∨ l = .gen b (.state s) := by
  simp only [idCode, ifSuccess, Code.all, accs, setTaskState, getTaskState, List.mem_append,
      List.mem_cons, List.not_mem_nil, or_false, false_or, Prod.mk.injEq] at h
  simp only [List.mem_cons, List.not_mem_nil, or_false]
  grind

/-- Writes of the task state are made with its mutex held. -/
theorem accs_taskState (P : Plan) (t : Task) (ht : t ≠ .before) (ht' : t ≠ .after) (hp : t ≠ .post)
    (H : List Mutex) (h : (true, Loc.taskState, H) ∈ accs [] (P.code t)) :
    Mutex.taskState ∈ H := by
  cases t
  case before => exact absurd rfl ht
  case after => exact absurd rfl ht'
  case post => exact absurd rfl hp
  case test b => rcases accs_test h with h | ⟨n, -, h⟩ <;> simp at h
  case store b =>
    simp only [Plan.code, storeCode, accs, List.mem_append, accs_all_map, setTaskState,
      getTaskState, Code.all, List.mem_cons, List.not_mem_nil, or_false, false_or, Prod.mk.injEq,
      reduceCtorEq, false_and, and_false, exists_false, Bool.true_eq_false, true_and] at h
    exact h ▸ List.mem_cons_self
  all_goals
    simp only [Plan.code, pchCode, objectsCode, compileCode, linkCode, finishCode, idsCode, idCode,
      ifSuccess, addSource, accs, setTaskState, getTaskState, Code.all, List.mem_append,
      List.mem_cons, List.not_mem_nil, or_false, false_or, Prod.mk.injEq,
      reduceCtorEq, false_and, and_false, Bool.true_eq_false, true_and] at h
    exact h ▸ List.mem_cons_self

/-! ## Two running tasks -/

theorem running_unordered {P : Plan} {σ : State} (hi : Inv P σ) {t u : Task} {p q p' q' : List Act}
    (ht : σ.status t = .running p q) (hu : σ.status u = .running p' q') : ¬ Before P t u := by
  intro hb
  have := (hi.body u _ _ hu).2.2 t (hi.body t _ _ ht).1 hb
  rw [ht] at this
  simp at this

/-- The next access of a running task, with the mutexes it owns. -/
theorem running_accs {P : Plan} {σ : State} (hi : Inv P σ) {t : Task} {p q : List Act} {a : Act}
    {w : Bool} {l : Loc} (ht : σ.status t = .running p (a :: q)) (ha : a.access = some (w, l)) :
    ∃ H, (w, l, H) ∈ accs [] (P.code t) ∧ ∀ m ∈ H, σ.owner m = some t :=
  ⟨held [] p, path_accs (hi.body t _ _ ht).2.1 [] p q a w l rfl ha, hi.owns t _ _ ht⟩

theorem conflict_access {l : Loc} {a b : Act} (h : Conflict l a b) :
    ∃ w v, a.access = some (w, l) ∧ b.access = some (v, l) ∧ (w = true ∨ v = true) := by
  rcases h with ⟨rfl, rfl⟩ | ⟨rfl, rfl⟩ | ⟨rfl, rfl⟩
  · exact ⟨true, true, rfl, rfl, .inl rfl⟩
  · exact ⟨true, false, rfl, rfl, .inl rfl⟩
  · exact ⟨false, true, rfl, rfl, .inr rfl⟩

/-- Neither of two tasks that run at the same time is the main thread; if one is a test so is
the other. -/
theorem two_running {P : Plan} {σ : State} (hi : Inv P σ) {t u : Task} {p q p' q' : List Act}
    (hn : t ≠ u) (ht : σ.status t = .running p q) (hu : σ.status u = .running p' q') :
    (∃ b c, t = .test b ∧ u = .test c) ∨
    ∃ a i b j, t.place = some (a, i) ∧ u.place = some (b, j) ∧ (a = b → i = j) := by
  have h1 := running_unordered hi ht hu
  have h2 := running_unordered hi hu ht
  have nb : ∀ {x y : Task}, x ≠ y → ¬ Before P x y → x ≠ .before := by
    rintro x y hxy hb rfl
    exact hb (.inl ⟨rfl, fun e => hxy e.symm⟩)
  have na : ∀ {x y : Task}, x ≠ y → ¬ Before P y x → x ≠ .after := by
    rintro x y hxy hb rfl
    exact hb (.inr (.inl ⟨fun e => hxy e.symm, rfl⟩))
  have np : ∀ {x y : Task}, x ≠ y → ¬ Before P x y → ¬ Before P y x → x ≠ .post := by
    rintro x y hxy hb hc rfl
    cases y <;> first
      | exact hxy rfl
      | (refine hb ?_; simp [Before, Task.place]; done)
      | (refine hc ?_; simp [Before, Task.place]; done)
  have kind : ∀ x : Task, x ≠ .before → x ≠ .after → x ≠ .post →
      (∃ b, x = .test b) ∨ ∃ b i, x.place = some (b, i) := by
    intro x hb ha hp
    cases x <;> simp_all [Task.place]
  rcases kind t (nb hn h1) (na hn h2) (np hn h1 h2) with ⟨b, rfl⟩ | ⟨a, i, hp⟩ <;>
    rcases kind u (nb (Ne.symm hn) h2) (na (Ne.symm hn) h1)
      (np (Ne.symm hn) h2 h1) with ⟨c, rfl⟩ | ⟨b', j, hp'⟩
  · exact .inl ⟨b, c, rfl, rfl⟩
  · exact absurd (.inr (.inr (.inl ⟨by rw [hp']; rfl, .inr ⟨b, rfl⟩⟩))) h2
  · exact absurd (.inr (.inr (.inl ⟨by rw [hp]; rfl, .inr ⟨c, rfl⟩⟩))) h1
  · refine .inr ⟨a, i, b', j, hp, hp', ?_⟩
    rintro rfl
    rcases Nat.lt_trichotomy i j with h | h | h
    · exact absurd (.inr (.inr (.inr (.inr ⟨a, i, a, j, hp, hp', .inl ⟨rfl, h⟩⟩)))) h1
    · exact h
    · exact absurd (.inr (.inr (.inr (.inr ⟨a, j, a, i, hp', hp, .inl ⟨rfl, h⟩⟩)))) h2

/-- Two different tasks at the same place of a builder, of the same kind, are both tasks of
sources or both tasks of ids. -/
theorem same_place {t u : Task} {b : Str} {i : Nat} (hn : t ≠ u) (ht : t.place = some (b, i))
    (hu : u.place = some (b, i)) (hk : t.ofTarget = u.ofTarget) :
    (∃ m n, t = .compile b m ∧ u = .compile b n) ∨
      ∃ r s, t = .id b r ∧ u = .id b s ∧ r ≠ s := by
  cases t <;> simp only [Task.place, Option.some.injEq, Prod.mk.injEq, reduceCtorEq] at ht <;>
    obtain ⟨rfl, rfl⟩ := ht <;>
    cases u <;> simp only [Task.place, Option.some.injEq, Prod.mk.injEq, reduceCtorEq]
      at hu <;> obtain ⟨rfl, hq⟩ := hu <;> simp_all [Task.ofTarget]

/-! ## C83 -/

/-- In every state of every execution, the only memory on which two threads may race is the
state of the tasks, and then one of them is writing it because a task has failed, with its
mutex locked, while the other reads it.  Premise: no two tests redirect to the same vector.
The task state is what is missing: see `C83_task_state_false`. -/
theorem C83_races_partial (P : Plan)
    (hr : ∀ b c n, n ∈ P.redirects b → n ∈ P.redirects c → b = c)
    (σ : State) (h : Reachable P σ) (l : Loc) (hrace : RaceOn σ l) :
    l = .taskState ∧ ∃ t u p q p' q', t ≠ u ∧
      σ.status t = .running p (.write .taskState :: p') ∧ σ.owner .taskState = some t ∧
      σ.status u = .running q (.read .taskState :: q') := by
  have hi := h.inv
  obtain ⟨t, u, a, b, p, q, p', q', hn, ht, hu, hc⟩ := hrace
  obtain ⟨w, v, ha, hb, hw⟩ := conflict_access hc
  obtain ⟨H, hat, hown⟩ := running_accs hi ht ha
  obtain ⟨K, hau, kown⟩ := running_accs hi hu hb
  have hl : l = .taskState := by
    rcases two_running hi hn ht hu with ⟨x, y, rfl, rfl⟩ | ⟨x, i, y, j, hpt, hpu, hij⟩
    · exfalso
      have key : ∃ n, l = .redirect n := by
        rcases hw with rfl | rfl
        · rcases accs_test hat with h | ⟨n, -, h⟩
          · simp at h
          · exact ⟨n, h⟩
        · rcases accs_test hau with h | ⟨n, -, h⟩
          · simp at h
          · exact ⟨n, h⟩
      obtain ⟨n, rfl⟩ := key
      exact hn (congrArg Task.test
        (hr x y n (accs_test_redirect hat) (accs_test_redirect hau)))
    · have ot := accs_own P t x i hpt w l H hat
      have ou := accs_own P u y j hpu v l K hau
      rcases ot with rfl | ⟨rfl, rfl⟩ | ⟨kt, f, rfl⟩ | ⟨kt, f, rfl⟩
      · rfl
      · rcases ou with h | ⟨-, rfl⟩ | ⟨-, f, h⟩ | ⟨-, f, h⟩
        · exact h
        · simp at hw
        · simp at h
        · simp at h
      · rcases ou with h | ⟨h, -⟩ | ⟨ku, g, h⟩ | ⟨ku, g, h⟩
        · exact h
        · simp at h
        · simp only [Loc.target.injEq] at h
          obtain ⟨rfl, rfl⟩ := h
          obtain rfl := hij rfl
          rcases same_place hn hpt hpu (kt.trans ku.symm) with ⟨m, n, rfl, rfl⟩ | ⟨r, s, rfl, rfl, -⟩
          · rcases accs_compile hat with h | ⟨rfl, h⟩ | ⟨h, hm⟩
            · exact h
            · rcases accs_compile hau with h' | ⟨rfl, h'⟩ | ⟨h', hm'⟩
              · exact h'
              · simp at hw
              · rw [h] at h'; simp at h'
            · rcases accs_compile hau with h' | ⟨rfl, h'⟩ | ⟨h', hm'⟩
              · exact h'
              · rw [h] at h'; simp at h'
              · have := (hown _ hm).symm.trans (kown _ hm')
                exact absurd (Option.some.inj this) hn
          · simp [Task.ofTarget] at kt
        · simp at h
      · rcases ou with h | ⟨h, -⟩ | ⟨ku, g, h⟩ | ⟨ku, g, h⟩
        · exact h
        · simp at h
        · simp at h
        · simp only [Loc.gen.injEq] at h
          obtain ⟨rfl, rfl⟩ := h
          obtain rfl := hij rfl
          rcases same_place hn hpt hpu (kt.trans ku.symm) with
            ⟨m, n, rfl, rfl⟩ | ⟨r, s, rfl, rfl, hrs⟩
          · simp [Task.ofTarget] at kt
          · exfalso
            have h1 := accs_id hat
            have h2 := accs_id hau
            simp only [List.mem_cons, List.not_mem_nil, or_false, Loc.gen.injEq, true_and,
              reduceCtorEq, false_or] at h1 h2
            rcases h1 with ⟨rfl, h1⟩ | h1
            · rcases h2 with ⟨rfl, h2⟩ | h2
              · simp at hw
              · rcases h1 with rfl | rfl | rfl | rfl <;> simp at h2
            · rcases h2 with ⟨rfl, h2⟩ | h2
              · rcases h2 with rfl | rfl | rfl | rfl <;> simp at h1
              · rcases h1 with rfl | rfl <;> simp only [GField.idInfo.injEq, GField.state.injEq,
                  reduceCtorEq, or_false, false_or] at h2 <;> exact hrs h2
  subst hl
  refine ⟨rfl, ?_⟩
  have nm : ∀ {x y : Task} {p q p' q' : List Act}, x ≠ y → σ.status x = .running p q →
      σ.status y = .running p' q' → x ≠ .before ∧ x ≠ .after ∧ x ≠ .post := by
    intro x y p q p' q' hxy hx hy
    rcases two_running hi hxy hx hy with ⟨_, _, rfl, -⟩ | ⟨_, _, _, _, hp, -⟩
    · simp
    · refine ⟨?_, ?_, ?_⟩ <;> rintro rfl <;> simp [Task.place] at hp
  have wt : w = true → σ.owner .taskState = some t := by
    rintro rfl
    exact hown _ (accs_taskState P t (nm hn ht hu).1 (nm hn ht hu).2.1 (nm hn ht hu).2.2 H hat)
  have wu : v = true → σ.owner .taskState = some u := by
    rintro rfl
    exact kown _ (accs_taskState P u (nm (Ne.symm hn) hu ht).1 (nm (Ne.symm hn) hu ht).2.1
      (nm (Ne.symm hn) hu ht).2.2 K hau)
  rcases hc with ⟨rfl, rfl⟩ | ⟨rfl, rfl⟩ | ⟨rfl, rfl⟩
  · simp only [Act.access, Option.some.injEq, Prod.mk.injEq, and_true] at ha hb
    have := (wt ha.symm).symm.trans (wu hb.symm)
    exact absurd (Option.some.inj this) hn
  · simp only [Act.access, Option.some.injEq, Prod.mk.injEq, and_true] at ha
    exact ⟨t, u, p, q, p', q', hn, ht, wt ha.symm, hu⟩
  · simp only [Act.access, Option.some.injEq, Prod.mk.injEq, and_true] at hb
    exact ⟨u, t, q, p, q', p', Ne.symm hn, hu, wu hb.symm, ht⟩

/-- As long as no task that runs is about to report a failure there is no race at all. -/
theorem C83_no_failure_partial (P : Plan)
    (hr : ∀ b c n, n ∈ P.redirects b → n ∈ P.redirects c → b = c)
    (σ : State) (h : Reachable P σ)
    (ok : ∀ t p q, σ.status t = .running p q → Act.write .taskState ∉ q) (l : Loc) :
    ¬ RaceOn σ l := by
  intro hrace
  obtain ⟨-, t, u, p, q, p', q', -, ht, -, -⟩ := C83_races_partial P hr σ h l hrace
  exact ok t _ _ ht List.mem_cons_self

/-- At no point are all threads stuck: while a task runs, some thread can take a step. -/
theorem C83_no_deadlock (P : Plan) (σ : State) (h : Reachable P σ) (t : Task)
    (hb : t ≠ .before) (hc : t ≠ .post) (ha : t ≠ .after) (p q : List Act) (ht : σ.status t = .running p q) :
    ∃ τ, Step P σ τ := by
  have hi := h.inv
  have flat : ∀ u : Task, u ≠ .before → u ≠ .after → u ≠ .post → ∀ m H,
      (m, H) ∈ locks [] (P.code u) → H = [] := by
    intro u hub hua hup m H hm
    cases u
    case before => exact absurd rfl hub
    case after => exact absurd rfl hua
    case post => exact absurd rfl hup
    case test b =>
      have : ∀ l : List Nat, locks [] (Code.all (l.map fun n => Code.write (.redirect n))) = [] := by
        intro l; induction l with
        | nil => rfl
        | cons a l ih => simpa [Code.all, locks] using ih
      simp [Plan.code, testCode, locks, this] at hm
    case store b =>
      have : ∀ l : List Str, locks [] (Code.all (l.map fun id =>
          .seq (.read (.gen b (.state id))) (.alt .skip (.read (.gen b (.idInfo id)))))) = [] := by
        intro l; induction l with
        | nil => rfl
        | cons a l ih => simpa [Code.all, locks] using ih
      simp [Plan.code, storeCode, locks, this, setTaskState, getTaskState, Code.all] at hm
      exact hm.2
    all_goals
      simp [Plan.code, pchCode, objectsCode, compileCode, linkCode, finishCode, idsCode, idCode,
        ifSuccess, addSource, locks, setTaskState, getTaskState, Code.all] at hm
      grind
  /- a running task whose next step is not a lock can go on -/
  have go : ∀ (u : Task) (p q : List Act), σ.status u = .running p q →
      (∀ m q', q = .lock m :: q' → σ.owner m = none) → ∃ τ, Step P σ τ := by
    intro u p q hu hl
    cases q with
    | nil => exact ⟨_, .done hu⟩
    | cons a q =>
      cases a with
      | read l => exact ⟨_, .access hu rfl⟩
      | write l => exact ⟨_, .access hu rfl⟩
      | lock m => exact ⟨_, .lock hu (hl m q rfl)⟩
      | unlock m =>
        exact ⟨_, .unlock hu (hi.owns u _ _ hu m
          (path_unlocks (hi.body u _ _ hu).2.1 [] p q m rfl))⟩
  cases q with
  | nil => exact ⟨_, .done ht⟩
  | cons a q =>
    cases a with
    | read l => exact ⟨_, .access ht rfl⟩
    | write l => exact ⟨_, .access ht rfl⟩
    | unlock m =>
      exact ⟨_, .unlock ht (hi.owns t _ _ ht m
        (path_unlocks (hi.body t _ _ ht).2.1 [] p q m rfl))⟩
    | lock m =>
      cases ho : σ.owner m with
      | none => exact ⟨_, .lock ht ho⟩
      | some u =>
        obtain ⟨p', q', hu, hm⟩ := hi.held m u ho
        have hub : u ≠ .before := by
          rintro rfl
          exact running_unordered hi hu ht (.inl ⟨rfl, hb⟩)
        have hua : u ≠ .after := by
          rintro rfl
          exact running_unordered hi ht hu (.inr (.inl ⟨ha, rfl⟩))
        have hup : u ≠ .post := by
          rintro rfl
          rcases two_running hi hc ht hu with ⟨_, _, -, h⟩ | ⟨_, _, _, _, -, h, -⟩
          · simp at h
          · simp [Task.place] at h
        refine go u p' q' hu ?_
        rintro n q'' rfl
        have := flat u hub hua hup n _ (path_locks (hi.body u _ _ hu).2.1 [] p' q'' n rfl)
        rw [this] at hm
        simp at hm

/-! ## Executions that do race -/

/-- Steps that touch memory only can be taken one after the other, up to any point. -/
theorem Reachable.accesses {P : Plan} {t : Task} : ∀ (l : List Act) {σ : State}
    {past rest : List Act}, Reachable P σ → σ.status t = .running past (l ++ rest) →
    (∀ a ∈ l, a.isAccess = true) →
    ∃ τ, Reachable P τ ∧ τ.status t = .running (past ++ l) rest ∧ τ.owner = σ.owner ∧
      ∀ u, u ≠ t → τ.status u = σ.status u := by
  intro l
  induction l with
  | nil => intro σ past rest h ht _; exact ⟨σ, h, by simpa using ht, rfl, fun _ _ => rfl⟩
  | cons a l ih =>
    intro σ past rest h ht hl
    have hs : Step P σ (setStatus σ t (.running (past ++ [a]) (l ++ rest))) :=
      .access ht (hl a List.mem_cons_self)
    obtain ⟨τ, h1, h2, h3, h4⟩ := ih (h.step hs) (setStatus_self _ _ _)
      (fun b hb => hl b (List.mem_cons_of_mem _ hb))
    exact ⟨τ, h1, by simpa using h2, h3, fun u hu => (h4 u hu).trans (setStatus_other _ _ hu)⟩

/-- A task that may start can be run to its end. -/
theorem Reachable.task {P : Plan} {σ : State} (h : Reachable P σ) (t : Task) (l : List Act)
    (hh : P.has t) (hw : σ.status t = .waiting)
    (hb : ∀ u, P.has u → Before P u t → σ.status u = .ended)
    (hp : Path (P.code t) true l) (hl : ∀ a ∈ l, a.isAccess = true) :
    ∃ τ, Reachable P τ ∧ τ.status t = .ended ∧ τ.owner = σ.owner ∧
      ∀ u, u ≠ t → τ.status u = σ.status u := by
  obtain ⟨τ, h1, h2, h3, h4⟩ := (h.step (.start hh hw hb hp)).accesses (t := t) (past := [])
    (rest := []) l (by simpa using setStatus_self σ t _) hl
  exact ⟨_, h1.step (.done h2), setStatus_self _ _ _, h3, fun u hu =>
    (setStatus_other _ _ hu).trans ((h4 u hu).trans (setStatus_other _ _ hu))⟩

/-- A target `x` with two sources to compile. -/
def twoSources : Plan where
  has t := t ∈ [.before, .objects [120], .compile [120] 0, .compile [120] 1, .link [120],
    .finish [120], .after]
  edges := []
  ids _ := []
  redirects _ := []
  prologue := .skip
  callback := .skip
  epilogue := .skip

/-- Everything is selected: what the task that selects the sources does when it does not fail. -/
theorem objects_path (b : Str) : ∃ l, Path (objectsCode b) true l ∧ ∀ a ∈ l, a.isAccess = true := by
  refine ⟨_, .seq .read (.right (.normal
    (.seq .write (.seq .write (.seq .write (.seq .read (.seq .read (.seq .read (.seq .read (.seq
      .read (.seq (.left .skip) (.seq .read (.seq .read (.seq .stop (.seq .stop (.seq
      (.again .read .stop) .skip)))))))))))))))) , ?_⟩
  simp [Act.isAccess]

/-- The claim is false of the task state: when the compilation of one source fails, the task of
the other source, which fails too, reads the state that the first is writing. -/
theorem C83_task_state_false : ∃ σ, Reachable twoSources σ ∧ RaceOn σ .taskState := by
  obtain ⟨σ₁, r₁, e₁, o₁, w₁⟩ := (Reachable.init (P := twoSources)).task .before [] (by
    simp [twoSources]) rfl (by
      intro u hu hb
      simp only [Before, Task.place] at hb
      simp at hb) .skip (by simp)
  obtain ⟨lo, po, ao⟩ := objects_path [120]
  obtain ⟨σ₂, r₂, e₂, o₂, w₂⟩ := r₁.task (.objects [120]) lo (by simp [twoSources])
    (w₁ _ (by simp)) (by
      intro u hu hb
      simp only [twoSources, List.mem_cons, List.not_mem_nil, or_false] at hu
      rcases hu with rfl | rfl | rfl | rfl | rfl | rfl | rfl
      · exact e₁
      all_goals
      simp [Before, Task.place, twoSources] at hb
      try (obtain ⟨_, _, ⟨rfl, rfl⟩, _, _, ⟨rfl, rfl⟩, -, hlt⟩ := hb; omega)) po ao
  have b₂ : ∀ i u, twoSources.has u → Before twoSources u (.compile [120] i) → σ₂.status u = .ended := by
    intro i u hu hb
    simp only [twoSources, List.mem_cons, List.not_mem_nil, or_false] at hu
    rcases hu with rfl | rfl | rfl | rfl | rfl | rfl | rfl
    · rw [w₂ _ (by simp)]; exact e₁
    · exact e₂
    all_goals
      simp [Before, Task.place, twoSources] at hb
      try (obtain ⟨_, _, ⟨rfl, rfl⟩, _, _, ⟨rfl, rfl⟩, -, hlt⟩ := hb; omega)
  /- the command of a source fails, before the source is recorded -/
  have fails : Path (compileCode [120]) true ([.read (.target [120] .objectFiles)] ++
      ([.read .taskState] ++ (.lock .taskState :: ([.write .taskState] ++ [.unlock .taskState])))) :=
    .caught (.seqThrow .readThrow) (.seq .read (.right (.locked .write)))
  have r₃ := r₂.step (.start (t := .compile [120] 0) (by simp [twoSources])
    ((w₂ _ (by simp)).trans (w₁ _ (by simp))) (b₂ 0) fails)
  have r₄ := r₃.step (.start (t := .compile [120] 1) (by simp [twoSources])
    (((setStatus_other _ _ (by simp)).trans (w₂ _ (by simp))).trans (w₁ _ (by simp))) (by
      intro u hu hb
      rw [setStatus_other]
      · exact b₂ 1 u hu hb
      · rintro rfl
        simp [Before, Task.place, twoSources] at hb
        obtain ⟨_, _, ⟨rfl, rfl⟩, _, _, ⟨rfl, rfl⟩, -, hlt⟩ := hb
        omega) fails)
  obtain ⟨σ₅, r₅, e₅, o₅, w₅⟩ := r₄.accesses (t := .compile [120] 1) (past := [])
    [.read (.target [120] .objectFiles)] (setStatus_self _ _ _) (by simp [Act.isAccess])
  obtain ⟨σ₆, r₆, e₆, o₆, w₆⟩ := r₅.accesses (t := .compile [120] 0) (past := [])
    [.read (.target [120] .objectFiles), .read .taskState]
    ((w₅ _ (by simp)).trans ((setStatus_other _ _ (by simp)).trans (setStatus_self _ _ _)))
    (by simp [Act.isAccess])
  have r₇ := r₆.step (.lock e₆ (by rw [o₆, o₅]; show σ₂.owner _ = none; rw [o₂, o₁]; rfl))
  have x := setStatus_self σ₆ (.compile [120] 0) (.running
    [.read (.target [120] .objectFiles), .read .taskState, .lock .taskState]
    [.write .taskState, .unlock .taskState])
  have y := (setStatus_other σ₆ (t := .compile [120] 0) (.running
    [.read (.target [120] .objectFiles), .read .taskState, .lock .taskState]
    [.write .taskState, .unlock .taskState]) (by simp)).trans ((w₆ (.compile [120] 1)
      (by simp)).trans e₅)
  exact ⟨_, r₇, .compile [120] 0, .compile [120] 1, .write .taskState, .read .taskState, _, _, _, _,
    by simp, x, y, .inr (.inl ⟨rfl, rfl⟩)⟩

/-- Two tests that redirect their output to the same vector. -/
def sharedVector : Plan where
  has t := t ∈ [.before, .test [120], .test [121], .after]
  edges := []
  ids _ := []
  redirects _ := [0]
  prologue := .skip
  callback := .skip
  epilogue := .skip

/-- The premise of `C83_races_partial` is needed: such tests do race on the vector. -/
theorem C83_shared_vector_false : ∃ σ, Reachable sharedVector σ ∧ RaceOn σ (.redirect 0) := by
  obtain ⟨σ₁, r₁, e₁, o₁, w₁⟩ := (Reachable.init (P := sharedVector)).task .before [] (by
    simp [sharedVector]) rfl (by
      intro u hu hb
      simp only [Before, Task.place] at hb
      simp at hb) .skip (by simp)
  have b₁ : ∀ b u, sharedVector.has u → Before sharedVector u (.test b) → σ₁.status u = .ended := by
    intro b u hu hb
    simp only [sharedVector, List.mem_cons, List.not_mem_nil, or_false] at hu
    rcases hu with rfl | rfl | rfl | rfl
    · exact e₁
    all_goals simp [Before, Task.place, sharedVector] at hb
  have path : ∀ b, Path (testCode b [0]) true ([.read (.target b .name), .read (.target b .linkData)]
      ++ [.write (.redirect 0)]) := by
    intro b
    exact .seq (p := [.read (.target b .name), .read (.target b .linkData)]) (.seq .read .read)
      (.again (p := [.write (.redirect 0)]) (.seq .write .skip) .stop)
  have r₂ := r₁.step (.start (t := .test [120]) (by simp [sharedVector]) (w₁ _ (by simp)) (b₁ _)
    (path _))
  have r₃ := r₂.step (.start (t := .test [121]) (by simp [sharedVector])
    ((setStatus_other _ _ (by simp)).trans (w₁ _ (by simp))) (by
      intro u hu hb
      rw [setStatus_other]
      · exact b₁ _ u hu hb
      · rintro rfl
        simp [Before, Task.place, sharedVector] at hb) (path _))
  obtain ⟨σ₄, r₄, e₄, -, w₄⟩ := r₃.accesses (t := .test [121]) (past := [])
    [.read (.target [121] .name), .read (.target [121] .linkData)] (setStatus_self _ _ _)
    (by simp [Act.isAccess])
  obtain ⟨σ₅, r₅, e₅, -, w₅⟩ := r₄.accesses (t := .test [120]) (past := [])
    [.read (.target [120] .name), .read (.target [120] .linkData)]
    ((w₄ _ (by simp)).trans ((setStatus_other _ _ (by simp)).trans (setStatus_self _ _ _)))
    (by simp [Act.isAccess])
  exact ⟨_, r₅, .test [120], .test [121], .write (.redirect 0), .write (.redirect 0), _, _, _, _,
    by simp, e₅, (w₅ _ (by simp)).trans e₄, .inl ⟨rfl, rfl⟩⟩

/-! The premise of the positive theorems is met: `twoSources` has no redirects, and two tests
with vectors of their own satisfy it. -/

example : ∀ b c n, n ∈ twoSources.redirects b → n ∈ twoSources.redirects c → b = c := by
  simp [twoSources]

example : ∀ b c n, n ∈ (fun b : Str => if b = [120] then [0, 1] else if b = [121] then [2] else []) b →
    n ∈ (fun b : Str => if b = [120] then [0, 1] else if b = [121] then [2] else []) c → b = c := by
  intro b c n h h'
  simp only at h h'
  split at h <;> split at h' <;> simp_all <;> split at h <;> simp_all <;> omega

end Verif.Race
