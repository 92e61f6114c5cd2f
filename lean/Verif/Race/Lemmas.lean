import Verif.Race.Model

/-!
# Lock sets of code
-/

namespace Verif.Race
open Verif

/-- The mutexes held after some steps. -/
def held (H : List Mutex) : List Act → List Mutex
  | [] => H
  | .lock m :: l => held (m :: H) l
  | .unlock m :: l => held (H.erase m) l
  | _ :: l => held H l

theorem held_append (H : List Mutex) (l k : List Act) : held H (l ++ k) = held (held H l) k := by
  induction l generalizing H with
  | nil => rfl
  | cons a l ih => cases a <;> simp [held, ih]

/-- The accesses of code (`true` for a write) with the mutexes held there. -/
def accs (H : List Mutex) : Code → List (Bool × Loc × List Mutex)
  | .skip => []
  | .read l => [(false, l, H)]
  | .write l => [(true, l, H)]
  | .seq c d => accs H c ++ accs H d
  | .alt c d => accs H c ++ accs H d
  | .many c => accs H c
  | .locked m c => accs (m :: H) c
  | .attempt c h => accs H c ++ accs H h

theorem held_path {c : Code} {b : Bool} {p : List Act} (h : Path c b p) :
    ∀ H, held H p = H := by
  induction h with
  | seq _ _ ih₁ ih₂ => intro H; rw [held_append, ih₁, ih₂]
  | again _ _ ih₁ ih₂ => intro H; rw [held_append, ih₁, ih₂]
  | caught _ _ ih₁ ih₂ => intro H; rw [held_append, ih₁, ih₂]
  | locked _ ih =>
    intro H
    rw [held, held_append, ih]
    simp [held]
  | seqThrow _ ih => exact ih
  | left _ ih => exact ih
  | right _ ih => exact ih
  | againThrow _ ih => exact ih
  | normal _ ih => exact ih
  | _ => intro H; rfl

/-- What kind of step it is, on which location. -/
def Act.access : Act → Option (Bool × Loc)
  | .read l => some (false, l)
  | .write l => some (true, l)
  | _ => none

theorem append_split {α : Type} {p q pre post : List α} {a : α} (h : p ++ q = pre ++ a :: post) :
    (∃ post', p = pre ++ a :: post') ∨ ∃ pre', pre = p ++ pre' ∧ q = pre' ++ a :: post := by
  rcases List.append_eq_append_iff.1 h with ⟨x, hx, hy⟩ | ⟨x, hx, hy⟩
  · exact .inr ⟨x, hx, hy⟩
  · cases x with
    | nil =>
      simp only [List.append_nil] at hx
      subst hx
      exact .inr ⟨[], by simp, by simpa using hy.symm⟩
    | cons y ys =>
      simp only [List.cons_append, List.cons.injEq] at hy
      obtain ⟨rfl, -⟩ := hy
      exact .inl ⟨ys, hx⟩

theorem path_accs {c : Code} {b : Bool} {p : List Act} (h : Path c b p) :
    ∀ (H : List Mutex) (pre post : List Act) (a : Act) (w : Bool) (l : Loc),
      p = pre ++ a :: post → a.access = some (w, l) → (w, l, held H pre) ∈ accs H c := by
  have single : ∀ (H : List Mutex) (pre post : List Act) (a x : Act) (w : Bool) (l : Loc),
      [x] = pre ++ a :: post → a.access = some (w, l) →
      a = x ∧ held H pre = H := by
    intro H pre post a x w l h _
    cases pre with
    | nil => simp only [List.nil_append, List.cons.injEq] at h; exact ⟨h.1.symm, rfl⟩
    | cons y ys => simp at h
  have two : ∀ {p q : List Act} {C D : Code} (H : List Mutex) (pre post : List Act) (a : Act)
      (w : Bool) (l : Loc), held H p = H →
      (∀ pre post, p = pre ++ a :: post → (w, l, held H pre) ∈ accs H C) →
      (∀ pre post, q = pre ++ a :: post → (w, l, held H pre) ∈ accs H D) →
      p ++ q = pre ++ a :: post → (w, l, held H pre) ∈ accs H C ++ accs H D := by
    intro p q C D H pre post a w l hh h1 h2 h
    rcases append_split h with ⟨post', hp⟩ | ⟨pre', rfl, hq⟩
    · exact List.mem_append_left _ (h1 _ _ hp)
    · rw [held_append, hh]
      exact List.mem_append_right _ (h2 _ _ hq)
  induction h with
  | skip => intro H pre post a w l h; simp at h
  | read =>
    intro H pre post a w l h ha
    obtain ⟨rfl, hh⟩ := single H pre post a _ w l h ha
    simp only [Act.access, Option.some.injEq, Prod.mk.injEq] at ha
    obtain ⟨rfl, rfl⟩ := ha
    simp [accs, hh]
  | readThrow =>
    intro H pre post a w l h ha
    obtain ⟨rfl, hh⟩ := single H pre post a _ w l h ha
    simp only [Act.access, Option.some.injEq, Prod.mk.injEq] at ha
    obtain ⟨rfl, rfl⟩ := ha
    simp [accs, hh]
  | readStop => intro H pre post a w l h; simp at h
  | write =>
    intro H pre post a w l h ha
    obtain ⟨rfl, hh⟩ := single H pre post a _ w l h ha
    simp only [Act.access, Option.some.injEq, Prod.mk.injEq] at ha
    obtain ⟨rfl, rfl⟩ := ha
    simp [accs, hh]
  | writeThrow =>
    intro H pre post a w l h ha
    obtain ⟨rfl, hh⟩ := single H pre post a _ w l h ha
    simp only [Act.access, Option.some.injEq, Prod.mk.injEq] at ha
    obtain ⟨rfl, rfl⟩ := ha
    simp [accs, hh]
  | writeStop => intro H pre post a w l h; simp at h
  | seq h1 h2 ih1 ih2 =>
    intro H pre post a w l h ha
    exact two H pre post a w l (held_path h1 H) (fun _ _ e => ih1 H _ _ a w l e ha)
      (fun _ _ e => ih2 H _ _ a w l e ha) h
  | seqThrow h1 ih1 =>
    intro H pre post a w l h ha
    exact List.mem_append_left _ (ih1 H _ _ a w l h ha)
  | left _ ih => intro H pre post a w l h ha; exact List.mem_append_left _ (ih H _ _ a w l h ha)
  | right _ ih => intro H pre post a w l h ha; exact List.mem_append_right _ (ih H _ _ a w l h ha)
  | stop => intro H pre post a w l h; simp at h
  | again h1 h2 ih1 ih2 =>
    intro H pre post a w l h ha
    have := two H pre post a w l (held_path h1 H) (fun _ _ e => ih1 H _ _ a w l e ha)
      (fun _ _ e => ih2 H _ _ a w l e ha) h
    simpa [accs] using this
  | againThrow h1 ih1 => intro H pre post a w l h ha; exact ih1 H _ _ a w l h ha
  | normal _ ih => intro H pre post a w l h ha; exact List.mem_append_left _ (ih H _ _ a w l h ha)
  | caught h1 h2 ih1 ih2 =>
    intro H pre post a w l h ha
    exact two H pre post a w l (held_path h1 H) (fun _ _ e => ih1 H _ _ a w l e ha)
      (fun _ _ e => ih2 H _ _ a w l e ha) h
  | @locked c b p m h1 ih =>
    intro H pre post a w l h ha
    cases pre with
    | nil =>
      simp only [List.nil_append, List.cons.injEq] at h
      rw [← h.1] at ha
      simp [Act.access] at ha
    | cons y ys =>
      simp only [List.cons_append, List.cons.injEq] at h
      obtain ⟨rfl, h⟩ := h
      rcases append_split h with ⟨post', hp⟩ | ⟨pre', rfl, hq⟩
      · exact ih (m :: H) _ _ a w l hp ha
      · obtain ⟨rfl, -⟩ := single H pre' post a _ w l hq ha
        simp [Act.access] at ha

/-- The mutexes that code locks, with the ones held there. -/
def locks (H : List Mutex) : Code → List (Mutex × List Mutex)
  | .seq c d => locks H c ++ locks H d
  | .alt c d => locks H c ++ locks H d
  | .many c => locks H c
  | .locked m c => (m, H) :: locks (m :: H) c
  | .attempt c h => locks H c ++ locks H h
  | _ => []

theorem path_locks {c : Code} {b : Bool} {p : List Act} (h : Path c b p) :
    ∀ (H : List Mutex) (pre post : List Act) (m : Mutex),
      p = pre ++ .lock m :: post → (m, held H pre) ∈ locks H c := by
  have two : ∀ {p q : List Act} {C D : Code} (H : List Mutex) (pre post : List Act) (m : Mutex),
      held H p = H →
      (∀ pre post, p = pre ++ .lock m :: post → (m, held H pre) ∈ locks H C) →
      (∀ pre post, q = pre ++ .lock m :: post → (m, held H pre) ∈ locks H D) →
      p ++ q = pre ++ .lock m :: post → (m, held H pre) ∈ locks H C ++ locks H D := by
    intro p q C D H pre post m hh h1 h2 h
    rcases append_split h with ⟨post', hp⟩ | ⟨pre', rfl, hq⟩
    · exact List.mem_append_left _ (h1 _ _ hp)
    · rw [held_append, hh]
      exact List.mem_append_right _ (h2 _ _ hq)
  have single : ∀ (pre post : List Act) (x : Act) (m : Mutex), x.isAccess = true →
      [x] ≠ pre ++ .lock m :: post := by
    intro pre post x m hx h
    cases pre with
    | nil => simp only [List.nil_append, List.cons.injEq] at h; rw [h.1] at hx; simp [Act.isAccess] at hx
    | cons y ys => simp at h
  induction h with
  | seq h1 h2 ih1 ih2 =>
    intro H pre post m h
    exact two H pre post m (held_path h1 H) (fun _ _ e => ih1 H _ _ m e)
      (fun _ _ e => ih2 H _ _ m e) h
  | seqThrow h1 ih1 => intro H pre post m h; exact List.mem_append_left _ (ih1 H _ _ m h)
  | left _ ih => intro H pre post m h; exact List.mem_append_left _ (ih H _ _ m h)
  | right _ ih => intro H pre post m h; exact List.mem_append_right _ (ih H _ _ m h)
  | again h1 h2 ih1 ih2 =>
    intro H pre post m h
    have := two H pre post m (held_path h1 H) (fun _ _ e => ih1 H _ _ m e)
      (fun _ _ e => ih2 H _ _ m e) h
    simpa [locks] using this
  | againThrow h1 ih1 => intro H pre post m h; exact ih1 H _ _ m h
  | normal _ ih => intro H pre post m h; exact List.mem_append_left _ (ih H _ _ m h)
  | caught h1 h2 ih1 ih2 =>
    intro H pre post m h
    exact two H pre post m (held_path h1 H) (fun _ _ e => ih1 H _ _ m e)
      (fun _ _ e => ih2 H _ _ m e) h
  | @locked c b p n h1 ih =>
    intro H pre post m h
    cases pre with
    | nil =>
      simp only [List.nil_append, List.cons.injEq, Act.lock.injEq] at h
      rw [h.1]
      exact List.mem_cons_self
    | cons y ys =>
      simp only [List.cons_append, List.cons.injEq] at h
      obtain ⟨rfl, h⟩ := h
      rcases append_split h with ⟨post', hp⟩ | ⟨pre', rfl, hq⟩
      · exact List.mem_cons_of_mem _ (ih (n :: H) _ _ m hp)
      · cases pre' with
        | nil => simp at hq
        | cons z zs => simp at hq
  | read => intro H pre post m h; exact absurd h (single _ _ _ _ rfl)
  | readThrow => intro H pre post m h; exact absurd h (single _ _ _ _ rfl)
  | write => intro H pre post m h; exact absurd h (single _ _ _ _ rfl)
  | writeThrow => intro H pre post m h; exact absurd h (single _ _ _ _ rfl)
  | _ => intro H pre post m h; simp at h

/-- An unlock is done with the mutex held. -/
theorem path_unlocks {c : Code} {b : Bool} {p : List Act} (h : Path c b p) :
    ∀ (H : List Mutex) (pre post : List Act) (m : Mutex),
      p = pre ++ .unlock m :: post → m ∈ held H pre := by
  have two : ∀ {p q : List Act} (H : List Mutex) (pre post : List Act) (m : Mutex),
      held H p = H →
      (∀ pre post, p = pre ++ .unlock m :: post → m ∈ held H pre) →
      (∀ pre post, q = pre ++ .unlock m :: post → m ∈ held H pre) →
      p ++ q = pre ++ .unlock m :: post → m ∈ held H pre := by
    intro p q H pre post m hh h1 h2 h
    rcases append_split h with ⟨post', hp⟩ | ⟨pre', rfl, hq⟩
    · exact h1 _ _ hp
    · rw [held_append, hh]; exact h2 _ _ hq
  have single : ∀ (pre post : List Act) (x : Act) (m : Mutex), x.isAccess = true →
      [x] ≠ pre ++ .unlock m :: post := by
    intro pre post x m hx h
    cases pre with
    | nil => simp only [List.nil_append, List.cons.injEq] at h; rw [h.1] at hx; simp [Act.isAccess] at hx
    | cons y ys => simp at h
  induction h with
  | seq h1 h2 ih1 ih2 =>
    intro H pre post m h
    exact two H pre post m (held_path h1 H) (fun _ _ e => ih1 H _ _ m e)
      (fun _ _ e => ih2 H _ _ m e) h
  | again h1 h2 ih1 ih2 =>
    intro H pre post m h
    exact two H pre post m (held_path h1 H) (fun _ _ e => ih1 H _ _ m e)
      (fun _ _ e => ih2 H _ _ m e) h
  | caught h1 h2 ih1 ih2 =>
    intro H pre post m h
    exact two H pre post m (held_path h1 H) (fun _ _ e => ih1 H _ _ m e)
      (fun _ _ e => ih2 H _ _ m e) h
  | @locked c b p n h1 ih =>
    intro H pre post m h
    cases pre with
    | nil => simp at h
    | cons y ys =>
      simp only [List.cons_append, List.cons.injEq] at h
      obtain ⟨rfl, h⟩ := h
      rcases append_split h with ⟨post', hp⟩ | ⟨pre', rfl, hq⟩
      · exact ih (n :: H) _ _ m hp
      · cases pre' with
        | nil =>
          simp only [List.nil_append, List.cons.injEq, Act.unlock.injEq] at hq
          rw [held, held_append, held_path h1, held, hq.1]
          exact List.mem_cons_self
        | cons z zs => simp at hq
  | seqThrow _ ih => exact ih
  | left _ ih => exact ih
  | right _ ih => exact ih
  | againThrow _ ih => exact ih
  | normal _ ih => exact ih
  | read => intro H pre post m h; exact absurd h (single _ _ _ _ rfl)
  | readThrow => intro H pre post m h; exact absurd h (single _ _ _ _ rfl)
  | write => intro H pre post m h; exact absurd h (single _ _ _ _ rfl)
  | writeThrow => intro H pre post m h; exact absurd h (single _ _ _ _ rfl)
  | _ => intro H pre post m h; simp at h

/-! ## The invariant of an execution -/

structure Inv (P : Plan) (σ : State) : Prop where
  body : ∀ t p q, σ.status t = .running p q → P.has t ∧ Path (P.code t) true (p ++ q) ∧
    ∀ u, P.has u → Before P u t → σ.status u = .ended
  owns : ∀ t p q, σ.status t = .running p q → ∀ m, m ∈ held [] p → σ.owner m = some t
  nodup : ∀ t p q, σ.status t = .running p q → (held [] p).Nodup
  held : ∀ m t, σ.owner m = some t → ∃ p q, σ.status t = .running p q ∧ m ∈ held [] p

theorem Inv.init (P : Plan) : Inv P .init where
  body _ _ _ h := by simp [State.init] at h
  owns _ _ _ h := by simp [State.init] at h
  nodup _ _ _ h := by simp [State.init] at h
  held _ _ h := by simp [State.init] at h

theorem setStatus_self (σ : State) (t : Task) (s : Status) : (setStatus σ t s).status t = s := by
  simp [setStatus]

theorem setStatus_other (σ : State) {t u : Task} (s : Status) (h : u ≠ t) :
    (setStatus σ t s).status u = σ.status u := by
  simp [setStatus, h]

theorem held_access {a : Act} (H : List Mutex) (p : List Act) (ha : a.isAccess = true) :
    held H (p ++ [a]) = held H p := by
  rw [held_append]
  cases a <;> simp_all [held, Act.isAccess]

theorem Inv.step {P : Plan} {σ τ : State} (hi : Inv P σ) (hs : Step P σ τ) : Inv P τ := by
  cases hs with
  | @start t l hh hw hb hp =>
    have hst : ∀ v, σ.status v = .ended → (setStatus σ t (.running [] l)).status v = .ended := by
      intro v hv
      by_cases hvt : v = t
      · subst hvt; rw [hw] at hv; simp at hv
      · rw [setStatus_other _ _ hvt]; exact hv
    refine ⟨?_, ?_, ?_, ?_⟩
    · intro u p q h
      by_cases hut : u = t
      · subst hut
        rw [setStatus_self] at h
        simp only [Status.running.injEq] at h
        obtain ⟨rfl, rfl⟩ := h
        exact ⟨hh, hp, fun v hv hbv => hst v (hb v hv hbv)⟩
      · rw [setStatus_other _ _ hut] at h
        obtain ⟨h1, h2, h3⟩ := hi.body u p q h
        exact ⟨h1, h2, fun v hv hbv => hst v (h3 v hv hbv)⟩
    · intro u p q h m hm
      by_cases hut : u = t
      · subst hut
        rw [setStatus_self] at h
        simp only [Status.running.injEq] at h
        obtain ⟨rfl, rfl⟩ := h
        simp [Race.held] at hm
      · rw [setStatus_other _ _ hut] at h
        exact hi.owns u p q h m hm
    · intro u p q h
      by_cases hut : u = t
      · subst hut
        rw [setStatus_self] at h
        simp only [Status.running.injEq] at h
        obtain ⟨rfl, rfl⟩ := h
        simp [Race.held]
      · rw [setStatus_other _ _ hut] at h
        exact hi.nodup u p q h
    · intro m u h
      obtain ⟨p, q, h1, h2⟩ := hi.held m u h
      refine ⟨p, q, ?_, h2⟩
      rw [setStatus_other _ _ (by rintro rfl; rw [hw] at h1; simp at h1)]
      exact h1
  | @access t a past next ht ha =>
    have hst : ∀ v, σ.status v = .ended →
        (setStatus σ t (.running (past ++ [a]) next)).status v = .ended := by
      intro v hv
      by_cases hvt : v = t
      · subst hvt; rw [ht] at hv; simp at hv
      · rw [setStatus_other _ _ hvt]; exact hv
    refine ⟨?_, ?_, ?_, ?_⟩
    · intro u p q h
      by_cases hut : u = t
      · subst hut
        rw [setStatus_self] at h
        simp only [Status.running.injEq] at h
        obtain ⟨rfl, rfl⟩ := h
        obtain ⟨h1, h2, h3⟩ := hi.body u _ _ ht
        exact ⟨h1, by simpa using h2, fun v hv hbv => hst v (h3 v hv hbv)⟩
      · rw [setStatus_other _ _ hut] at h
        obtain ⟨h1, h2, h3⟩ := hi.body u p q h
        exact ⟨h1, h2, fun v hv hbv => hst v (h3 v hv hbv)⟩
    · intro u p q h m hm
      by_cases hut : u = t
      · subst hut
        rw [setStatus_self] at h
        simp only [Status.running.injEq] at h
        obtain ⟨rfl, rfl⟩ := h
        rw [held_access _ _ ha] at hm
        exact hi.owns u _ _ ht m hm
      · rw [setStatus_other _ _ hut] at h
        exact hi.owns u p q h m hm
    · intro u p q h
      by_cases hut : u = t
      · subst hut
        rw [setStatus_self] at h
        simp only [Status.running.injEq] at h
        obtain ⟨rfl, rfl⟩ := h
        rw [held_access _ _ ha]
        exact hi.nodup u _ _ ht
      · rw [setStatus_other _ _ hut] at h
        exact hi.nodup u p q h
    · intro m u h
      obtain ⟨p, q, h1, h2⟩ := hi.held m u h
      by_cases hut : u = t
      · subst hut
        rw [ht] at h1
        simp only [Status.running.injEq] at h1
        obtain ⟨rfl, rfl⟩ := h1
        exact ⟨_, _, setStatus_self _ _ _, by rw [held_access _ _ ha]; exact h2⟩
      · exact ⟨p, q, by rw [setStatus_other _ _ hut]; exact h1, h2⟩
  | @lock t m past next ht ho =>
    have hst : ∀ v, σ.status v = .ended →
        (setStatus σ t (.running (past ++ [.lock m]) next)).status v = .ended := by
      intro v hv
      by_cases hvt : v = t
      · subst hvt; rw [ht] at hv; simp at hv
      · rw [setStatus_other _ _ hvt]; exact hv
    have hheld : Race.held [] (past ++ [.lock m]) = m :: Race.held [] past := by
      rw [held_append]; rfl
    refine ⟨?_, ?_, ?_, ?_⟩
    · intro u p q h
      by_cases hut : u = t
      · subst hut
        replace h : (setStatus σ u (.running (past ++ [.lock m]) next)).status u = .running p q := h
        rw [setStatus_self] at h
        simp only [Status.running.injEq] at h
        obtain ⟨rfl, rfl⟩ := h
        obtain ⟨h1, h2, h3⟩ := hi.body u _ _ ht
        exact ⟨h1, by simpa using h2, fun v hv hbv => hst v (h3 v hv hbv)⟩
      · replace h : (setStatus σ t (.running (past ++ [.lock m]) next)).status u = .running p q := h
        rw [setStatus_other _ _ hut] at h
        obtain ⟨h1, h2, h3⟩ := hi.body u p q h
        exact ⟨h1, h2, fun v hv hbv => hst v (h3 v hv hbv)⟩
    · intro u p q h n hn
      replace h : (setStatus σ t (.running (past ++ [.lock m]) next)).status u = .running p q := h
      show (if n = m then some t else σ.owner n) = some u
      by_cases hut : u = t
      · subst hut
        rw [setStatus_self] at h
        simp only [Status.running.injEq] at h
        obtain ⟨rfl, rfl⟩ := h
        rw [hheld, List.mem_cons] at hn
        rcases hn with rfl | hn
        · simp
        · rw [if_neg, hi.owns u _ _ ht n hn]
          rintro rfl
          rw [hi.owns u _ _ ht n hn] at ho
          simp at ho
      · rw [setStatus_other _ _ hut] at h
        have := hi.owns u p q h n hn
        rw [if_neg, this]
        rintro rfl
        rw [this] at ho
        simp at ho
    · intro u p q h
      replace h : (setStatus σ t (.running (past ++ [.lock m]) next)).status u = .running p q := h
      by_cases hut : u = t
      · subst hut
        rw [setStatus_self] at h
        simp only [Status.running.injEq] at h
        obtain ⟨rfl, rfl⟩ := h
        rw [hheld, List.nodup_cons]
        refine ⟨fun hm => ?_, hi.nodup u _ _ ht⟩
        rw [hi.owns u _ _ ht m hm] at ho
        simp at ho
      · rw [setStatus_other _ _ hut] at h
        exact hi.nodup u p q h
    · intro n u h
      replace h : (if n = m then some t else σ.owner n) = some u := h
      by_cases hn : n = m
      · subst hn
        simp only [if_pos, Option.some.injEq] at h
        subst h
        refine ⟨_, _, setStatus_self _ _ _, ?_⟩
        rw [hheld]
        exact List.mem_cons_self
      · rw [if_neg hn] at h
        obtain ⟨p, q, h1, h2⟩ := hi.held n u h
        by_cases hut : u = t
        · subst hut
          rw [ht] at h1
          simp only [Status.running.injEq] at h1
          obtain ⟨rfl, rfl⟩ := h1
          exact ⟨_, _, setStatus_self _ _ _, by rw [hheld]; exact List.mem_cons_of_mem _ h2⟩
        · exact ⟨p, q, (setStatus_other _ _ hut).trans h1, h2⟩
  | @unlock t m past next ht ho =>
    have hst : ∀ v, σ.status v = .ended →
        (setStatus σ t (.running (past ++ [.unlock m]) next)).status v = .ended := by
      intro v hv
      by_cases hvt : v = t
      · subst hvt; rw [ht] at hv; simp at hv
      · rw [setStatus_other _ _ hvt]; exact hv
    have hheld : Race.held [] (past ++ [.unlock m]) = (Race.held [] past).erase m := by
      rw [held_append]; rfl
    refine ⟨?_, ?_, ?_, ?_⟩
    · intro u p q h
      replace h : (setStatus σ t (.running (past ++ [.unlock m]) next)).status u = .running p q := h
      by_cases hut : u = t
      · subst hut
        rw [setStatus_self] at h
        simp only [Status.running.injEq] at h
        obtain ⟨rfl, rfl⟩ := h
        obtain ⟨h1, h2, h3⟩ := hi.body u _ _ ht
        exact ⟨h1, by simpa using h2, fun v hv hbv => hst v (h3 v hv hbv)⟩
      · rw [setStatus_other _ _ hut] at h
        obtain ⟨h1, h2, h3⟩ := hi.body u p q h
        exact ⟨h1, h2, fun v hv hbv => hst v (h3 v hv hbv)⟩
    · intro u p q h n hn
      replace h : (setStatus σ t (.running (past ++ [.unlock m]) next)).status u = .running p q := h
      show (if n = m then none else σ.owner n) = some u
      by_cases hut : u = t
      · subst hut
        rw [setStatus_self] at h
        simp only [Status.running.injEq] at h
        obtain ⟨rfl, rfl⟩ := h
        rw [hheld, (hi.nodup u _ _ ht).mem_erase_iff] at hn
        rw [if_neg hn.1]
        exact hi.owns u _ _ ht n hn.2
      · rw [setStatus_other _ _ hut] at h
        have := hi.owns u p q h n hn
        rw [if_neg, this]
        rintro rfl
        rw [this] at ho
        simp only [Option.some.injEq] at ho
        exact hut ho
    · intro u p q h
      replace h : (setStatus σ t (.running (past ++ [.unlock m]) next)).status u = .running p q := h
      by_cases hut : u = t
      · subst hut
        rw [setStatus_self] at h
        simp only [Status.running.injEq] at h
        obtain ⟨rfl, rfl⟩ := h
        rw [hheld]
        exact (hi.nodup u _ _ ht).erase m
      · rw [setStatus_other _ _ hut] at h
        exact hi.nodup u p q h
    · intro n u h
      replace h : (if n = m then none else σ.owner n) = some u := h
      by_cases hn : n = m
      · rw [if_pos hn] at h; simp at h
      · rw [if_neg hn] at h
        obtain ⟨p, q, h1, h2⟩ := hi.held n u h
        by_cases hut : u = t
        · subst hut
          rw [ht] at h1
          simp only [Status.running.injEq] at h1
          obtain ⟨rfl, rfl⟩ := h1
          refine ⟨_, _, setStatus_self _ _ _, ?_⟩
          rw [hheld, (hi.nodup u _ _ ht).mem_erase_iff]
          exact ⟨hn, h2⟩
        · exact ⟨p, q, (setStatus_other _ _ hut).trans h1, h2⟩
  | @done t past ht =>
    have hst : ∀ v, σ.status v = .ended → (setStatus σ t .ended).status v = .ended := by
      intro v hv
      by_cases hvt : v = t
      · subst hvt; exact setStatus_self _ _ _
      · rw [setStatus_other _ _ hvt]; exact hv
    have hp : Path (P.code t) true past := by simpa using (hi.body t _ _ ht).2.1
    refine ⟨?_, ?_, ?_, ?_⟩
    · intro u p q h
      have hut : u ≠ t := by rintro rfl; rw [setStatus_self] at h; simp at h
      rw [setStatus_other _ _ hut] at h
      obtain ⟨h1, h2, h3⟩ := hi.body u p q h
      exact ⟨h1, h2, fun v hv hbv => hst v (h3 v hv hbv)⟩
    · intro u p q h
      have hut : u ≠ t := by rintro rfl; rw [setStatus_self] at h; simp at h
      rw [setStatus_other _ _ hut] at h
      exact hi.owns u p q h
    · intro u p q h
      have hut : u ≠ t := by rintro rfl; rw [setStatus_self] at h; simp at h
      rw [setStatus_other _ _ hut] at h
      exact hi.nodup u p q h
    · intro m u h
      obtain ⟨p, q, h1, h2⟩ := hi.held m u h
      by_cases hut : u = t
      · subst hut
        rw [ht] at h1
        simp only [Status.running.injEq] at h1
        obtain ⟨rfl, rfl⟩ := h1
        rw [held_path hp] at h2
        simp at h2
      · exact ⟨p, q, by rw [setStatus_other _ _ hut]; exact h1, h2⟩

theorem Reachable.inv {P : Plan} {σ : State} (h : Reachable P σ) : Inv P σ := by
  induction h with
  | init => exact Inv.init P
  | step _ hs ih => exact ih.step hs

end Verif.Race
