import Verif.Life.Lemmas

/-! # Objects are used only while they live (C120) -/

namespace Verif.Life

/-! ## Proofs -/

theorem exec_append (s : St) (l m : List Ev) : exec s (l ++ m) = (exec s l).bind fun t => exec t m := by
  induction l generalizing s with
  | nil => rfl
  | cons e l ih =>
    rw [List.cons_append, exec, exec]
    cases s.step e with
    | none => rfl
    | some t => exact ih t

theorem exec_cons {s : St} {e : Ev} {l : List Ev} (h : ∀ x ∈ s.uses e, s.live x = true)
    (hl : (exec (s.next e) l).isSome = true) : (exec s (e :: l)).isSome = true := by
  rw [exec, St.step, if_pos (List.all_eq_true.2 h)]
  exact hl

theorem exec_state {s t : St} {l : List Ev} (h : exec s l = some t) : t = l.foldl St.next s := by
  induction l generalizing s with
  | nil => exact (Option.some.inj h).symm
  | cons e l ih =>
    rw [exec, St.step] at h
    split at h
    · exact ih h
    · cases h

theorem exec_snoc (l : List Ev) (e : Ev) : (exec {} (l ++ [e])).isSome = true ↔
    (exec {} l).isSome = true ∧ ∀ x, Uses l e x → Alive l x := by
  rw [exec_append]
  cases h : exec {} l with
  | none => simp
  | some t =>
    have ht : t = after l := exec_state h
    subst ht
    simp only [Option.bind_some, Option.isSome_some, true_and, exec, St.step]
    constructor
    · intro h x hx
      split at h
      · rename_i ha
        exact (live_after l x).1 (List.all_eq_true.1 ha x ((uses_after l e x).2 hx))
      · cases h
    · intro h
      have ha : ((after l).uses e).all (after l).live = true :=
        List.all_eq_true.2 fun x hx => (live_after l x).2 (h x ((uses_after l e x).1 hx))
      rw [if_pos ha]; rfl

theorem sound_snoc (l : List Ev) (e : Ev) :
    Sound (l ++ [e]) ↔ Sound l ∧ ∀ x, Uses l e x → Alive l x := by
  constructor
  · intro h
    exact ⟨fun p e' s hl => h p e' (s ++ [e]) (by rw [hl]; simp), h l e [] rfl⟩
  · rintro ⟨h1, h2⟩ p e' s hl
    rcases snoc_split.1 hl with ⟨rfl, rfl, rfl⟩ | ⟨s', rfl, hl'⟩
    · exact h2
    · exact h1 p e' s' hl'

theorem createdBy_unique {p : List Ev} {x : Nat} {o o' : Obj} {st st' : Bool} {b b' : List Ev}
    (h : CreatedBy p x o st b) (h' : CreatedBy p x o' st' b') : o = o' ∧ st = st' ∧ b = b' := by
  induction p using snoc_ind generalizing b b' with
  | h0 => obtain ⟨a, h, -⟩ := h; simp at h
  | h1 p e ih =>
    have lt : ∀ {o st b}, CreatedBy p x o st b → x < created p := by
      rintro o st b ⟨a, rfl, rfl⟩
      simp [created, List.countP_append, List.countP_cons, Ev.creates]
    rcases createdBy_snoc.1 h with ⟨rfl, rfl, rfl⟩ | ⟨c, rfl, h1⟩
    · rcases createdBy_snoc.1 h' with ⟨h2, -, rfl⟩ | ⟨c', rfl, h2⟩
      · cases h2; exact ⟨rfl, rfl, rfl⟩
      · exact absurd (lt h2) (Nat.lt_irrefl _)
    · rcases createdBy_snoc.1 h' with ⟨rfl, rfl, rfl⟩ | ⟨c', rfl, h2⟩
      · exact absurd (lt h1) (Nat.lt_irrefl _)
      · obtain ⟨e1, e2, e3⟩ := ih h1 h2
        exact ⟨e1, e2, by rw [e3]⟩

theorem createdBy_of_lt {p : List Ev} {x : Nat} (h : x < created p) : ∃ o st b, CreatedBy p x o st b := by
  induction p using snoc_ind with
  | h0 => simp [created] at h
  | h1 p e ih =>
    rw [created_snoc] at h
    by_cases hx : x < created p
    · obtain ⟨o, st, b, hc⟩ := ih hx
      exact ⟨o, st, b ++ [e], createdBy_snoc.2 (.inr ⟨b, rfl, hc⟩)⟩
    · cases e with
      | create o st =>
        simp [Ev.creates] at h
        exact ⟨o, st, [], createdBy_snoc.2 (.inl ⟨rfl, by omega, rfl⟩)⟩
      | _ => simp [Ev.creates] at h; omega

theorem none_of {α : Type} {o : Option α} (h : o.isSome = true → False) : o = none := by
  cases o with
  | none => rfl
  | some a => exact (h rfl).elim

/-- A local object of a function that has ended. -/
theorem gone {p b : List Ev} {o : Obj} (hb : ¬ Open b) : ¬ Alive (p ++ .create o false :: b) (created p) := by
  have hc : CreatedBy (p ++ .create o false :: b) (created p) o false b := ⟨p, rfl, rfl⟩
  rintro ⟨o', b', ⟨h, h'⟩ | ⟨h, -⟩⟩
  · exact hb ((createdBy_unique hc h).2.2 ▸ h')
  · exact absurd (createdBy_unique hc h).2.1 (by decide)

theorem alive_lt {p : List Ev} {x : Nat} (h : Alive p x) : x < created p := by
  have lt : ∀ {o st b}, CreatedBy p x o st b → x < created p := by
    rintro o st b ⟨a, rfl, rfl⟩
    simp [created, List.countP_append, List.countP_cons, Ev.creates]
  obtain ⟨o, b, ⟨h, -⟩ | ⟨h, -⟩⟩ := h
  · exact lt h
  · exact lt h

theorem used_lt {p : List Ev} (hs : Sound p) {e : Ev} {x : Nat} (he : e ∈ p) (hu : ∀ q, Uses q e x) :
    x < created p := by
  obtain ⟨a, b, rfl⟩ := List.append_of_mem he
  have := alive_lt (hs a e b rfl x (hu a))
  simp only [created, List.countP_append] at this ⊢
  omega

theorem fresh_built {p : List Ev} (hs : Sound p) : .build (created p) ∉ p := fun h =>
  Nat.lt_irrefl _ (used_lt hs h fun _ => rfl)

theorem fresh_refs {p : List Ev} (hs : Sound p) {x : Nat} : ¬ Refers p (created p) x := by
  rintro (h | ⟨ob, st, b, ⟨a, h, h'⟩, -⟩)
  · exact Nat.lt_irrefl _ (used_lt hs h fun _ => rfl)
  · rw [h] at h'
    simp [created, List.countP_append, List.countP_cons, Ev.creates] at h'

/-! ## Theorems -/

/-- **C120.**  A script has no undefined behaviour because of lifetimes if and only if everything it uses,
at once or later in the tasks and tests it has registered, is in its lifetime: a local object until its
function ends, one in `Storage` until it is cleared. -/
theorem C120_exact (l : List Ev) : (exec {} l).isSome = true ↔ Sound l := by
  induction l using snoc_ind with
  | h0 =>
    refine ⟨fun _ p e s h => ?_, fun _ => rfl⟩
    simp at h
  | h1 l e ih => rw [exec_snoc, sound_snoc, ih]

/-- **C120, the rule of the examples.**  If every object is created in a function that has not ended when
the script runs, or in a storage that has not been cleared, then it does not matter what is registered,
tested, inserted and generated, as long as it has been created before. -/
theorem C120_rule {l : List Ev} (hc : ∀ p e s, l = p ++ e :: s → ∀ x, Uses p e x → x < created p)
    (hl : ∀ a o b, l = a ++ .create o false :: b → Open b)
    (hs : ∀ a o b, l = a ++ .create o true :: b → .clear ∉ b) : (exec {} l).isSome = true := by
  rw [C120_exact]
  intro p e s h x hx
  obtain ⟨o, st, b, a, rfl, rfl⟩ := createdBy_of_lt (hc p e s h x hx)
  cases st with
  | true =>
    have := hs a o (b ++ e :: s) (by rw [h]; simp)
    exact ⟨o, b, .inr ⟨⟨a, rfl, rfl⟩, fun hm => this (List.mem_append_left _ hm)⟩⟩
  | false =>
    have := hl a o (b ++ e :: s) (by rw [h]; simp)
    exact ⟨o, b, .inl ⟨⟨a, rfl, rfl⟩, fun b1 b2 hb => this b1 (b2 ++ e :: s) (by rw [hb]; simp)⟩⟩

/-- **C120, the end of a script.**  The end of `main` and the cleaning of the storage use nothing, whatever
is still registered. -/
theorem C120_exit (l : List Ev) : (exec {} (l ++ [.leave, .clear])).isSome = (exec {} l).isSome := by
  rw [Bool.eq_iff_iff, show l ++ [.leave, .clear] = (l ++ [.leave]) ++ [.clear] by simp, exec_snoc, exec_snoc]
  simp [Uses]

/-- **C120 is false** for a target that is a local object of a callback: it is registered and destroyed, and
then its tasks run. -/
theorem C120_callback_false (p : List Ev) (tc : Nat) (calls : List Ev)
    (hcalls : ∀ e ∈ calls, e ≠ .enter ∧ e ≠ .leave) :
    exec {} (p ++ [.enter, .create (.target tc) false] ++ calls ++ [.build (created p), .leave, .run []]) =
      none := by
  refine none_of fun h => ?_
  rw [C120_exact] at h
  have hq := h (p ++ [.enter, .create (.target tc) false] ++ calls ++ [.build (created p), .leave]) (.run []) []
    (by simp) (created p) (.inl ⟨created p, by simp, .inl rfl⟩)
  have e : p ++ [.enter, .create (.target tc) false] ++ calls ++ [.build (created p), .leave] =
      (p ++ [.enter]) ++ .create (.target tc) false :: (calls ++ [.build (created p), .leave]) := by simp
  have hn : created (p ++ [.enter]) = created p := by simp [created_snoc, Ev.creates]
  rw [e, ← hn] at hq
  refine gone ?_ hq
  intro ho
  have := ho _ [] (List.append_nil _).symm
  have c1 : calls.count .enter = 0 := List.count_eq_zero.2 fun hm => (hcalls _ hm).1 rfl
  have c2 : calls.count .leave = 0 := List.count_eq_zero.2 fun hm => (hcalls _ hm).2 rfl
  simp [List.count_append, List.count_cons, c1, c2] at this

/-- **C120 is false** for data of a callback that a generator refers to with a `TypedCustomBlobHandler`,
even if the generator lives. -/
theorem C120_blob_false (p : List Ev) (g : Nat) :
    exec {} (p ++ [.enter, .create .data false, .keep g (created p), .prepare g false, .build g, .leave,
      .run []]) = none := by
  refine none_of fun h => ?_
  rw [C120_exact] at h
  have hq := h (p ++ [.enter, .create .data false, .keep g (created p), .prepare g false, .build g, .leave])
    (.run []) [] (by simp) (created p)
    (.inl ⟨g, by simp, .inr ⟨⟨false, by simp⟩, .inl (by simp)⟩⟩)
  have e : p ++ [.enter, .create .data false, .keep g (created p), .prepare g false, .build g, .leave] =
      (p ++ [.enter]) ++ .create .data false ::
        [.keep g (created p), .prepare g false, .build g, .leave] := by simp
  have hn : created (p ++ [.enter]) = created p := by simp [created_snoc, Ev.creates]
  rw [e, ← hn] at hq
  refine gone ?_ hq
  intro ho
  have := ho _ [] (List.append_nil _).symm
  simp [List.count_cons] at this

/-- **C120, what `Storage` is for.**  The same callback with a target in the storage is defined after every
script that could run before and whose toolchain lives. -/
theorem C120_storage {p : List Ev} {tc : Nat} (h : (exec {} (p ++ [.run []])).isSome = true)
    (htc : Alive p tc) :
    (exec {} (p ++ [.enter, .create (.target tc) true, .prepare (created p) true, .build (created p), .leave,
      .run []])).isSome = true := by
  obtain ⟨hp, hu⟩ := (exec_snoc p (.run [])).1 h
  have hrun : ∀ x, x ∈ (after p).uses (.run []) → (after p).live x = true := fun x hx =>
    (live_after p x).2 (hu x ((uses_after p _ x).1 hx))
  have htc' := (live_after p tc).2 htc
  have hp' : exec {} p = some (after p) := by
    obtain ⟨t, ht⟩ := Option.isSome_iff_exists.1 hp
    rw [ht, exec_state ht]; rfl
  have hsound := (C120_exact p).1 hp
  have hf1 : (after p).refs (after p).count = [] := by
    rw [count_after]
    exact List.eq_nil_iff_forall_not_mem.2 fun x hx => fresh_refs hsound ((refs_after p _ x).1 hx)
  have hf2 : (after p).count ∉ (after p).built := by
    rw [count_after, built_after]
    exact fresh_built hsound
  rw [exec_append, hp', ← count_after]
  generalize after p = s at hrun htc' hf1 hf2
  have hlive : ∀ x, s.live x = true → ∀ t : St, t.stored = s.count :: s.stored →
      (t.scopes = s.scopes ∨ t.scopes = [] :: s.scopes) → t.live x = true := by
    intro x hx t h1 h2
    simp only [St.live, Bool.or_eq_true, List.contains_iff_mem] at hx ⊢
    rw [h1]
    rcases hx with hx | hx
    · exact .inl (List.mem_cons_of_mem _ hx)
    · refine .inr ?_
      rcases h2 with h2 | h2
      · rw [h2]; exact hx
      · rw [h2, List.any_cons, hx, Bool.or_true]
  have hnew : ∀ t : St, t.stored = s.count :: s.stored → t.live s.count = true := by
    intro t h; simp [St.live, h]
  have href : ∀ o, (((s.kept ++ [(s.count, tc)]).filter (·.1 = o)).map (·.2)) =
      if o = s.count then [tc] else s.refs o := by
    intro o
    by_cases ho : o = s.count
    · rw [if_pos ho, List.filter_append, List.map_append, ho]
      rw [St.refs] at hf1
      rw [hf1]; simp
    · rw [if_neg ho, List.filter_append, List.map_append]
      simp [St.refs, Ne.symm ho]
  have hs1 : St.live { s with scopes := [] :: s.scopes } tc = true := by
    simpa [St.live] using htc'
  rw [Option.bind_some]
  refine exec_cons (by simp [St.uses]) (exec_cons (by simpa [St.uses, Obj.reads, St.next] using hs1)
    (exec_cons ?_ (exec_cons ?_ (exec_cons (by simp [St.uses]) (exec_cons ?_ rfl)))))
  · intro x hx
    simp only [St.next, if_true, St.uses, St.refs, Obj.keeps, List.map_cons, List.map_nil, href,
      List.mem_cons, List.not_mem_nil, or_false] at hx
    rcases hx with rfl | rfl
    · exact hnew _ rfl
    · exact hlive _ htc' _ rfl (.inr rfl)
  · intro x hx
    simp only [St.uses, List.mem_singleton] at hx
    subst hx
    exact hnew _ rfl
  · intro x hx
    simp only [St.next, if_true, St.uses, St.refs, Obj.keeps, List.map_cons, List.map_nil, href,
      List.flatMap_nil, List.append_nil, List.mem_append, List.mem_flatMap] at hx
    rcases hx with ⟨o, ho | ho, hx⟩ | hx
    · have hne : o ≠ s.count := fun e => hf2 (e ▸ ho)
      refine hlive x (hrun x ?_) _ rfl (.inl rfl)
      simp only [St.uses, List.flatMap_nil, List.append_nil, List.mem_append, List.mem_flatMap]
      refine .inl ⟨o, ho, ?_⟩
      simpa [hne, St.refs] using hx
    · simp only [List.mem_singleton] at ho
      subst ho
      simp at hx
      rcases hx with rfl | rfl
      · exact hnew _ rfl
      · exact hlive _ htc' _ rfl (.inl rfl)
    · refine hlive x (hrun x ?_) _ rfl (.inl rfl)
      simp only [St.uses, List.mem_append, List.mem_flatMap]
      exact .inr (by simpa using hx)

end Verif.Life
