import Verif.Reg.ScheduleProps

/-!
# C37 and C38 without conditions: what `Reg::Dep` and `Reg::Run` do when there are cycles

`Reg::Dep(a, a)` is accepted (`C37_self_false`).  This file says for every registration what a call of
`Dep` does, which cycles an accepted script can have, and which builders `Reg::Run` executes.
-/

namespace Verif.Reg
open Verif

/-! ## Specification -/

/-- The builder `t`, or a builder that waits for `t`, waits for itself. -/
def MeetsCycle (E : List (Str × Str)) (t : Str) : Prop :=
  ∃ c, (c = t ∨ Reaches E t c) ∧ Reaches E c c

/-- The builder waits for itself or for a builder that waits for itself. -/
def Stuck (E : List (Str × Str)) (id : Str) : Prop :=
  ∃ c, (c = id ∨ Reaches E c id) ∧ Reaches E c c

/-- The dependencies without those of a builder on itself. -/
def proper (E : List (Str × Str)) : List (Str × Str) := E.filter fun e => e.1 ≠ e.2

/-! ## The search -/

/-- More rounds do not change an answer. -/
theorem search_more {g : Graph} {m : Str} : ∀ (n : Nat) (q : List Str), search g m n q ≠ .running →
    ∀ k, n ≤ k → search g m k q = search g m n q := by
  intro n
  induction n with
  | zero =>
    intro q h k _
    cases q with
    | nil => simp [search]
    | cons t q => simp [search] at h
  | succ n ih =>
    intro q h k hk
    cases q with
    | nil => simp [search]
    | cons t q =>
      obtain ⟨k, rfl⟩ : ∃ j, k = j + 1 := ⟨k - 1, by omega⟩
      simp only [search] at h ⊢
      split
      · rfl
      · rename_i hm
        rw [if_neg hm] at h
        exact ih _ h k (by omega)

/-- The tasks of the queue are looked at in order. -/
theorem search_round {g : Graph} {m : Str} (n : Nat) : ∀ (q₁ q₂ : List Str),
    search g m (q₁.length + n) (q₁ ++ q₂) =
      if ∃ x ∈ q₁, (x, m) ∈ g.edges then .found else search g m n (q₂ ++ q₁.flatMap g.successors) := by
  intro q₁
  induction q₁ with
  | nil => intro q₂; simp
  | cons t q ih =>
    intro q₂
    rw [List.length_cons, show q.length + 1 + n = (q.length + n) + 1 by omega, List.cons_append, search]
    by_cases hm : (t, m) ∈ g.edges
    · rw [if_pos (by simpa using mem_successors.2 hm), if_pos ⟨t, by simp, hm⟩]
    · rw [if_neg (by
        simp only [List.any_eq_true, decide_eq_true_eq, not_exists, not_and]
        rintro x hx rfl
        exact hm (mem_successors.1 hx)), List.append_assoc, ih]
      by_cases hx : ∃ x ∈ q, (x, m) ∈ g.edges
      · obtain ⟨x, hx, he⟩ := hx
        rw [if_pos ⟨x, hx, he⟩, if_pos ⟨x, by simp [hx], he⟩]
      · rw [if_neg hx, if_neg (by
          rintro ⟨x, hx', he⟩
          rcases List.mem_cons.1 hx' with rfl | hx'
          · exact hm he
          · exact hx ⟨x, hx', he⟩)]
        simp

/-- What can be reached is found, whatever cycles there are. -/
theorem search_reaches {g : Graph} {m t : Str} (h : Reaches g.edges t m) :
    ∀ q, t ∈ q → ∃ n, search g m n q = .found := by
  induction h with
  | @edge a b h =>
    intro q hq
    refine ⟨q.length + 0, ?_⟩
    have := search_round (g := g) 0 q [] (m := b)
    rw [List.append_nil] at this
    rw [this, if_pos ⟨_, hq, h⟩]
  | @step a b c h _ ih =>
    intro q hq
    obtain ⟨n, hn⟩ := ih (q.flatMap g.successors) (List.mem_flatMap.2 ⟨_, hq, mem_successors.2 h⟩)
    refine ⟨q.length + n, ?_⟩
    have := search_round (g := g) n q [] (m := c)
    rw [List.append_nil, List.nil_append] at this
    rw [this]
    split
    · rfl
    · exact hn

theorem MeetsCycle.next {E : List (Str × Str)} {t : Str} (h : MeetsCycle E t) :
    ∃ b, (t, b) ∈ E ∧ MeetsCycle E b := by
  obtain ⟨c, h1, h2⟩ := h
  rcases h1 with rfl | h1
  · obtain ⟨b, hb, hbc⟩ := h2.first
    exact ⟨b, hb, c, hbc.imp Eq.symm id, h2⟩
  · obtain ⟨b, hb, hbc⟩ := h1.first
    exact ⟨b, hb, c, hbc.imp Eq.symm id, h2⟩

/-- The search does not leave a cycle. -/
theorem search_cycle {g : Graph} {m : Str} : ∀ (n : Nat) (q : List Str),
    (∀ x ∈ q, ¬ Reaches g.edges x m) → (∃ x ∈ q, MeetsCycle g.edges x) →
    search g m n q = .running := by
  intro n
  induction n with
  | zero =>
    intro q _ h
    obtain ⟨x, hx, -⟩ := h
    cases q with
    | nil => simp at hx
    | cons t q => rfl
  | succ n ih =>
    intro q hq h
    cases q with
    | nil => obtain ⟨x, hx, -⟩ := h; simp at hx
    | cons t q =>
      have ht := hq t (by simp)
      rw [search, if_neg (by
        simp only [List.any_eq_true, decide_eq_true_eq, not_exists, not_and]
        rintro x hx rfl
        exact ht (.edge (mem_successors.1 hx)))]
      refine ih _ ?_ ?_
      · intro x hx hr
        rcases List.mem_append.1 hx with hx | hx
        · exact hq x (by simp [hx]) hr
        · exact ht (.step (mem_successors.1 hx) hr)
      · obtain ⟨x, hx, hc⟩ := h
        rcases List.mem_cons.1 hx with rfl | hx
        · obtain ⟨b, hb, hbc⟩ := hc.next
          exact ⟨b, List.mem_append_right _ (mem_successors.2 hb), hbc⟩
        · exact ⟨x, List.mem_append_left _ hx, hc⟩

open Classical in
/-- Without a cycle on the way the search ends. -/
theorem search_ends {g : Graph} {m t : Str} (h : ¬ MeetsCycle g.edges t) :
    ∃ n, search g m n [t] ≠ .running := by
  let E := g.edges.filter fun e => decide (e.1 = t ∨ Reaches g.edges t e.1)
  have hsub : ∀ e ∈ E, e ∈ g.edges := fun e he => (List.mem_filter.1 he).1
  have hac : Acyclic E := by
    intro c hc
    obtain ⟨b, hb, -⟩ := hc.first
    have := (List.mem_filter.1 hb).2
    simp only [decide_eq_true_eq] at this
    exact h ⟨c, this, hc.mono hsub⟩
  obtain ⟨w, hw⟩ := weights E hac
  have hsucc : ∀ x, (x = t ∨ Reaches g.edges t x) → g.successors x = nexts E x := by
    intro x hx
    simp only [Graph.successors, nexts, E, List.filter_filter]
    congr 1
    refine List.filter_congr fun e _ => ?_
    by_cases hex : e.1 = x
    · simp [hex, hx]
    · simp [hex]
  have key : ∀ (n : Nat) (q : List Str), (∀ x ∈ q, x = t ∨ Reaches g.edges t x) → total w q ≤ n →
      search g m n q ≠ .running := by
    intro n
    induction n with
    | zero =>
      intro q _ hq
      cases q with
      | nil => simp [search]
      | cons y q =>
        have := hw y
        simp only [total, List.map_cons, List.sum_cons] at hq
        omega
    | succ n ih =>
      intro q hr hq
      cases q with
      | nil => simp [search]
      | cons y q =>
        simp only [search]
        split
        · simp
        · refine ih _ ?_ ?_
          · intro x hx
            rcases List.mem_append.1 hx with hx | hx
            · exact hr x (by simp [hx])
            · have hyx := mem_successors.1 hx
              rcases hr y (by simp) with rfl | hy
              · exact .inr (.edge hyx)
              · exact .inr (hy.trans (.edge hyx))
          · have := hw y
            rw [← hsucc y (hr y (by simp))] at this
            have h' : w y + total w q ≤ n + 1 := by simpa [total] using hq
            rw [total_append]
            omega
  exact ⟨_, key _ [t] (by simp) (Nat.le_refl _)⟩

theorem dep_registered {n : Nat} {g : Graph} {t d : Str} (ht : t ∈ g.ids) (hd : d ∈ g.ids) :
    dep n g t d = if (d, t) ∈ g.edges then .fatal else
      match search g d n [t] with
      | .found => .fatal
      | .running => .running
      | .none => .ok { g with edges := g.edges ++ [(d, t)] } := by
  rw [dep, if_neg (by simp [ht, hd])]
  by_cases he : (d, t) ∈ g.edges
  · rw [if_pos he, if_pos]
    simp only [detectDuplicate, List.any_eq_true, decide_eq_true_eq]
    exact ⟨d, mem_dependents.2 he, rfl⟩
  · rw [if_neg he]
    have : detectDuplicate g t d = false := by
      rw [Bool.eq_false_iff]
      intro h
      simp only [detectDuplicate, List.any_eq_true, decide_eq_true_eq] at h
      obtain ⟨x, h1, rfl⟩ := h
      exact he (mem_dependents.1 h1)
    rw [this]
    rfl

/-! ## C37 -/

open Classical in
/-- C37, for every registration, with cycles or without: what `Dep(target, dependency)` does with
registered builders.  It is rejected if the dependency is there already or the dependency waits
for the target; it never returns if the target or one that waits for it waits for itself; otherwise it is accepted, also for
`target = dependency`. -/
theorem C37_dep_exact (g : Graph) (t d : Str) (ht : t ∈ g.ids) (hd : d ∈ g.ids) :
    ∃ n, ∀ m, n ≤ m → dep m g t d =
      if (d, t) ∈ g.edges ∨ Reaches g.edges t d then .fatal
      else if MeetsCycle g.edges t then .running
      else .ok { g with edges := g.edges ++ [(d, t)] } := by
  by_cases he : (d, t) ∈ g.edges
  · refine ⟨0, fun m _ => ?_⟩
    rw [dep_registered ht hd, if_pos he, if_pos (.inl he)]
  by_cases hr : Reaches g.edges t d
  · obtain ⟨n, hn⟩ := search_reaches hr [t] (by simp)
    refine ⟨n, fun m hm => ?_⟩
    rw [dep_registered ht hd, if_neg he, if_pos (.inr hr),
      search_more n _ (by rw [hn]; simp) m hm, hn]
  have hn : ¬ ((d, t) ∈ g.edges ∨ Reaches g.edges t d) := fun h => h.elim he hr
  by_cases hc : MeetsCycle g.edges t
  · refine ⟨0, fun m _ => ?_⟩
    rw [dep_registered ht hd, if_neg he, if_neg hn, if_pos hc,
      search_cycle m [t] (by simpa using hr) ⟨t, by simp, hc⟩]
  · obtain ⟨n, hs⟩ := search_ends (m := d) hc
    refine ⟨n, fun m hm => ?_⟩
    rw [dep_registered ht hd, if_neg he, if_neg hn, if_neg hc, search_more n _ hs m hm]
    cases hx : search g d n [t] with
    | running => exact absurd hx hs
    | found =>
      obtain ⟨x, h1, h2⟩ := search_found _ _ hx
      simp only [List.mem_singleton] at h1
      exact absurd (h1 ▸ h2) hr
    | none => rfl

/-- A chain of dependencies is one without dependencies of builders on themselves, or stays at one
builder. -/
theorem Reaches.proper {E : List (Str × Str)} {a b : Str} (h : Reaches E a b) :
    Reaches (proper E) a b ∨ (a = b ∧ (a, a) ∈ E) := by
  induction h with
  | @edge a b h =>
    by_cases hab : a = b
    · subst hab; exact .inr ⟨rfl, h⟩
    · exact .inl (.edge (List.mem_filter.2 ⟨h, by simpa using hab⟩))
  | @step a b c h _ ih =>
    by_cases hab : a = b
    · subst hab; exact ih
    · have he : (a, b) ∈ Reg.proper E := List.mem_filter.2 ⟨h, by simpa using hab⟩
      rcases ih with ih | ⟨rfl, -⟩
      · exact .inl (.step he ih)
      · exact .inl (.edge he)

theorem proper_sub {E : List (Str × Str)} : ∀ e ∈ proper E, e ∈ E := fun _ he => (List.mem_filter.1 he).1

theorem call_proper {n : Nat} {s s' : Script} {c : Call} (h : call n s c = .ok s')
    (ha : Acyclic (proper s.graph.edges)) : Acyclic (proper s'.graph.edges) := by
  have lift : ∀ {r : Result} {ran : List Nat}, r.lift ran = .ok s' → r = .ok s'.graph := by
    intro r ran h
    cases r <;> simp only [Result.lift, Outcome.ok.injEq, reduceCtorEq] at h
    subst h; rfl
  have hbuild : ∀ id, build s.graph id = .ok s'.graph → Acyclic (proper s'.graph.edges) := by
    intro id h
    rw [build] at h
    split at h
    · cases h
    · simp only [Result.ok.injEq] at h; rw [← h]; exact ha
  cases c <;> simp only [call] at h <;> split at h
  · simp only [Outcome.ok.injEq] at h; rw [← h]; exact ha
  · simp only [Outcome.ok.injEq] at h; rw [← h]; exact ha
  · exact hbuild _ (lift h)
  · simp only [Outcome.ok.injEq] at h; rw [← h]; exact ha
  · simp only [Outcome.ok.injEq] at h; rw [← h]; exact ha
  · simp only [Outcome.ok.injEq] at h; rw [← h]; exact ha
  · exact hbuild _ (lift h)
  · simp only [Outcome.ok.injEq] at h; rw [← h]; exact ha
  · rename_i t d _
    have h := lift h
    by_cases hm : t ∉ s.graph.ids ∨ d ∉ s.graph.ids
    · rw [C37_unregistered n _ t d hm] at h; cases h
    · have ht : t ∈ s.graph.ids := Classical.byContradiction fun h => hm (.inl h)
      have hd : d ∈ s.graph.ids := Classical.byContradiction fun h => hm (.inr h)
      rw [dep_registered ht hd] at h
      split at h
      · cases h
      · split at h
        · cases h
        · cases h
        · rename_i hs
          have hr := search_none _ _ hs t (by simp)
          simp only [Result.ok.injEq] at h
          rw [← h]
          show Acyclic (proper (s.graph.edges ++ [(d, t)]))
          rw [proper, List.filter_append]
          by_cases hdt : d = t
          · subst hdt
            rw [List.filter_cons, if_neg (by simp), List.filter_nil, List.append_nil]
            exact ha
          · rw [List.filter_cons, if_pos (by simpa using hdt), List.filter_nil]
            refine (acyclic_add ha).2 ?_
            rintro (h | h)
            · exact hdt h
            · exact hr (h.mono proper_sub)
  · simp only [Outcome.ok.injEq] at h; rw [← h]; exact ha
  · have h := lift h
    rw [test] at h
    split at h
    · cases h
    · split at h
      · cases h
      · simp only [Result.ok.injEq] at h; rw [← h]; exact ha
  · simp only [Outcome.ok.injEq] at h; rw [← h]; exact ha

/-- C37, for every accepted sequence of calls: apart from builders that are declared to depend on
themselves there is no cycle. -/
theorem C37_cycles (n : Nat) (l : List Call) (s : Script)
    (h : calls n ⟨Graph.empty, []⟩ l = .ok s) :
    Acyclic (proper s.graph.edges) ∧ ∀ c, Reaches s.graph.edges c c ↔ (c, c) ∈ s.graph.edges := by
  have key : ∀ (l : List Call) (s s' : Script), calls n s l = .ok s' →
      Acyclic (proper s.graph.edges) → Acyclic (proper s'.graph.edges) := by
    intro l
    induction l with
    | nil => intro s s' h ha; simp only [calls, Outcome.ok.injEq] at h; subst h; exact ha
    | cons c l ih =>
      intro s s' h ha
      simp only [calls] at h
      cases hc : call n s c with
      | ok s1 => rw [hc] at h; exact ih s1 s' h (call_proper hc ha)
      | fatal => rw [hc] at h; cases h
      | running => rw [hc] at h; cases h
  have ha := key l _ s h acyclic_nil
  refine ⟨ha, fun c => ⟨fun hc => ?_, fun hc => .edge hc⟩⟩
  exact (hc.proper.resolve_left (ha c)).2

/-! ## C38 -/

/-- Everything is scheduled after what it depends on. -/
def Topological (E : List (Str × Str)) (l : List Str) : Prop :=
  ∀ pre b post, l = pre ++ b :: post → ∀ a, (a, b) ∈ E → a ∈ pre

theorem inOrder_nil (E : List (Str × Str)) : Topological E [] := by
  intro pre b post h
  simp at h

theorem inOrder_append {E : List (Str × Str)} {l : List Str} {x : Str} (h : Topological E l)
    (hx : ∀ a, (a, x) ∈ E → a ∈ l) : Topological E (l ++ [x]) := by
  intro pre b post he a hab
  rcases List.eq_nil_or_concat post with rfl | ⟨post', y, rfl⟩
  · have := List.append_inj' he (by simp)
    obtain ⟨rfl, h2⟩ := this
    simp only [List.cons.injEq, and_true] at h2
    subst h2
    exact hx a hab
  · rw [List.concat_eq_append, ← List.cons_append, ← List.append_assoc] at he
    have := List.append_inj' he (by simp)
    exact h pre b post' this.1 a hab

theorem inOrder_step {w : World} (h : Topological w.graph.edges w.begun) (e : WEvent) :
    Topological (w.step e).graph.edges (w.step e).begun := by
  cases e with
  | edit p t => exact h
  | delete p => exact h
  | dropState id => simp only [World.step]; split <;> exact h
  | launch g s =>
    simp only [World.step]
    split
    · exact inOrder_nil _
    · exact h
  | «begin» id =>
    simp only [World.step]
    split
    · rename_i hg
      simp only [World.ready, Bool.and_eq_true, List.all_eq_true, World.finished] at hg
      refine inOrder_append h fun a ha => ?_
      have := hg.2.2 a (mem_dependents.2 ha)
      simpa using this.1
    · exact h
  | task id e ws =>
    simp only [World.step]
    split
    · rw [task_eq]
      obtain ⟨-, h2, -, h3, -⟩ := writes_frame ws (w.stepped id e ws)
      rw [h2, h3]
      exact h
    · exact h
  | look id e => simp only [World.step]; split <;> exact h
  | join => simp only [World.step]; split <;> exact h
  | kill order written => simp only [World.step]; split <;> exact h

theorem inOrder_steps : ∀ (evs : List WEvent) (w : World), Topological w.graph.edges w.begun →
    Topological (w.steps evs).graph.edges (w.steps evs).begun := by
  intro evs
  induction evs with
  | nil => intro w h; exact h
  | cons e l ih => intro w h; exact ih _ (inOrder_step h e)

theorem Topological.reaches {E : List (Str × Str)} {l : List Str} (h : Topological E l) {a b : Str}
    (hr : Reaches E a b) : ∀ pre post, l = pre ++ b :: post → a ∈ pre := by
  induction hr with
  | edge he => intro pre post hl; exact h _ _ _ hl _ he
  | @step a b c he _ ih =>
    intro pre post hl
    have hb := ih pre post hl
    obtain ⟨p1, p2, rfl⟩ := List.append_of_mem hb
    have := h p1 b (p2 ++ c :: post) (by rw [hl]; simp) a he
    exact List.mem_append_left _ this

/-- Among builders each of which waits for another one of them, one waits for itself. -/
theorem cycle_of_waiting {E : List (Str × Str)} {U : List Str} (hw : ∀ x ∈ U, ∃ d ∈ U, (d, x) ∈ E)
    {id : Str} (hid : id ∈ U) : Stuck E id := by
  have key : ∀ n, Stuck E id ∨ ∃ x l, (x :: l).Nodup ∧ (∀ y ∈ x :: l, y ∈ U) ∧
      (∀ y ∈ l, Reaches E x y) ∧ (∀ y ∈ x :: l, y = id ∨ Reaches E y id) ∧ l.length = n := by
    intro n
    induction n with
    | zero => exact .inr ⟨id, [], by simp, by simpa using hid, by simp, by simp, rfl⟩
    | succ n ih =>
      rcases ih with h | ⟨x, l, h1, h2, h3, h4, h5⟩
      · exact .inl h
      · obtain ⟨d, hd, hdx⟩ := hw x (h2 x (by simp))
        have hto : d = id ∨ Reaches E d id := by
          rcases h4 x (by simp) with rfl | hx
          · exact .inr (.edge hdx)
          · exact .inr (.step hdx hx)
        by_cases hm : d ∈ x :: l
        · refine .inl ⟨d, hto, ?_⟩
          rcases List.mem_cons.1 hm with rfl | hm
          · exact .edge hdx
          · exact .step hdx (h3 d hm)
        · refine .inr ⟨d, x :: l, List.nodup_cons.2 ⟨hm, h1⟩, ?_, ?_, ?_, by simp [h5]⟩
          · intro y hy
            rcases List.mem_cons.1 hy with rfl | hy
            · exact hd
            · exact h2 y hy
          · intro y hy
            rcases List.mem_cons.1 hy with rfl | hy
            · exact .edge hdx
            · exact .step hdx (h3 y hy)
          · intro y hy
            rcases List.mem_cons.1 hy with rfl | hy
            · exact hto
            · exact h4 y hy
  rcases key U.length with h | ⟨x, l, h1, h2, -, -, h5⟩
  · exact h
  · exfalso
    have : (x :: l).length ≤ U.length := h1.length_le_of_subset fun _ hy => h2 _ hy
    rw [List.length_cons] at this
    omega

/-- C38, for every registration, with cycles or without: when `Reg::Run` ends, the tasks of a builder
have run, completely, unless it waits for itself or for a builder that waits for itself, and then they
have not been started. -/
theorem C38_executed_iff (kinds : Str → Kind) (evs : List WEvent) :
    let w := (World.init kinds).steps evs
    Valid w.graph → w.active = true → (w.step .join).active = false →
    ∀ id ∈ w.graph.ids,
      (¬ Stuck w.graph.edges id → id ∈ w.begun ∧ (w.comps id).running = false) ∧
      (Stuck w.graph.edges id → id ∉ w.begun) := by
  intro w hv ha hj id hid
  have hb : BInv w := bInv_steps evs _ (bInv_init kinds)
  have hio : Topological w.graph.edges w.begun := inOrder_steps evs _ (inOrder_nil _)
  have ho : w.over = true := by
    simp only [World.step] at hj
    split at hj
    · rename_i hg
      simp only [Bool.and_eq_true] at hg
      exact hg.2
    · rw [ha] at hj; cases hj
  simp only [World.over, Bool.and_eq_true, List.all_eq_true, Bool.not_eq_true'] at ho
  obtain ⟨h1, h2⟩ := ho
  constructor
  · intro hs
    by_cases hbg : id ∈ w.begun
    · have := h1 id hbg
      simp only [World.finished, Bool.and_eq_true, Bool.not_eq_true'] at this
      exact ⟨hbg, this.2⟩
    · refine absurd (cycle_of_waiting (U := w.graph.ids.filter fun x => x ∉ w.begun) ?_ ?_) hs
      · intro x hx
        obtain ⟨hxi, hxb⟩ := List.mem_filter.1 hx
        simp only [decide_eq_true_eq] at hxb
        have := h2 x hxi
        simp only [World.ready, Bool.and_eq_false_iff, decide_eq_false_iff_not,
          List.all_eq_false] at this
        rcases this with (h3 | h3) | ⟨d, hd, h3⟩
        · exact absurd hxi h3
        · exact absurd hxb h3
        · have hed := mem_dependents.1 hd
          refine ⟨d, List.mem_filter.2 ⟨(hv.ends _ hed).1, ?_⟩, hed⟩
          simp only [decide_eq_true_eq]
          intro hdb
          exact h3 (h1 d hdb)
      · exact List.mem_filter.2 ⟨hid, by simpa using hbg⟩
  · rintro ⟨c, hc, hcc⟩ hbg
    have hcb : c ∈ w.begun := by
      rcases hc with rfl | hc
      · exact hbg
      · obtain ⟨pre, post, hl⟩ := List.append_of_mem hbg
        rw [hl]
        exact List.mem_append_left _ (hio.reaches hc pre post hl)
    obtain ⟨pre, post, hl⟩ := List.append_of_mem hcb
    have hcp := hio.reaches hcc pre post hl
    have hnd := hb.nodup
    rw [hl, List.nodup_append] at hnd
    exact hnd.2.2 c hcp c (by simp) rfl

/-- C38 for scripts: when the calls of the script were accepted, `Reg::Run` executes exactly the builders
that are not declared to depend on themselves and do not depend on such a builder. -/
theorem C38_script (kinds : Str → Kind) (evs : List WEvent) (n : Nat) (l : List Call) (s : Script)
    (h : calls n ⟨Graph.empty, []⟩ l = .ok s) :
    let w := (World.init kinds).steps evs
    w.graph = s.graph → w.active = true → (w.step .join).active = false →
    ∀ id ∈ s.graph.ids, id ∈ w.begun ↔
      (id, id) ∉ s.graph.edges ∧ ∀ c, Reaches s.graph.edges c id → (c, c) ∉ s.graph.edges := by
  intro w hg ha hj id hid
  have hx := C38_executed_iff kinds evs (by rw [show ((World.init kinds).steps evs).graph = s.graph from hg]; exact C37_valid n l s h) ha hj id
    (by rw [show ((World.init kinds).steps evs).graph = s.graph from hg]; exact hid)
  rw [show ((World.init kinds).steps evs).graph = s.graph from hg] at hx
  have hcy := (C37_cycles n l s h).2
  constructor
  · intro hb
    have hns : ¬ Stuck s.graph.edges id := fun hst => hx.2 hst hb
    exact ⟨fun he => hns ⟨id, .inl rfl, .edge he⟩, fun c hc he => hns ⟨c, .inr hc, .edge he⟩⟩
  · rintro ⟨h1, h2⟩
    refine (hx.1 ?_).1
    rintro ⟨c, rfl | hc, hcc⟩
    · exact h1 ((hcy c).1 hcc)
    · exact h2 c hc ((hcy c).1 hcc)

/-! ## Concrete cases -/

/-- Three builders: one is declared to depend on itself, one depends on it, the third is free. -/
def exLoopScript : List Call :=
  [ .build ⟨true, true⟩ b!"a", .build ⟨true, true⟩ b!"b", .build ⟨true, true⟩ b!"c",
    .dep ⟨true, true⟩ b!"b" b!"a", .dep ⟨true, true⟩ b!"a" b!"a" ]

def exLoopGraph : Graph :=
  ⟨[b!"a", b!"b", b!"c"], [(b!"a", b!"b"), (b!"a", b!"a")], []⟩

example : calls 5 ⟨Graph.empty, []⟩ exLoopScript = .ok ⟨exLoopGraph, []⟩ := by decide +kernel

/-- `Dep(a, c)` does not return, `Dep(b, c)` and `Dep(c, a)` are accepted, `Dep(a, b)` is rejected. -/
example : MeetsCycle exLoopGraph.edges b!"a" ∧ (∀ n, dep n exLoopGraph b!"a" b!"c" = .running) ∧
    (∃ g, dep 5 exLoopGraph b!"b" b!"c" = .ok g) ∧ (∃ g, dep 5 exLoopGraph b!"c" b!"a" = .ok g) ∧
    dep 5 exLoopGraph b!"a" b!"b" = .fatal := by
  refine ⟨⟨b!"a", .inl rfl, .edge (by simp [exLoopGraph])⟩, fun n => ?_, ⟨_, rfl⟩, ⟨_, rfl⟩,
    by decide +kernel⟩
  rw [dep_registered (by decide) (by decide), if_neg (by decide), search_cycle n [b!"a"] ?_
    ⟨b!"a", by simp, b!"a", .inl rfl, .edge (by simp [exLoopGraph])⟩]
  intro x hx hr
  obtain ⟨b, hb, -⟩ := hr.last
  simp [exLoopGraph] at hb

/-- Only the free builder is executed. -/
example :
    let w := (World.init fun _ => .gen).steps [ .launch exLoopGraph fun _ => .gen [],
      .begin b!"c", .task b!"c" (.g .begin) [], .task b!"c" (.g (.finish [] true)) [] ]
    w.graph = exLoopGraph ∧ w.active = true ∧ (w.step .join).active = false ∧ b!"c" ∈ w.begun ∧
    Stuck exLoopGraph.edges b!"b" ∧ b!"b" ∉ w.begun := by
  refine ⟨by decide +kernel, by decide +kernel, by decide +kernel, by decide +kernel, ?_, by decide +kernel⟩
  exact ⟨b!"a", .inr (.edge (by simp [exLoopGraph])), .edge (by simp [exLoopGraph])⟩

end Verif.Reg
