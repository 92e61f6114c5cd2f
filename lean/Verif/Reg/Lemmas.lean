import Verif.Reg.Spec

namespace Verif.Reg
open Verif

theorem mem_successors {g : Graph} {a b : Str} : b ∈ g.successors a ↔ (a, b) ∈ g.edges := by
  simp only [Graph.successors, List.mem_map, List.mem_filter, decide_eq_true_eq]
  constructor
  · rintro ⟨⟨x, y⟩, ⟨h1, rfl⟩, rfl⟩; exact h1
  · intro h; exact ⟨(a, b), ⟨h, rfl⟩, rfl⟩

theorem mem_dependents {g : Graph} {a b : Str} : a ∈ g.dependents b ↔ (a, b) ∈ g.edges := by
  simp only [Graph.dependents, List.mem_map, List.mem_filter, decide_eq_true_eq]
  constructor
  · rintro ⟨⟨x, y⟩, ⟨h1, rfl⟩, rfl⟩; exact h1
  · intro h; exact ⟨(a, b), ⟨h, rfl⟩, rfl⟩

variable {E F : List (Str × Str)}

theorem Reaches.trans {a b c : Str} (h : Reaches E a b) (h' : Reaches E b c) : Reaches E a c := by
  induction h with
  | edge h => exact .step h h'
  | step h _ ih => exact .step h (ih h')

theorem Reaches.mono {a b : Str} (hs : ∀ e ∈ E, e ∈ F) (h : Reaches E a b) : Reaches F a b := by
  induction h with
  | edge h => exact .edge (hs _ h)
  | step h _ ih => exact .step (hs _ h) ih

/-- The first edge of a chain. -/
theorem Reaches.first {a c : Str} (h : Reaches E a c) :
    ∃ b, (a, b) ∈ E ∧ (b = c ∨ Reaches E b c) := by
  cases h with
  | edge h => exact ⟨c, h, .inl rfl⟩
  | step h h' => exact ⟨_, h, .inr h'⟩

/-- The last edge of a chain. -/
theorem Reaches.last {a c : Str} (h : Reaches E a c) :
    ∃ b, (b, c) ∈ E ∧ (a = b ∨ Reaches E a b) := by
  induction h with
  | edge h => exact ⟨_, h, .inl rfl⟩
  | step h _ ih =>
    obtain ⟨b, h1, h2⟩ := ih
    refine ⟨b, h1, .inr ?_⟩
    rcases h2 with rfl | h2
    · exact .edge h
    · exact .step h h2

theorem Acyclic.mono (hs : ∀ e ∈ E, e ∈ F) (h : Acyclic F) : Acyclic E :=
  fun a ha => h a (ha.mono hs)

/-- With one more edge a chain either avoids it, or goes through it. -/
theorem Reaches.add {x y a b : Str} (h : Reaches (E ++ [(a, b)]) x y) :
    Reaches E x y ∨ ((x = a ∨ Reaches E x a) ∧ (b = y ∨ Reaches E b y)) := by
  induction h with
  | edge h =>
    rcases List.mem_append.1 h with h | h
    · exact .inl (.edge h)
    · simp only [List.mem_singleton, Prod.mk.injEq] at h
      exact .inr ⟨.inl h.1, .inl h.2.symm⟩
  | step h _ ih =>
    rcases List.mem_append.1 h with h5 | h
    · rcases ih with ih | ⟨h1, h2⟩
      · exact .inl (.step h5 ih)
      · refine .inr ⟨.inr ?_, h2⟩
        rcases h1 with rfl | h1
        · exact .edge h5
        · exact .step h5 h1
    · simp only [List.mem_singleton, Prod.mk.injEq] at h
      obtain ⟨rfl, rfl⟩ := h
      rcases ih with ih | ⟨_, h2⟩
      · exact .inr ⟨.inl rfl, .inr ih⟩
      · exact .inr ⟨.inl rfl, h2⟩

/-- The new edge closes a cycle exactly if its start was reachable from its end. -/
theorem acyclic_add {a b : Str} (h : Acyclic E) :
    Acyclic (E ++ [(a, b)]) ↔ ¬ (a = b ∨ Reaches E b a) := by
  constructor
  · rintro hc (rfl | hr)
    · exact hc a (.edge (by simp))
    · exact hc a (.step (b := b) (by simp) (hr.mono (by simp; grind)))
  · intro hn x hx
    rcases hx.add with h1 | ⟨h1, h2⟩
    · exact h x h1
    · refine hn ?_
      rcases h1 with rfl | h1 <;> rcases h2 with rfl | h2
      · exact .inl rfl
      · exact .inr h2
      · exact .inr h1
      · exact .inr (h2.trans h1)

/-! ## The search -/

theorem search_found {g : Graph} {m : Str} : ∀ (n : Nat) (q : List Str), search g m n q = .found →
    ∃ t ∈ q, Reaches g.edges t m := by
  intro n
  induction n with
  | zero => intro q h; cases q <;> simp [search] at h
  | succ n ih =>
    intro q h
    cases q with
    | nil => simp [search] at h
    | cons t q =>
      simp only [search] at h
      split at h
      · rename_i hm
        simp only [List.any_eq_true, decide_eq_true_eq] at hm
        obtain ⟨x, h1, rfl⟩ := hm
        exact ⟨t, by simp, .edge (mem_successors.1 h1)⟩
      · obtain ⟨x, h1, h2⟩ := ih _ h
        rcases List.mem_append.1 h1 with h1 | h1
        · exact ⟨x, by simp [h1], h2⟩
        · exact ⟨t, by simp, .step (mem_successors.1 h1) h2⟩

theorem search_none {g : Graph} {m : Str} : ∀ (n : Nat) (q : List Str), search g m n q = .none →
    ∀ t ∈ q, ¬ Reaches g.edges t m := by
  intro n
  induction n with
  | zero => intro q h; cases q <;> simp [search] at h ⊢
  | succ n ih =>
    intro q h
    cases q with
    | nil => simp
    | cons t q =>
      simp only [search] at h
      split at h
      · simp at h
      · rename_i hm
        simp only [List.any_eq_true, decide_eq_true_eq, not_exists, not_and] at hm
        have ih := ih _ h
        intro x hx hr
        rcases List.mem_cons.1 hx with rfl | hx
        · obtain ⟨b, h1, rfl | h2⟩ := hr.first
          · exact hm b (mem_successors.2 h1) rfl
          · exact ih b (by simp [mem_successors.2 h1]) h2
        · exact ih x (by simp [hx]) hr

/-- Sum of the weights of a list. -/
def total (w : Str → Nat) (l : List Str) : Nat := (l.map w).sum

theorem total_append {w : Str → Nat} {a b : List Str} : total w (a ++ b) = total w a + total w b := by
  simp [total]

theorem total_le {w w' : Str → Nat} {l : List Str} (h : ∀ x ∈ l, w x ≤ w' x) :
    total w l ≤ total w' l := by
  induction l with
  | nil => simp [total]
  | cons a l ih =>
    have h1 := h a (by simp)
    have h2 := ih fun x hx => h x (by simp [hx])
    simp only [total, List.map_cons, List.sum_cons] at *
    omega

theorem total_mul {w : Str → Nat} {c : Nat} {l : List Str} :
    total (fun x => w x * c) l = total w l * c := by
  induction l with
  | nil => simp [total]
  | cons a l ih =>
    simp only [total, List.map_cons, List.sum_cons] at *
    rw [ih, Nat.add_mul]

/-- Ends of the edges that start at a task. -/
def nexts (E : List (Str × Str)) (a : Str) : List Str := (E.filter fun e => e.1 = a).map (·.2)

theorem mem_nexts {a b : Str} : b ∈ nexts E a ↔ (a, b) ∈ E :=
  mem_successors (g := ⟨[], E, []⟩)

/-- In a graph without cycles the number of chains is finite: there are weights such that
a task weighs more than the tasks after it together. -/
theorem weights : ∀ E : List (Str × Str), Acyclic E →
    ∃ w : Str → Nat, ∀ x, 1 + total w (nexts E x) ≤ w x := by
  intro E
  induction E with
  | nil => intro _; exact ⟨fun _ => 1, by intro x; simp [nexts, total]⟩
  | cons e E ih =>
    intro hc
    obtain ⟨a, b⟩ := e
    obtain ⟨w, hw⟩ := ih (hc.mono (by simp; grind))
    classical
    let c := w b
    refine ⟨fun x => if x = a ∨ Reaches E x a then w x * (1 + c) else w x, fun x => ?_⟩
    have hb : ¬ (b = a ∨ Reaches E b a) := by
      rintro (rfl | hr)
      · exact hc b (.edge (by simp))
      · exact hc a (.step (b := b) (by simp) (hr.mono (by simp; grind)))
    have hn : nexts ((a, b) :: E) x = if a = x then b :: nexts E x else nexts E x := by
      simp only [nexts, List.filter_cons, decide_eq_true_eq]
      split <;> simp
    have hle : total (fun x => if x = a ∨ Reaches E x a then w x * (1 + c) else w x) (nexts E x)
        ≤ total w (nexts E x) * (1 + c) := by
      rw [← total_mul]
      refine total_le fun y _ => ?_
      split
      · exact Nat.le_refl _
      · exact Nat.le_mul_of_pos_right _ (by omega)
    have hx := hw x
    have h3 : (1 + total w (nexts E x)) * (1 + c) ≤ w x * (1 + c) := Nat.mul_le_mul_right _ hx
    rw [Nat.add_mul] at h3
    rw [hn]
    by_cases hxa : a = x
    · subst hxa
      simp only [if_true, true_or]
      have hh : total (fun x => if x = a ∨ Reaches E x a then w x * (1 + c) else w x)
          (b :: nexts E a) = c + total (fun x => if x = a ∨ Reaches E x a then w x * (1 + c) else w x)
          (nexts E a) := by
        simp only [total, List.map_cons, List.sum_cons, if_neg hb]
        rfl
      rw [hh]
      omega
    · rw [if_neg hxa]
      by_cases hr : Reaches E x a
      · simp only [hr, or_true, if_true]
        omega
      · have hx' : ¬ (x = a ∨ Reaches E x a) := by
          rintro (h | h)
          · exact hxa h.symm
          · exact hr h
        simp only [hx', if_false]
        have : total (fun x => if x = a ∨ Reaches E x a then w x * (1 + c) else w x) (nexts E x)
            = total w (nexts E x) := by
          apply Nat.le_antisymm
          · refine total_le fun y hy => ?_
            have : ¬ (y = a ∨ Reaches E y a) := by
              rintro (rfl | h)
              · exact hr (.edge (mem_nexts.1 hy))
              · exact hr (.step (mem_nexts.1 hy) h)
            simp [this]
          · refine total_le fun y hy => ?_
            have : ¬ (y = a ∨ Reaches E y a) := by
              rintro (rfl | h)
              · exact hr (.edge (mem_nexts.1 hy))
              · exact hr (.step (mem_nexts.1 hy) h)
            simp [this]
        rw [this]; exact hx

theorem search_total {g : Graph} {m : Str} {w : Str → Nat}
    (hw : ∀ x, 1 + total w (g.successors x) ≤ w x) :
    ∀ (n : Nat) (q : List Str), total w q ≤ n → search g m n q ≠ .running := by
  intro n
  induction n with
  | zero =>
    intro q h
    cases q with
    | nil => simp [search]
    | cons t q =>
      have := hw t
      simp only [total, List.map_cons, List.sum_cons] at h
      omega
  | succ n ih =>
    intro q h
    cases q with
    | nil => simp [search]
    | cons t q =>
      simp only [search]
      split
      · simp
      · apply ih
        have := hw t
        have h' : w t + total w q ≤ n + 1 := by simpa [total] using h
        rw [total_append]
        omega

end Verif.Reg
