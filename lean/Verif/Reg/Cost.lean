import Verif.Reg.Props

/-!
# How long a declaration of a dependency takes (C96)

`DepDetectCyclicDependency` has no record of visited tasks, so it follows every chain of
dependents separately.  `dep n g t d` is `running` when the search needs more than `n` rounds;
in a round one task is taken from the queue.
-/

namespace Verif.Reg
open Verif

/-! ## Every target has at most one dependency -/

/-- The tasks that were taken from the queue so far, the queue, and where they come from. -/
structure Explored (g : Graph) (t : Str) (seen queue : List Str) : Prop where
  nodup : (seen ++ queue).Nodup
  ids : ∀ x ∈ seen ++ queue, x ∈ g.ids
  origin : ∀ x ∈ seen ++ queue, x = t ∨ ∃ u ∈ seen, (u, x) ∈ g.edges
  reached : ∀ x ∈ seen ++ queue, x = t ∨ Reaches g.edges t x

theorem nodup_second {E : List (Str × Str)} (h : (E.map (·.2)).Nodup) {a b c : Str}
    (h1 : (a, c) ∈ E) (h2 : (b, c) ∈ E) : a = b := by
  induction E with
  | nil => simp at h1
  | cons e E ih =>
    rw [List.map_cons, List.nodup_cons] at h
    rcases List.mem_cons.1 h1 with rfl | h1'
    · rcases List.mem_cons.1 h2 with h2 | h2
      · simp only [Prod.mk.injEq] at h2; exact h2.1.symm
      · exact absurd (List.mem_map.2 ⟨_, h2, rfl⟩) h.1
    · rcases List.mem_cons.1 h2 with rfl | h2
      · exact absurd (List.mem_map.2 ⟨(a, c), h1', rfl⟩ : c ∈ E.map (·.2)) h.1
      · exact ih h.2 h1' h2

theorem successors_nodup {g : Graph} (h : (g.edges.map (·.2)).Nodup) (a : Str) :
    (g.successors a).Nodup :=
  List.Nodup.sublist (List.Sublist.map _ List.filter_sublist) h

theorem Explored.step {g : Graph} {t u : Str} {seen queue : List Str}
    (h : Explored g t seen (u :: queue)) (hv : Valid g) (hc : Acyclic g.edges)
    (hn : (g.edges.map (·.2)).Nodup) :
    Explored g t (seen ++ [u]) (queue ++ g.successors u) := by
  have hu : u ∈ seen ++ u :: queue := by simp
  have hnd := h.nodup
  have hus : u ∉ seen := by
    intro hm
    have := (List.nodup_append.1 hnd).2.2 u hm u List.mem_cons_self
    exact this rfl
  refine ⟨?_, ?_, ?_, ?_⟩
  · rw [show seen ++ [u] ++ (queue ++ g.successors u) = (seen ++ u :: queue) ++ g.successors u by simp]
    refine List.nodup_append.2 ⟨hnd, successors_nodup hn u, ?_⟩
    intro a ha b hb e
    subst e
    have hb := mem_successors.1 hb
    rcases h.origin a ha with rfl | ⟨v, hv', he⟩
    · rcases h.reached u hu with rfl | hr
      · exact hc _ (.edge hb)
      · exact hc _ (hr.trans (.edge hb))
    · have := nodup_second hn he hb
      subst this
      exact hus hv'
  · intro x hx
    simp only [List.mem_append, List.mem_singleton] at hx
    rcases hx with (hx | rfl) | hx | hx
    · exact h.ids x (by simp [hx])
    · exact h.ids _ hu
    · exact h.ids x (by simp [hx])
    · exact (hv.ends _ (mem_successors.1 hx)).2
  · intro x hx
    simp only [List.mem_append, List.mem_singleton] at hx
    have keep : x ∈ seen ++ u :: queue → x = t ∨ ∃ v ∈ seen ++ [u], (v, x) ∈ g.edges := by
      intro hx
      rcases h.origin x hx with h | ⟨v, h1, h2⟩
      · exact .inl h
      · exact .inr ⟨v, by simp [h1], h2⟩
    rcases hx with (hx | rfl) | hx | hx
    · exact keep (by simp [hx])
    · exact keep hu
    · exact keep (by simp [hx])
    · exact .inr ⟨u, by simp, mem_successors.1 hx⟩
  · intro x hx
    simp only [List.mem_append, List.mem_singleton] at hx
    rcases hx with (hx | rfl) | hx | hx
    · exact h.reached x (by simp [hx])
    · exact h.reached _ hu
    · exact h.reached x (by simp [hx])
    · refine .inr ?_
      rcases h.reached u hu with rfl | hr
      · exact .edge (mem_successors.1 hx)
      · exact hr.trans (.edge (mem_successors.1 hx))

theorem nodup_length {l m : List Str} (hn : l.Nodup) (h : ∀ x ∈ l, x ∈ m) :
    l.length ≤ m.length := by
  induction l generalizing m with
  | nil => simp
  | cons a l ih =>
    rw [List.nodup_cons] at hn
    have ham := h a List.mem_cons_self
    have := ih (m := m.erase a) hn.2 fun x hx =>
      (List.mem_erase_of_ne (fun e : x = a => hn.1 (e ▸ hx))).2 (h x (List.mem_cons_of_mem _ hx))
    rw [List.length_erase_of_mem ham] at this
    have := List.length_pos_of_mem ham
    simp only [List.length_cons]
    omega

theorem search_forest {g : Graph} {t m : Str} (hv : Valid g) (hc : Acyclic g.edges)
    (hn : (g.edges.map (·.2)).Nodup) : ∀ (n : Nat) (seen queue : List Str),
    Explored g t seen queue → g.ids.length ≤ n + seen.length → search g m n queue ≠ .running := by
  intro n
  induction n with
  | zero =>
    intro seen queue h hl
    cases queue with
    | nil => simp [search]
    | cons u queue =>
      have := nodup_length h.nodup h.ids
      simp only [List.length_append, List.length_cons] at this
      omega
  | succ n ih =>
    intro seen queue h hl
    cases queue with
    | nil => simp [search]
    | cons u queue =>
      rw [search]
      split
      · simp
      · refine ih (seen ++ [u]) _ (h.step hv hc hn) ?_
        simp only [List.length_append, List.length_cons, List.length_nil]
        omega

/-! ## Layers of two -/

/-- The two targets of a layer. -/
def layer (i : Nat) (side : UInt8) : Str := List.replicate i c!"x" ++ [side]

theorem layer_inj {i j : Nat} {a b : UInt8} (h : layer i a = layer j b) : i = j ∧ a = b := by
  have hl := congrArg List.length h
  simp only [layer, List.length_append, List.length_replicate, List.length_cons, List.length_nil] at hl
  have : i = j := by omega
  subst this
  refine ⟨rfl, ?_⟩
  simpa [layer] using h

/-- Every target of a layer depends on both targets of the layer below. -/
def layerEdges : Nat → List (Str × Str)
  | 0 => []
  | k + 1 => layerEdges k ++
    [ (layer k c!"a", layer (k + 1) c!"a"), (layer k c!"b", layer (k + 1) c!"a"),
      (layer k c!"a", layer (k + 1) c!"b"), (layer k c!"b", layer (k + 1) c!"b") ]

/-- The targets of the layers, and one more. -/
def layerIds : Nat → List Str
  | 0 => [b!"y", layer 0 c!"a", layer 0 c!"b"]
  | k + 1 => layerIds k ++ [layer (k + 1) c!"a", layer (k + 1) c!"b"]

def layers (k : Nat) : Graph := ⟨layerIds k, layerEdges k, []⟩

/-- The calls of a script that registers them, from the bottom up. -/
def layerCalls : Nat → List Call
  | 0 => [.build ⟨true, true⟩ b!"y", .build ⟨true, true⟩ (layer 0 c!"a"),
      .build ⟨true, true⟩ (layer 0 c!"b")]
  | k + 1 => layerCalls k ++
    [ .build ⟨true, true⟩ (layer (k + 1) c!"a"), .build ⟨true, true⟩ (layer (k + 1) c!"b"),
      .dep ⟨true, true⟩ (layer (k + 1) c!"a") (layer k c!"a"),
      .dep ⟨true, true⟩ (layer (k + 1) c!"a") (layer k c!"b"),
      .dep ⟨true, true⟩ (layer (k + 1) c!"b") (layer k c!"a"),
      .dep ⟨true, true⟩ (layer (k + 1) c!"b") (layer k c!"b") ]

theorem layerEdges_mem {k : Nat} {e : Str × Str} (h : e ∈ layerEdges k) :
    ∃ i < k, ∃ a b, e = (layer i a, layer (i + 1) b) := by
  induction k with
  | zero => simp [layerEdges] at h
  | succ k ih =>
    rw [layerEdges, List.mem_append] at h
    rcases h with h | h
    · obtain ⟨i, hi, r⟩ := ih h
      exact ⟨i, by omega, r⟩
    · simp only [List.mem_cons, List.not_mem_nil, or_false] at h
      rcases h with rfl | rfl | rfl | rfl <;> exact ⟨k, by omega, _, _, rfl⟩

theorem layer_ne_y (i : Nat) : layer i c!"a" ≠ b!"y" ∧ layer i c!"b" ≠ b!"y" := by
  constructor <;> cases i with
  | zero => decide
  | succ i => intro h; have := congrArg List.length h; simp [layer] at this

theorem layerIds_mem {k : Nat} {s : Str} :
    s ∈ layerIds k ↔ s = b!"y" ∨ ∃ i ≤ k, s = layer i c!"a" ∨ s = layer i c!"b" := by
  induction k with
  | zero =>
    simp only [layerIds, List.mem_cons, List.not_mem_nil, or_false, Nat.le_zero_eq]
    constructor
    · rintro (h | h | h)
      · exact .inl h
      · exact .inr ⟨0, rfl, .inl h⟩
      · exact .inr ⟨0, rfl, .inr h⟩
    · rintro (h | ⟨i, rfl, h | h⟩)
      · exact .inl h
      · exact .inr (.inl h)
      · exact .inr (.inr h)
  | succ k ih =>
    rw [layerIds, List.mem_append, ih]
    simp only [List.mem_cons, List.not_mem_nil, or_false]
    constructor
    · rintro ((h | ⟨i, hi, h⟩) | h)
      · exact .inl h
      · exact .inr ⟨i, by omega, h⟩
      · exact .inr ⟨k + 1, by omega, h⟩
    · rintro (h | ⟨i, hi, h⟩)
      · exact .inl (.inl h)
      · rcases Nat.lt_or_eq_of_le hi with hi | rfl
        · exact .inl (.inr ⟨i, by omega, h⟩)
        · exact .inr h

theorem layers_length (k : Nat) : (layers k).ids.length = 2 * k + 3 := by
  show (layerIds k).length = _
  induction k with
  | zero => rfl
  | succ k ih => rw [layerIds, List.length_append, ih]; simp; omega

theorem layers_successors {k i : Nat} {a : UInt8} (ha : a = c!"a" ∨ a = c!"b") (h : i < k) :
    (layers k).successors (layer i a) = [layer (i + 1) c!"a", layer (i + 1) c!"b"] := by
  show ((layerEdges k).filter fun e => e.1 = layer i a).map (·.2) = _
  induction k with
  | zero => omega
  | succ k ih =>
    rw [layerEdges, List.filter_append, List.map_append]
    have e : ∀ j c, (layer j c = layer i a) = (j = i ∧ c = a) :=
      fun j c => propext ⟨layer_inj, fun ⟨h1, h2⟩ => h1 ▸ h2 ▸ rfl⟩
    by_cases hi : i < k
    · rw [ih hi]
      have : ¬ k = i := by omega
      simp [e, this]
    · have hik : i = k := by omega
      subst hik
      have h0 : (layerEdges i).filter (fun e => decide (e.1 = layer i a)) = [] := by
        rw [List.filter_eq_nil_iff]
        intro x hx
        obtain ⟨j, hj, c, d, rfl⟩ := layerEdges_mem hx
        simp only [e, decide_eq_true_eq]
        omega
      rw [h0]
      rcases ha with rfl | rfl <;> simp [e]

theorem layers_top {k : Nat} {a : UInt8} : (layers k).successors (layer k a) = [] := by
  show ((layerEdges k).filter fun e => e.1 = layer k a).map (·.2) = _
  rw [List.map_eq_nil_iff, List.filter_eq_nil_iff]
  intro x hx
  obtain ⟨j, hj, c, d, rfl⟩ := layerEdges_mem hx
  simp only [decide_eq_true_eq]
  intro h
  have := (layer_inj h).1
  omega

/-- A search that does not find its target takes as many rounds as the tasks in the queue weigh. -/
theorem search_long {g : Graph} {m : Str} {P : Str → Prop} {w : Str → Nat}
    (hP : ∀ x, P x → ∀ y ∈ g.successors x, P y) (hm : ¬ P m)
    (hw : ∀ x, P x → w x ≤ 1 + total w (g.successors x)) :
    ∀ (n : Nat) (q : List Str), (∀ x ∈ q, P x) → n < total w q → search g m n q = .running := by
  intro n
  induction n with
  | zero =>
    intro q _ h
    cases q with
    | nil => simp [total] at h
    | cons t q => rfl
  | succ n ih =>
    intro q hq h
    cases q with
    | nil => simp [total] at h
    | cons t q =>
      have ht := hq t List.mem_cons_self
      have hno : ¬ (g.successors t).any (· = m) = true := by
        intro h
        obtain ⟨y, hy, e⟩ := List.any_eq_true.1 h
        exact hm ((of_decide_eq_true e) ▸ hP t ht y hy)
      rw [search, if_neg hno]
      refine ih _ ?_ ?_
      · intro x hx
        rcases List.mem_append.1 hx with hx | hx
        · exact hq x (List.mem_cons_of_mem _ hx)
        · exact hP t ht x hx
      · have := hw t ht
        have h' : n + 1 < w t + total w q := by simpa [total] using h
        rw [total_append]
        omega

/-- A target of the layers. -/
def InLayers (k : Nat) (s : Str) : Prop := ∃ i ≤ k, s = layer i c!"a" ∨ s = layer i c!"b"

theorem layers_running (k n : Nat) (h : n < 2 ^ (k + 1) - 1) :
    search (layers k) b!"y" n [layer 0 c!"a"] = .running := by
  refine search_long (P := InLayers k) (w := fun s => 2 ^ (k + 2 - s.length) - 1) ?_ ?_ ?_ n _ ?_ ?_
  · rintro x ⟨i, hi, hx⟩ y hy
    rcases Nat.lt_or_eq_of_le hi with hi | rfl
    · have hs : (layers k).successors x = [layer (i + 1) c!"a", layer (i + 1) c!"b"] := by
        rcases hx with rfl | rfl
        · exact layers_successors (.inl rfl) hi
        · exact layers_successors (.inr rfl) hi
      rw [hs] at hy
      exact ⟨i + 1, hi, by simpa using hy⟩
    · have hs : (layers i).successors x = [] := by
        rcases hx with rfl | rfl <;> exact layers_top
      rw [hs] at hy
      simp at hy
  · rintro ⟨i, _, h | h⟩
    · exact (layer_ne_y i).1 h.symm
    · exact (layer_ne_y i).2 h.symm
  · rintro x ⟨i, hi, hx⟩
    have hl : x.length = i + 1 := by rcases hx with rfl | rfl <;> simp [layer]
    rcases Nat.lt_or_eq_of_le hi with hi | rfl
    · have hs : (layers k).successors x = [layer (i + 1) c!"a", layer (i + 1) c!"b"] := by
        rcases hx with rfl | rfl
        · exact layers_successors (.inl rfl) hi
        · exact layers_successors (.inr rfl) hi
      rw [hs]
      have e1 : ∀ c, (layer (i + 1) c).length = i + 2 := fun c => by simp [layer]
      simp only [total, List.map_cons, List.map_nil, List.sum_cons, List.sum_nil, e1, hl]
      have e2 : k + 2 - (i + 1) = (k + 2 - (i + 2)) + 1 := by omega
      rw [e2, Nat.pow_succ]
      have := Nat.two_pow_pos (k + 2 - (i + 2))
      omega
    · simp only [hl]
      have : i + 2 - (i + 1) = 1 := by omega
      rw [this]
      omega
  · intro x hx
    rw [List.mem_singleton] at hx
    exact ⟨0, by omega, .inl hx⟩
  · simpa [total, layer] using h

theorem layers_fresh (k : Nat) : layer (k + 1) c!"a" ∉ layerIds k ∧ layer (k + 1) c!"b" ∉ layerIds k := by
  constructor <;> rw [layerIds_mem] <;> rintro (h | ⟨i, hi, h | h⟩)
  · exact (layer_ne_y _).1 h
  · have := (layer_inj h).1; omega
  · have := (layer_inj h).1; omega
  · exact (layer_ne_y _).2 h
  · have := (layer_inj h).1; omega
  · have := (layer_inj h).1; omega

theorem calls_append {n : Nat} : ∀ (l₁ l₂ : List Call) (s s' : Script), calls n s l₁ = .ok s' →
    calls n s (l₁ ++ l₂) = calls n s' l₂ := by
  intro l₁
  induction l₁ with
  | nil => intro l₂ s s' h; simp only [calls, Outcome.ok.injEq] at h; rw [← h]; rfl
  | cons c l₁ ih =>
    intro l₂ s s' h
    rw [calls] at h
    rw [List.cons_append, calls]
    split at h
    · exact ih _ _ _ h
    · cases h
    · cases h

/-- A dependency of a target that nothing depends on is added in one round. -/
theorem dep_one {g : Graph} {t d : Str} (ht : t ∈ g.ids) (hd : d ∈ g.ids)
    (hn : (d, t) ∉ g.edges) (hs : g.successors t = []) :
    dep 1 g t d = .ok { g with edges := g.edges ++ [(d, t)] } := by
  have hdup : detectDuplicate g t d = false := by
    rw [Bool.eq_false_iff]
    intro h
    obtain ⟨y, hy, e⟩ := List.any_eq_true.1 h
    exact hn ((of_decide_eq_true e) ▸ mem_dependents.1 hy)
  rw [dep, if_neg (by simp [ht, hd]), hdup]
  simp [search, hs]

theorem call_build {n : Nat} {g : Graph} {r : List Nat} {id : Str} (h : id ∉ g.ids) :
    call n ⟨g, r⟩ (.build ⟨true, true⟩ id) = .ok ⟨{ g with ids := g.ids ++ [id] }, r⟩ := by
  simp [call, build, h, Result.lift]

theorem call_dep {g : Graph} {r : List Nat} {t d : Str} (ht : t ∈ g.ids) (hd : d ∈ g.ids)
    (hn : (d, t) ∉ g.edges) (hs : g.successors t = []) :
    call 1 ⟨g, r⟩ (.dep ⟨true, true⟩ t d) = .ok ⟨{ g with edges := g.edges ++ [(d, t)] }, r⟩ := by
  simp [call, dep_one ht hd hn hs, Result.lift]

theorem calls_cons {n : Nat} {s s' : Script} {c : Call} {l : List Call} (h : call n s c = .ok s') :
    calls n s (c :: l) = calls n s' l := by
  rw [calls, h]

/-- Edges to the new layer. -/
theorem layers_new {k : Nat} {E : List (Str × Str)} {ids : List Str} {a c : UInt8}
    (hE : ∀ e ∈ E, ∃ b, e.1 = layer k b) (hn : (layer k a, layer (k + 1) c) ∉ E) :
    (layer k a, layer (k + 1) c) ∉ layerEdges k ++ E ∧
      (Graph.mk ids (layerEdges k ++ E) []).successors (layer (k + 1) c) = [] := by
  constructor
  · rw [List.mem_append]
    rintro (h | h)
    · obtain ⟨i, hi, _, _, e⟩ := layerEdges_mem h
      have := (layer_inj (Prod.mk.inj e).1).1
      omega
    · exact hn h
  · rw [Graph.successors, List.map_eq_nil_iff, List.filter_eq_nil_iff]
    intro x hx
    simp only [decide_eq_true_eq]
    intro h
    rcases List.mem_append.1 hx with hx | hx
    · obtain ⟨i, hi, _, _, rfl⟩ := layerEdges_mem hx
      have := (layer_inj h).1
      omega
    · obtain ⟨b, hb⟩ := hE x hx
      rw [hb] at h
      have := (layer_inj h).1
      omega

theorem layers_reached (k : Nat) : calls 1 ⟨Graph.empty, []⟩ (layerCalls k) = .ok ⟨layers k, []⟩ := by
  induction k with
  | zero => decide +kernel
  | succ k ih =>
    have hab : ∀ {i j : Nat}, layer i c!"a" ≠ layer j c!"b" := by
      intro i j h
      exact absurd (layer_inj h).2 (by decide)
    have hid : layer k c!"a" ∈ layerIds k ∧ layer k c!"b" ∈ layerIds k :=
      ⟨layerIds_mem.2 (.inr ⟨k, by omega, .inl rfl⟩), layerIds_mem.2 (.inr ⟨k, by omega, .inr rfl⟩)⟩
    have hf := layers_fresh k
    have hx : ∀ c, ∃ b, layer k c = layer k b := fun c => ⟨c, rfl⟩
    have h1 := @layers_new k [] (layerIds k ++ [layer (k + 1) c!"a"] ++ [layer (k + 1) c!"b"])
      c!"a" c!"a" (by simp) (by simp)
    have h2 := @layers_new k [(layer k c!"a", layer (k + 1) c!"a")]
      (layerIds k ++ [layer (k + 1) c!"a"] ++ [layer (k + 1) c!"b"])
      c!"b" c!"a" (by simp [hx]) (by simp [hab.symm])
    have h3 := @layers_new k [(layer k c!"a", layer (k + 1) c!"a"), (layer k c!"b", layer (k + 1) c!"a")]
      (layerIds k ++ [layer (k + 1) c!"a"] ++ [layer (k + 1) c!"b"])
      c!"a" c!"b" (by simp [hx]) (by simp [hab, hab.symm])
    have h4 := @layers_new k [(layer k c!"a", layer (k + 1) c!"a"), (layer k c!"b", layer (k + 1) c!"a"),
        (layer k c!"a", layer (k + 1) c!"b")]
      (layerIds k ++ [layer (k + 1) c!"a"] ++ [layer (k + 1) c!"b"])
      c!"b" c!"b" (by simp [hx]) (by simp [hab.symm])
    rw [List.append_nil] at h1
    rw [layerCalls, calls_append _ _ _ _ ih]
    refine (calls_cons (call_build (g := layers k) hf.1)).trans ?_
    refine (calls_cons (call_build ?_)).trans ?_
    · show layer (k + 1) c!"b" ∉ layerIds k ++ [layer (k + 1) c!"a"]
      simpa [hab.symm] using hf.2
    refine (calls_cons (call_dep (by simp) (by simp [layers, hid]) h1.1 h1.2)).trans ?_
    refine (calls_cons (call_dep (by simp) (by simp [layers, hid]) h2.1 h2.2)).trans ?_
    refine (calls_cons (call_dep (by simp) (by simp [layers, hid]) ?_ ?_)).trans ?_
    · simpa using h3.1
    · simpa using h3.2
    refine (calls_cons (call_dep (by simp) (by simp [layers, hid]) ?_ ?_)).trans ?_
    · simpa using h4.1
    · simpa using h4.2
    simp [calls, layers, layerIds, layerEdges]

/-! ## A bound for all graphs without cycles -/

theorem total_subset {w : Str → Nat} {l m : List Str} (hn : l.Nodup) (h : ∀ x ∈ l, x ∈ m) :
    total w l ≤ total w m := by
  induction l generalizing m with
  | nil => simp [total]
  | cons a l ih =>
    rw [List.nodup_cons] at hn
    have ham := h a List.mem_cons_self
    have hl := ih (m := m.erase a) hn.2 fun x hx =>
      (List.mem_erase_of_ne (fun e : x = a => hn.1 (e ▸ hx))).2 (h x (List.mem_cons_of_mem _ hx))
    have hp := ((List.perm_cons_erase ham).map w).sum_nat
    simp only [total, List.map_cons, List.sum_cons] at *
    omega

theorem successors_nodup' {g : Graph} (h : g.edges.Nodup) (a : Str) : (g.successors a).Nodup := by
  have h1 : (g.edges.filter fun e => decide (e.1 = a)).Nodup := h.sublist List.filter_sublist
  refine List.pairwise_map.2 (h1.imp_of_mem ?_)
  intro x y hx hy hne e
  have hx := (List.mem_filter.1 hx).2
  have hy := (List.mem_filter.1 hy).2
  simp only [decide_eq_true_eq] at hx hy
  exact hne (Prod.ext (hx.trans hy.symm) e)

/-- Weights for a list of tasks in which every task comes after those that depend on it. -/
theorem doubling {g : Graph} (he : g.edges.Nodup) : ∀ L : List Str,
    (∀ l₁ x l₂, L = l₂ ++ x :: l₁ → ∀ y ∈ g.successors x, y ∈ l₁ ∧ y ≠ x) → L.Nodup →
    ∃ w : Str → Nat, (∀ x ∈ L, 1 + total w (g.successors x) ≤ w x) ∧ total w L + 1 ≤ 2 ^ L.length ∧
      ∀ x, 1 ≤ w x := by
  intro L
  induction L with
  | nil => intro _ _; exact ⟨fun _ => 1, by simp, by simp [total], by simp⟩
  | cons a L ih =>
    intro ht hn
    rw [List.nodup_cons] at hn
    obtain ⟨w, hw, hs, h1⟩ := ih (fun l₁ x l₂ e => ht l₁ x (a :: l₂) (by rw [e]; rfl)) hn.2
    have same : ∀ l : List Str, a ∉ l → total (fun x => if x = a then 2 ^ L.length else w x) l = total w l := by
      intro l hl
      unfold total
      congr 1
      refine List.map_congr_left fun x hx => ?_
      have : x ≠ a := fun e => hl (e ▸ hx)
      simp [this]
    have hsub : ∀ x ∈ L, a ∉ g.successors x := by
      intro x hx h
      obtain ⟨l₂, l₁, e⟩ := List.append_of_mem hx
      have := (ht l₁ x (a :: l₂) (by rw [e]; rfl) a h).1
      exact hn.1 (e ▸ List.mem_append_right _ (List.mem_cons_of_mem _ this))
    have ha := ht L a [] rfl
    refine ⟨fun x => if x = a then 2 ^ L.length else w x, ?_, ?_, ?_⟩
    · intro x hx
      rcases List.mem_cons.1 hx with rfl | hx
      · rw [same _ fun h => (ha _ h).2 rfl]
        have := total_subset (w := w) (successors_nodup' he x) fun y hy => (ha y hy).1
        simp only [if_true]
        omega
      · rw [same _ (hsub x hx)]
        have : x ≠ a := fun e => hn.1 (e ▸ hx)
        simp only [this, if_false]
        exact hw x hx
    · have := same L hn.1
      simp only [total, List.map_cons, List.sum_cons, if_true, List.length_cons, Nat.pow_succ] at *
      omega
    · intro x
      have := Nat.two_pow_pos L.length
      by_cases e : x = a
      · simp only [e, if_true]; omega
      · simp only [e, if_false]; exact h1 x

/-! ## The theorems -/

/-- C96: a call of `Dep` is over after at most `2 ^ n` rounds, where `n` is the number of
registered builders, for every script of accepted calls in which no builder depends on itself. -/
theorem C96_bound (m : Nat) (l : List Call) (s : Script)
    (h : calls m ⟨Graph.empty, []⟩ l = .ok s) (hs : ∀ c ∈ l, c.selfDep = false) (t d : Str) :
    dep (2 ^ s.graph.ids.length) s.graph t d ≠ .running := by
  have hv := C37_valid m l s h
  have hc := C37_acyclic_partial m l s h hs
  obtain ⟨w, hw⟩ := weights s.graph.edges hc
  have hperm := List.mergeSort_perm s.graph.ids fun a b => decide (w b ≤ w a)
  have hsort := List.pairwise_mergeSort (le := fun a b => decide (w b ≤ w a))
    (by intro a b c; simp only [decide_eq_true_eq]; omega)
    (by intro a b; simp only [Bool.or_eq_true, decide_eq_true_eq]; omega) s.graph.ids
  generalize s.graph.ids.mergeSort (fun a b => decide (w b ≤ w a)) = L at hperm hsort
  have hlt : ∀ x, ∀ y ∈ s.graph.successors x, w y < w x := by
    intro x y hy
    have h1 := hw x
    have h2 := total_subset (w := w) (l := [y]) (m := nexts s.graph.edges x) (by simp)
      (fun z hz => (List.mem_singleton.1 hz) ▸ hy)
    have h3 : total w [y] = w y := by simp [total]
    omega
  have hL : ∀ l₁ x l₂, L = l₂ ++ x :: l₁ → ∀ y ∈ s.graph.successors x, y ∈ l₁ ∧ y ≠ x := by
    intro l₁ x l₂ e y hy
    have hlt := hlt x y hy
    have hy' : y ∈ L := hperm.mem_iff.2 (hv.ends _ (mem_successors.1 hy)).2
    rw [e] at hy' hsort
    have hne : y ≠ x := fun e => by rw [e] at hlt; omega
    refine ⟨?_, hne⟩
    rcases List.mem_append.1 hy' with hy' | hy'
    · have := (List.pairwise_append.1 hsort).2.2 y hy' x List.mem_cons_self
      simp only [decide_eq_true_eq] at this
      omega
    · rcases List.mem_cons.1 hy' with e | hy'
      · exact absurd e hne
      · exact hy'
  obtain ⟨W, hW, hsum, h1⟩ := doubling hv.edges L hL (hperm.nodup_iff.2 hv.ids)
  rw [dep]
  split
  · simp
  · next hreg =>
    split
    · simp
    · have ht : t ∈ s.graph.ids := by
        by_cases ht : t ∈ s.graph.ids
        · exact ht
        · exact absurd (.inl ht) hreg
      have hle : total W [t] ≤ 2 ^ s.graph.ids.length := by
        have := total_subset (w := W) (l := [t]) (m := L) (by simp) (by simpa using hperm.mem_iff.2 ht)
        rw [hperm.length_eq] at hsum
        omega
      have := search_total (g := s.graph) (m := d) (w := W) (fun x => ?_) _ _ hle
      · cases hq : search s.graph d (2 ^ s.graph.ids.length) [t] with
        | running => exact absurd hq this
        | found => simp
        | none => simp
      · by_cases hx : x ∈ s.graph.ids
        · exact hW x (hperm.mem_iff.2 hx)
        · have : s.graph.successors x = [] := by
            rw [List.eq_nil_iff_forall_not_mem]
            exact fun y hy => hx (hv.ends _ (mem_successors.1 hy)).1
          rw [this]
          exact h1 x

/-- C96: when every target has at most one dependency, a call of `Dep` takes at most as many
rounds as there are builders.

Missing: targets with several dependencies, for which it is false (`C96_linear_false`). -/
theorem C96_linear_partial (m : Nat) (l : List Call) (s : Script)
    (h : calls m ⟨Graph.empty, []⟩ l = .ok s) (hs : ∀ c ∈ l, c.selfDep = false)
    (h1 : ∀ t d d', (d, t) ∈ s.graph.edges → (d', t) ∈ s.graph.edges → d = d') (t d : Str) :
    dep s.graph.ids.length s.graph t d ≠ .running := by
  have hv := C37_valid m l s h
  have hc := C37_acyclic_partial m l s h hs
  have hn : (s.graph.edges.map (·.2)).Nodup := by
    refine List.pairwise_map.2 (hv.edges.imp_of_mem ?_)
    rintro ⟨a, x⟩ ⟨b, y⟩ hx hy hne e
    simp only at e
    subst e
    exact hne (by rw [h1 _ _ _ hx hy])
  rw [dep]
  split
  · simp
  · next hreg =>
    split
    · simp
    · have ht : t ∈ s.graph.ids := by
        by_cases ht : t ∈ s.graph.ids
        · exact ht
        · exact absurd (.inl ht) hreg
      have := search_forest (t := t) (m := d) hv hc hn s.graph.ids.length [] [t]
        ⟨by simp, by simpa using ht, by simp, by simp⟩ (by simp)
      cases hq : search s.graph d s.graph.ids.length [t] with
      | running => exact absurd hq this
      | found => simp
      | none => simp

/-- C96 does not hold with any bound that is much smaller: for every `k` there is a script with
`2 k + 3` builders, each with at most two dependencies, whose calls are all accepted after one
round each, and two of its builders for which `Dep` takes more than `2 ^ k` rounds. -/
theorem C96_linear_false (k : Nat) :
    ∃ (l : List Call) (s : Script) (t d : Str),
      calls 1 ⟨Graph.empty, []⟩ l = .ok s ∧ s.graph.ids.length = 2 * k + 3 ∧
      (∀ x, (s.graph.dependents x).length ≤ 2) ∧
      t ∈ s.graph.ids ∧ d ∈ s.graph.ids ∧ ∀ n, n < 2 ^ (k + 1) - 1 → dep n s.graph t d = .running := by
  refine ⟨layerCalls k, ⟨layers k, []⟩, layer 0 c!"a", b!"y", layers_reached k, layers_length k, ?_,
    layerIds_mem.2 (.inr ⟨0, by omega, .inl rfl⟩), layerIds_mem.2 (.inl rfl), fun n hn => ?_⟩
  · intro x
    show (((layerEdges k).filter fun e => e.2 = x).map (·.1)).length ≤ 2
    rw [List.length_map]
    induction k with
    | zero => simp [layerEdges]
    | succ k ih =>
      rw [layerEdges, List.filter_append, List.length_append]
      by_cases hx : ∃ c, x = layer (k + 1) c
      · obtain ⟨c, rfl⟩ := hx
        have h0 : (layerEdges k).filter (fun e => decide (e.2 = layer (k + 1) c)) = [] := by
          rw [List.filter_eq_nil_iff]
          intro x hx
          obtain ⟨j, hj, _, _, rfl⟩ := layerEdges_mem hx
          simp only [decide_eq_true_eq]
          intro h
          have := (layer_inj h).1
          omega
        rw [h0]
        have e : ∀ b, (layer (k + 1) b = layer (k + 1) c) = (b = c) :=
          fun b => propext ⟨fun h => (layer_inj h).2, fun h => h ▸ rfl⟩
        by_cases ha : c!"a" = c
        · subst ha; simp [e]
        · by_cases hb : c!"b" = c
          · subst hb; simp [e]
          · simp [e, ha, hb]
      · have e : ∀ b, ¬ layer (k + 1) b = x := fun b h => hx ⟨b, h.symm⟩
        simpa [e] using ih
  · have hd : detectDuplicate (layers k) (layer 0 c!"a") b!"y" = false := by
      rw [Bool.eq_false_iff]
      intro h
      obtain ⟨y, hy, e⟩ := List.any_eq_true.1 h
      obtain ⟨i, _, _, _, e'⟩ := layerEdges_mem (mem_dependents.1 hy)
      have := (layer_inj (Prod.mk.inj e').2).1
      omega
    have hi : ¬ (layer 0 c!"a" ∉ (layers k).ids ∨ b!"y" ∉ (layers k).ids) := by
      rintro (h | h)
      · exact h (layerIds_mem.2 (.inr ⟨0, by omega, .inl rfl⟩))
      · exact h (layerIds_mem.2 (.inl rfl))
    rw [dep, if_neg hi, hd, layers_running k n hn]
    rfl

/-! ## Instances -/

/-- Two programs and a library that use one base library, and each nothing else. -/
def starScript : List Call :=
  [ .build ⟨true, true⟩ b!"base", .build ⟨true, true⟩ b!"lib", .build ⟨true, true⟩ b!"p",
    .build ⟨true, true⟩ b!"q", .dep ⟨true, true⟩ b!"lib" b!"base", .dep ⟨true, true⟩ b!"p" b!"lib",
    .dep ⟨true, true⟩ b!"q" b!"lib" ]

def starGraph : Graph :=
  ⟨[b!"base", b!"lib", b!"p", b!"q"], [(b!"base", b!"lib"), (b!"lib", b!"p"), (b!"lib", b!"q")], []⟩

/-- The hypotheses of `C96_bound` and `C96_linear_partial` are met, and the number of rounds cannot
be smaller: the search from `base` goes through all four builders. -/
example : calls 4 ⟨Graph.empty, []⟩ starScript = .ok ⟨starGraph, []⟩ ∧
    (∀ c ∈ starScript, c.selfDep = false) ∧
    (∀ e ∈ starGraph.edges, ∀ e' ∈ starGraph.edges, e.2 = e'.2 → e.1 = e'.1) ∧
    search starGraph b!"other" 3 [b!"base"] = .running ∧
    search starGraph b!"other" 4 [b!"base"] = .none := by
  decide +kernel

/-- Three layers: nine builders, and fifteen rounds. -/
example : (layers 3).ids.length = 9 ∧ dep 14 (layers 3) (layer 0 c!"a") b!"y" = .running ∧
    dep 15 (layers 3) (layer 0 c!"a") b!"y" ≠ .running := by
  decide +kernel

end Verif.Reg
