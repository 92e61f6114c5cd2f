import Verif.Reg.Lemmas

/-!
# Registration of builders (C37, C41)

Reading guide.  `calls n ⟨Graph.empty, []⟩ l` is what a build script that makes the calls
`l` arrives at: the registered builders, edges and tests, or a fatal error.  The number `n`
bounds the rounds of each search for a cycle; `running` means that more rounds are needed.
-/

namespace Verif.Reg
open Verif

theorem le_sum {w : Str → Nat} {t : Str} {l : List Str} (h : t ∈ l) : w t ≤ (l.map w).sum := by
  induction l with
  | nil => simp at h
  | cons a l ih =>
    simp only [List.map_cons, List.sum_cons]
    rcases List.mem_cons.1 h with rfl | h
    · omega
    · have := ih h; omega

theorem call_disabled {n : Nat} {s : Script} {c : Call} (h : c.enabled = false) :
    call n s c = .ok s := by
  cases c <;> simp only [Call.enabled] at h <;> simp [call, h]

/-- C41: calls whose condition does not hold register and run nothing, whatever the other
calls are. -/
theorem C41_disabled_calls (n : Nat) (s : Script) (l : List Call) :
    calls n s l = calls n s (l.filter Call.enabled) := by
  induction l generalizing s with
  | nil => rfl
  | cons c l ih =>
    cases h : c.enabled with
    | false =>
      simp only [List.filter_cons, h, calls, call_disabled h, Bool.false_eq_true, if_false]
      exact ih s
    | true =>
      simp only [List.filter_cons, h, if_true, calls]
      cases call n s c with
      | ok s' => exact ih s'
      | fatal => rfl
      | running => rfl

/-- C41: an enabled test is registered once, for a registered builder; otherwise it is a
fatal error. -/
theorem C41_test (n : Nat) (s : Script) (c : Condition) (id : Str) (hb : c.build = true)
    (ht : c.test = true) :
    call n s (.test c id) =
      if id ∈ s.graph.ids ∧ id ∉ s.graph.tests then
        .ok { s with graph := { s.graph with tests := s.graph.tests ++ [id] } }
      else .fatal := by
  simp only [call, hb, ht, Bool.and_self, if_true, test]
  by_cases h1 : id ∈ s.graph.ids <;> by_cases h2 : id ∈ s.graph.tests <;> simp [h1, h2, Result.lift]

/-- C41: an enabled `Build` registers a builder once; a second time is fatal.  Enabled
callbacks run. -/
theorem C41_build (n : Nat) (s : Script) (c : Condition) (id : Str) (k : Nat) (hb : c.build = true) :
    (call n s (.build c id) =
      if id ∈ s.graph.ids then .fatal
      else .ok { s with graph := { s.graph with ids := s.graph.ids ++ [id] } }) ∧
    call n s (.callBuild true id) = call n s (.build c id) ∧
    call n s (.func c k) = .ok { s with ran := s.ran ++ [k] } ∧
    call n s (.callFunc true k) = .ok { s with ran := s.ran ++ [k] } := by
  refine ⟨?_, ?_, ?_, ?_⟩ <;> simp only [call, hb, if_true, build]
  split <;> rfl

/-- One accepted call keeps the registration valid, and acyclic if the call is not a
dependency of a builder on itself. -/
theorem call_keeps {n : Nat} {s s' : Script} {c : Call} (h : call n s c = .ok s')
    (hv : Valid s.graph) :
    Valid s'.graph ∧ (c.selfDep = false → Acyclic s.graph.edges → Acyclic s'.graph.edges) := by
  have build' : ∀ {id s'}, (build s.graph id).lift s.ran = .ok s' →
      Valid s'.graph ∧ (Acyclic s.graph.edges → Acyclic s'.graph.edges) := by
    intro id s' h
    simp only [build] at h
    split at h
    · simp [Result.lift] at h
    · rename_i hi
      simp only [Result.lift, Outcome.ok.injEq] at h
      subst h
      refine ⟨⟨?_, hv.edges, ?_, hv.tests, ?_⟩, fun h => h⟩
      · exact List.nodup_append.2 ⟨hv.ids, by simp, by
          intro a ha b hb; simp only [List.mem_singleton] at hb; subst hb; rintro rfl; exact hi ha⟩
      · intro e he; exact ⟨by simp [(hv.ends e he).1], by simp [(hv.ends e he).2]⟩
      · intro t ht; simp [hv.tested t ht]
  have same : s' = s → Valid s'.graph ∧
      (c.selfDep = false → Acyclic s.graph.edges → Acyclic s'.graph.edges) := by
    rintro rfl; exact ⟨hv, fun _ => id⟩
  cases c with
  | callFunc c k =>
    simp only [call] at h
    split at h <;> simp only [Outcome.ok.injEq] at h <;> subst h
    · exact ⟨hv, fun _ => id⟩
    · exact ⟨hv, fun _ => id⟩
  | callBuild c id =>
    simp only [call] at h
    split at h
    · exact ⟨(build' h).1, fun _ => (build' h).2⟩
    · simp only [Outcome.ok.injEq] at h; exact same h.symm
  | func c k =>
    simp only [call] at h
    split at h <;> simp only [Outcome.ok.injEq] at h <;> subst h
    · exact ⟨hv, fun _ => id⟩
    · exact ⟨hv, fun _ => id⟩
  | build c id =>
    simp only [call] at h
    split at h
    · exact ⟨(build' h).1, fun _ => (build' h).2⟩
    · simp only [Outcome.ok.injEq] at h; exact same h.symm
  | dep c t d =>
    simp only [call] at h
    split at h
    · rename_i hc
      simp only [dep] at h
      split at h
      · simp [Result.lift] at h
      · rename_i hm
        split at h
        · simp [Result.lift] at h
        · rename_i hdup
          split at h
          · simp [Result.lift] at h
          · simp [Result.lift] at h
          · rename_i hs
            simp only [Result.lift, Outcome.ok.injEq] at h
            subst h
            have hm' : t ∈ s.graph.ids ∧ d ∈ s.graph.ids := by
              constructor
              · exact Classical.byContradiction fun h => hm (.inl h)
              · exact Classical.byContradiction fun h => hm (.inr h)
            have hnew : (d, t) ∉ s.graph.edges := by
              intro he
              refine hdup ?_
              simp only [detectDuplicate, List.any_eq_true, decide_eq_true_eq]
              exact ⟨d, mem_dependents.2 he, rfl⟩
            refine ⟨⟨hv.ids, ?_, ?_, hv.tests, hv.tested⟩, fun hself hac => ?_⟩
            · exact List.nodup_append.2 ⟨hv.edges, by simp, by
                intro a ha b hb; simp only [List.mem_singleton] at hb; subst hb
                rintro rfl; exact hnew ha⟩
            · intro e he
              rcases List.mem_append.1 he with he | he
              · exact hv.ends e he
              · simp only [List.mem_singleton] at he; subst he; exact ⟨hm'.2, hm'.1⟩
            · rw [acyclic_add hac]
              rintro (rfl | hr)
              · simp [Call.selfDep, hc] at hself
              · exact search_none _ _ hs t (by simp) hr
    · simp only [Outcome.ok.injEq] at h; exact same h.symm
  | test c id =>
    simp only [call] at h
    split at h
    · simp only [test] at h
      split at h
      · simp [Result.lift] at h
      · rename_i h1
        split at h
        · simp [Result.lift] at h
        · rename_i h2
          simp only [Result.lift, Outcome.ok.injEq] at h
          subst h
          refine ⟨⟨hv.ids, hv.edges, hv.ends, ?_, ?_⟩, fun _ h => h⟩
          · exact List.nodup_append.2 ⟨hv.tests, by simp, by
              intro a ha b hb; simp only [List.mem_singleton] at hb; subst hb
              rintro rfl; exact h2 ha⟩
          · intro t ht
            rcases List.mem_append.1 ht with ht | ht
            · exact hv.tested t ht
            · simp only [List.mem_singleton] at ht; subst ht
              exact Classical.byContradiction h1
    · simp only [Outcome.ok.injEq] at h; exact same h.symm

theorem calls_keep {n : Nat} : ∀ (l : List Call) (s s' : Script), calls n s l = .ok s' →
    Valid s.graph → Valid s'.graph ∧
      ((∀ c ∈ l, c.selfDep = false) → Acyclic s.graph.edges → Acyclic s'.graph.edges) := by
  intro l
  induction l with
  | nil => intro s s' h hv; simp only [calls, Outcome.ok.injEq] at h; subst h; exact ⟨hv, fun _ h => h⟩
  | cons c l ih =>
    intro s s' h hv
    simp only [calls] at h
    cases hc : call n s c with
    | ok s1 =>
      rw [hc] at h
      obtain ⟨h1, h2⟩ := call_keeps hc hv
      obtain ⟨h3, h4⟩ := ih s1 s' h h1
      exact ⟨h3, fun hs ha => h4 (fun x hx => hs x (by simp [hx])) (h2 (hs c (by simp)) ha)⟩
    | fatal => rw [hc] at h; simp at h
    | running => rw [hc] at h; simp at h

theorem valid_empty : Valid Graph.empty :=
  ⟨by simp [Graph.empty], by simp [Graph.empty], by simp [Graph.empty], by simp [Graph.empty],
    by simp [Graph.empty]⟩

theorem acyclic_nil : Acyclic [] := by
  intro a h
  obtain ⟨b, h1, _⟩ := h.first
  simp at h1

/-- C37: an accepted sequence of calls registers every builder, dependency and test once. -/
theorem C37_valid (n : Nat) (l : List Call) (s : Script)
    (h : calls n ⟨Graph.empty, []⟩ l = .ok s) : Valid s.graph :=
  (calls_keep l _ _ h valid_empty).1

/-- C37: an accepted sequence of calls in which no builder is declared to depend on itself
has no cycle.

Missing: calls `Dep(a, a)`, for which it is false (`C37_self_false`). -/
theorem C37_acyclic_partial (n : Nat) (l : List Call) (s : Script)
    (h : calls n ⟨Graph.empty, []⟩ l = .ok s) (hs : ∀ c ∈ l, c.selfDep = false) :
    Acyclic s.graph.edges :=
  (calls_keep l _ _ h valid_empty).2 hs acyclic_nil

/-- C37: `Dep(target, dependency)` on two registered builders returns, and is rejected
exactly if the dependency is already present or the new one would close a cycle.

Missing: `target = dependency`, see `C37_self_false`. -/
theorem C37_rejected_iff_partial (g : Graph) (hc : Acyclic g.edges) :
    ∃ n, ∀ m, n ≤ m → ∀ t d, t ∈ g.ids → d ∈ g.ids → t ≠ d →
      dep m g t d =
        (open Classical in
          if (d, t) ∈ g.edges ∨ ¬ Acyclic (g.edges ++ [(d, t)]) then .fatal
          else .ok { g with edges := g.edges ++ [(d, t)] }) := by
  obtain ⟨w, hw⟩ := weights g.edges hc
  refine ⟨(g.ids.map w).sum, fun m hm t d ht hd hne => ?_⟩
  have hle : total w [t] ≤ m := by
    refine Nat.le_trans ?_ hm
    simp only [total, List.map_cons, List.map_nil, List.sum_cons, List.sum_nil, Nat.add_zero]
    exact le_sum ht
  have hrun : search g d m [t] ≠ .running := search_total (g := g) hw m [t] hle
  simp only [dep, ht, hd, not_true, or_self, if_false]
  by_cases he : (d, t) ∈ g.edges
  · have : detectDuplicate g t d = true := by
      simp only [detectDuplicate, List.any_eq_true, decide_eq_true_eq]
      exact ⟨d, mem_dependents.2 he, rfl⟩
    simp [this, he]
  · have hdup : detectDuplicate g t d = false := by
      rw [Bool.eq_false_iff]
      intro h
      simp only [detectDuplicate, List.any_eq_true, decide_eq_true_eq] at h
      obtain ⟨x, h1, rfl⟩ := h
      exact he (mem_dependents.1 h1)
    simp only [hdup, Bool.false_eq_true, if_false, he, false_or]
    rw [acyclic_add hc]
    cases hs : search g d m [t] with
    | running => exact absurd hs hrun
    | found =>
      obtain ⟨x, h1, h2⟩ := search_found _ _ hs
      simp only [List.mem_singleton] at h1
      subst h1
      simp [h2]
    | none =>
      have := search_none _ _ hs t (by simp)
      have hne' : ¬ d = t := fun h => hne h.symm
      simp [this, hne', he]

/-- C37: with builders that are not registered, `Dep` is a fatal error. -/
theorem C37_unregistered (m : Nat) (g : Graph) (t d : Str) (h : t ∉ g.ids ∨ d ∉ g.ids) :
    dep m g t d = .fatal := by
  simp [dep, h]

/-! ## A builder that depends on itself -/

/-- One builder and `Dep(a, a)`. -/
def selfScript : List Call :=
  [ .build ⟨true, true⟩ b!"a", .build ⟨true, true⟩ b!"b", .dep ⟨true, true⟩ b!"a" b!"a" ]

def selfGraph : Graph := ⟨[b!"a", b!"b"], [(b!"a", b!"a")], []⟩

/-- C37 is false for a builder declared to depend on itself: the call is accepted and the
registration has a cycle. -/
theorem C37_self_false :
    calls 1 ⟨Graph.empty, []⟩ selfScript = .ok ⟨selfGraph, []⟩ ∧ ¬ Acyclic selfGraph.edges := by
  refine ⟨by decide +kernel, fun h => h b!"a" (.edge (by simp [selfGraph]))⟩

/-- After that the next `Dep` of this builder does not return: it needs more than any
number of rounds. -/
theorem C37_self_hangs (n : Nat) : dep n selfGraph b!"a" b!"b" = .running := by
  have h : ∀ n, search selfGraph b!"b" n [b!"a"] = .running := by
    intro n
    induction n with
    | zero => rfl
    | succ n ih => simpa [search, selfGraph, Graph.successors] using ih
  simp [dep, detectDuplicate, h n]
  decide

/-! ## The hypotheses are met -/

/-- Four builders in a diamond, a test, and a disabled toolchain. -/
def exScript : List Call :=
  [ .build ⟨true, true⟩ b!"lib", .build ⟨true, true⟩ b!"x", .build ⟨true, false⟩ b!"y",
    .callBuild true b!"app", .func ⟨false, true⟩ 7, .callFunc true 3,
    .dep ⟨true, true⟩ b!"x" b!"lib", .dep ⟨true, true⟩ b!"y" b!"lib",
    .dep ⟨true, false⟩ b!"app" b!"x", .dep ⟨true, true⟩ b!"app" b!"y",
    .dep ⟨false, true⟩ b!"lib" b!"app",
    .test ⟨true, true⟩ b!"app", .test ⟨true, false⟩ b!"x" ]

def exGraph : Graph :=
  ⟨[b!"lib", b!"x", b!"y", b!"app"],
   [(b!"lib", b!"x"), (b!"lib", b!"y"), (b!"x", b!"app"), (b!"y", b!"app")], [b!"app"]⟩

theorem exScript_ok : calls 10 ⟨Graph.empty, []⟩ exScript = .ok ⟨exGraph, [3]⟩ := by decide +kernel

example : Valid exGraph := C37_valid 10 exScript _ exScript_ok

theorem exGraph_acyclic : Acyclic exGraph.edges :=
  C37_acyclic_partial 10 exScript _ exScript_ok (by decide)

example := C37_rejected_iff_partial exGraph exGraph_acyclic

/-- The dependency that was disabled above would close a cycle; one is already there; one
can be added. -/
example : dep 20 exGraph b!"lib" b!"app" = .fatal ∧ dep 20 exGraph b!"app" b!"x" = .fatal ∧
    dep 20 exGraph b!"y" b!"x" = .ok { exGraph with edges := exGraph.edges ++ [(b!"x", b!"y")] } := by
  decide +kernel

example := C41_disabled_calls 10 ⟨Graph.empty, []⟩ exScript
example := C41_test 10 ⟨exGraph, []⟩ ⟨true, true⟩ b!"app" rfl rfl

end Verif.Reg
