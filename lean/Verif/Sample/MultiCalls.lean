import Verif.Sample.MultiSpec

/-! # Registration of scripts with several toolchains (C109) -/

namespace Verif.Sample
open Verif Verif.Schema Verif.Target Verif.Toolchain Verif.Path
open Verif.Reg (Reaches Script Graph Call calls call)

/-- Dependencies and tests are of builders that are registered. -/
structure Closed (g : Graph) : Prop where
  edges : ∀ e ∈ g.edges, e.1 ∈ g.ids ∧ e.2 ∈ g.ids
  tests : g.tests.Nodup ∧ ∀ x ∈ g.tests, x ∈ g.ids

/-- The names of the targets of a part. -/
def Part.ids (x : Part) : List Str := x.targets.map fun d => targetId x.tc.name d.name

theorem calls_off (n : Nat) (gens : List GenDecl) (x : Part) (h : x.state.build = false) (st : Script) :
    calls n st (x.calls gens) = .ok st := by
  have : ∀ l : List Call, (∀ c ∈ l, call n st c = .ok st) → calls n st l = .ok st := by
    intro l hl
    induction l with
    | nil => simp [calls]
    | cons c l ih =>
      rw [Reg.calls_cons (hl c (List.mem_cons_self ..))]
      exact ih fun c hc => hl c (List.mem_cons_of_mem _ hc)
  refine this _ fun c hc => ?_
  simp only [Part.calls, List.mem_append, List.mem_map] at hc
  rcases hc with (((⟨_, _, rfl⟩ | ⟨_, _, rfl⟩) | ⟨_, _, rfl⟩) | ⟨_, _, rfl⟩) | ⟨_, _, rfl⟩ <;>
    simp [call, h]

theorem target_mem {s : MText} {tc : Toolchain} {k : Nat} (hk : k < s.targets.length) :
    s.idAt tc k ∈ s.targets.map fun d => targetId tc.name d.name := by
  rw [← named_ids, ← named_id]
  exact idAt_mem (by rw [named_length]; exact hk)

theorem tests_nodup {s : MText} {tc : Toolchain} (hn : NeatMixed s) : (s.tests.map (s.idAt tc)).Nodup ∧
    ∀ x ∈ s.tests.map (s.idAt tc), x ∈ s.targets.map fun d => targetId tc.name d.name := by
  have htn : s.tests.Nodup ∧ ∀ k ∈ s.tests, k < s.targets.length := by
    have := hn.text.tests
    rw [named_length] at this
    exact this
  refine ⟨?_, ?_⟩
  · have h := htn
    generalize s.tests = l at h
    induction l with
    | nil => simp
    | cons k l ih =>
      simp only [List.map_cons, List.nodup_cons, List.mem_map, not_exists, not_and, List.mem_cons,
        forall_eq_or_imp] at h ⊢
      refine ⟨fun j hj e => ?_, ih ⟨h.1.2, h.2.2⟩⟩
      exact h.1.1 (target_id_inj hn (h.2.2 j hj) h.2.1 e ▸ hj)
  · intro x hx
    obtain ⟨k, hk, rfl⟩ := List.mem_map.1 hx
    exact target_mem (htn.2 k hk)

theorem graph_edges {s : MText} {tc : Toolchain} (hn : NeatMixed s) (test : Bool) :
    ∀ e ∈ (s.graph tc test).edges, (e.1 ∈ s.gens.map (·.name) ∨
      e.1 ∈ s.targets.map fun d => targetId tc.name d.name) ∧
      e.2 ∈ s.targets.map fun d => targetId tc.name d.name := by
  intro e he
  rcases List.mem_append.1 he with he | he
  · obtain ⟨e', hm, rfl⟩ := List.mem_map.1 he
    have := hn.text.deps.2 e' hm
    rw [named_length] at this
    exact ⟨.inr (target_mem (by omega)), target_mem this.2⟩
  · obtain ⟨e', hm, rfl⟩ := List.mem_map.1 he
    have := hn.uses.2 e' hm
    exact ⟨.inl (gen_mem this.2), target_mem this.1⟩

/-- The calls of a part are accepted after other builders. -/
theorem part_accepted {gens : List GenDecl} {x : Part} (hn : NeatMixed (x.text gens))
    (hc : x.state.build = true) {st : Script} (hcl : Closed st.graph)
    (hg : ∀ y ∈ gens.map (·.name), y ∈ st.graph.ids) (hnd : (st.graph.ids ++ x.ids).Nodup) :
    ∃ n, ∀ m, n ≤ m → calls m st (x.calls gens) =
      .ok ⟨⟨st.graph.ids ++ x.ids, st.graph.edges ++ ((x.text gens).graph x.tc x.state.test).edges,
        st.graph.tests ++ ((x.text gens).graph x.tc x.state.test).tests⟩,
        st.ran ++ (List.range (x.infos.length + 1)).map (· + 1)⟩ := by
  have hapart : ∀ y ∈ st.graph.ids, y ∉ x.ids := fun y h1 h2 => (List.nodup_append.1 hnd).2.2 y h1 y h2 rfl
  have hb : ∀ e ∈ st.graph.edges, e.1 ∉ x.ids ∧ e.2 ∉ x.ids := fun e he =>
    ⟨hapart _ (hcl.edges e he).1, hapart _ (hcl.edges e he).2⟩
  have hdn := hn.text.deps
  have hids : (x.text gens).named.targets.map (Decl.id x.tc) = x.ids := named_ids
  obtain ⟨n1, h1⟩ := calls_deps (tc := x.tc) hn.text x.state hc (base := st.graph.edges)
    (by rw [hids]; exact hb) (x.text gens).named.deps []
    ⟨{ st.graph with ids := st.graph.ids ++ x.ids },
      st.ran ++ (List.range (x.infos.length + 1)).map (· + 1)⟩
    (by rw [hids]; exact fun y hy => List.mem_append_right _ hy) (by simp)
    (by simpa using hdn.1) (by simpa using hdn.2)
  obtain ⟨n2, h2⟩ := calls_uses (tc := x.tc) hn x.state hc (base := st.graph.edges) hb x.uses []
    ⟨⟨st.graph.ids ++ x.ids, st.graph.edges ++ depEdges (x.text gens) x.tc, st.graph.tests⟩,
      st.ran ++ (List.range (x.infos.length + 1)).map (· + 1)⟩
    (by
      rintro y (hy | hy)
      · exact List.mem_append_left _ (hg y hy)
      · exact List.mem_append_right _ hy) (by simp)
    (by rw [List.nil_append]; exact hn.uses.1) (by rw [List.nil_append]; exact hn.uses.2)
  refine ⟨max n1 n2, fun m hm => ?_⟩
  have h1 := h1 m (by omega)
  have h2 := h2 m (by omega)
  have hsd : (x.text gens).named.deps = x.deps := rfl
  have hsd' : (x.text gens).deps = x.deps := rfl
  simp only [named_id, hsd] at h1
  have hf : (List.range (x.infos.length + 1)).map (fun k => Call.func x.state (k + 1)) =
      ((List.range (x.infos.length + 1)).map (· + 1)).map (.func x.state ·) := by simp
  have hbm : x.targets.map (fun d => Call.build x.state (targetId x.tc.name d.name)) =
      x.ids.map (.build x.state ·) := by simp [Part.ids]
  have ht : x.tests.map (fun k => Call.test x.state ((x.text gens).idAt x.tc k)) =
      (x.tests.map ((x.text gens).idAt x.tc)).map (.test x.state ·) := by
    simp
  have htests : (x.tests.map ((x.text gens).idAt x.tc)).Nodup := (tests_nodup (tc := x.tc) hn).1
  have htm : ∀ y ∈ x.tests.map ((x.text gens).idAt x.tc), y ∈ x.ids := (tests_nodup (tc := x.tc) hn).2
  rw [Part.calls, hf, hbm, ht]
  simp only [List.append_assoc]
  rw [Reg.calls_append _ _ _ _ (calls_funcs m x.state hc _ _),
    Reg.calls_append _ _ _ _ (calls_builds m x.state hc x.ids
      ⟨st.graph, st.ran ++ (List.range (x.infos.length + 1)).map (· + 1)⟩ hnd),
    Reg.calls_append _ _ _ _ h1,
    Reg.calls_append _ _ _ _ (by simpa [depEdges, hsd'] using h2),
    calls_tests m x.state hc _ _ ?_ ?_]
  · simp [MText.graph, depEdges, Part.text]
  · refine List.nodup_append.2 ⟨hcl.tests.1, htests, ?_⟩
    · rintro a ha b hb rfl
      exact hapart a (hcl.tests.2 a ha) (htm a hb)
  · intro y hy
    exact List.mem_append_right _ (htm y hy)

theorem part_closed {gens : List GenDecl} {x : Part} (hn : NeatMixed (x.text gens)) {g : Graph} (hcl : Closed g)
    (hg : ∀ y ∈ gens.map (·.name), y ∈ g.ids) (hnd : (g.ids ++ x.ids).Nodup) :
    Closed ⟨g.ids ++ x.ids, g.edges ++ ((x.text gens).graph x.tc x.state.test).edges,
      g.tests ++ ((x.text gens).graph x.tc x.state.test).tests⟩ := by
  have hapart : ∀ y ∈ g.ids, y ∉ x.ids := fun y h1 h2 => (List.nodup_append.1 hnd).2.2 y h1 y h2 rfl
  have ht := tests_nodup (tc := x.tc) hn
  have hts : ((x.text gens).graph x.tc x.state.test).tests.Nodup ∧
      ∀ y ∈ ((x.text gens).graph x.tc x.state.test).tests, y ∈ x.ids := by
    rw [MText.graph]
    cases x.state.test with
    | false => simp
    | true => exact ht
  refine ⟨?_, ?_, ?_⟩
  · intro e he
    rcases List.mem_append.1 he with he | he
    · have := hcl.edges e he
      exact ⟨List.mem_append_left _ this.1, List.mem_append_left _ this.2⟩
    · have := graph_edges hn _ e he
      refine ⟨?_, List.mem_append_right _ this.2⟩
      rcases this.1 with h | h
      · exact List.mem_append_left _ (hg _ h)
      · exact List.mem_append_right _ h
  · refine List.nodup_append.2 ⟨hcl.tests.1, hts.1, ?_⟩
    rintro a ha b hb rfl
    exact hapart a (hcl.tests.2 a ha) (hts.2 a hb)
  · intro y hy
    rcases List.mem_append.1 hy with h | h
    · exact List.mem_append_left _ (hcl.tests.2 y h)
    · exact List.mem_append_right _ (hts.2 y h)

/-- The calls of all parts are accepted. -/
theorem parts_accepted {gens : List GenDecl} : ∀ (l : List Part) (st : Script),
    (∀ x ∈ l.filter (·.state.build), NeatMixed (x.text gens)) → Closed st.graph →
    (∀ y ∈ gens.map (·.name), y ∈ st.graph.ids) →
    (st.graph.ids ++ (l.filter (·.state.build)).flatMap Part.ids).Nodup →
    ∃ n, ∀ m, n ≤ m → ∃ ran, calls m st (l.flatMap (Part.calls gens)) =
      .ok ⟨⟨st.graph.ids ++ (l.filter (·.state.build)).flatMap Part.ids,
        st.graph.edges ++ (l.filter (·.state.build)).flatMap fun x =>
          ((x.text gens).graph x.tc x.state.test).edges,
        st.graph.tests ++ (l.filter (·.state.build)).flatMap fun x =>
          ((x.text gens).graph x.tc x.state.test).tests⟩, ran⟩
  | [], st, _, _, _, _ => ⟨0, fun m _ => ⟨st.ran, by simp [calls]⟩⟩
  | x :: l, st, hn, hcl, hg, hnd => by
    cases hc : x.state.build with
    | false =>
      simp only [List.filter_cons, hc, Bool.false_eq_true, if_false, List.flatMap_cons] at hn hnd ⊢
      obtain ⟨n, h⟩ := parts_accepted l st hn hcl hg hnd
      refine ⟨n, fun m hm => ?_⟩
      rw [Reg.calls_append _ _ _ _ (calls_off m gens x hc st)]
      exact h m hm
    | true =>
      simp only [List.filter_cons, hc, if_true, List.flatMap_cons, List.mem_cons, forall_eq_or_imp] at hn hnd ⊢
      have hnd1 : (st.graph.ids ++ x.ids).Nodup := by
        rw [← List.append_assoc] at hnd
        exact (List.nodup_append.1 hnd).1
      obtain ⟨n1, h1⟩ := part_accepted hn.1 hc hcl hg hnd1
      obtain ⟨n2, h2⟩ := parts_accepted l ⟨_, st.ran ++ (List.range (x.infos.length + 1)).map (· + 1)⟩ hn.2
        (part_closed hn.1 hcl hg hnd1) (fun y hy => List.mem_append_left _ (hg y hy))
        (by simpa only [List.append_assoc] using hnd)
      refine ⟨max n1 n2, fun m hm => ?_⟩
      obtain ⟨ran, h⟩ := h2 m (by omega)
      refine ⟨ran, ?_⟩
      rw [Reg.calls_append _ _ _ _ (h1 m (by omega)), h]
      simp only [List.append_assoc]

theorem multi_nodup {p : Project} {m : Multi} (hn : NeatMulti m) (hp : MultiPlace p m) :
    (m.gens.map (·.name) ++ m.on.flatMap Part.ids).Nodup := by
  refine List.nodup_append.2 ⟨hn.names, ?_, ?_⟩
  · have h1 := hn.parts
    have h2 := hp.names
    have h3 := hp.brackets
    generalize m.on = l at h1 h2 h3
    induction l with
    | nil => simp
    | cons x l ih =>
      simp only [List.map_cons, List.nodup_cons, List.mem_map, not_exists, not_and, List.mem_cons,
        forall_eq_or_imp, List.flatMap_cons] at h1 h2 h3 ⊢
      refine List.nodup_append.2 ⟨?_, ih h1.2 h2.2 h3.2, ?_⟩
      · have := ids_nodup (tc := x.tc) h1.1.text
        rwa [named_ids] at this
      · rintro a ha b hb rfl
        obtain ⟨y, hy, hb⟩ := List.mem_flatMap.1 hb
        obtain ⟨d, -, rfl⟩ := List.mem_map.1 ha
        obtain ⟨d', -, he⟩ := List.mem_map.1 hb
        exact h2.1 y hy (target_id_injective _ _ _ _ (h3.2 y hy) h3.1 he).1
  · rintro a ha b hb rfl
    obtain ⟨g, hg, rfl⟩ := List.mem_map.1 ha
    obtain ⟨x, hx, hb⟩ := List.mem_flatMap.1 hb
    obtain ⟨d, -, hd⟩ := List.mem_map.1 hb
    refine (hn.gens g hg).2.1 ?_
    rw [← hd]
    simp [targetId]

/-- C109: the calls of the script on `Reg` are accepted, whichever toolchains are on.  `n` bounds the
searches for cycles. -/
theorem C109_accepted {p : Project} {m : Multi} (hn : NeatMulti m) (hp : MultiPlace p m) (clean : Bool) :
    ∃ n, ∀ k, n ≤ k → ∃ ran, calls k ⟨Graph.empty, []⟩ (m.calls clean) = .ok ⟨m.graph, ran⟩ := by
  have hnd := multi_nodup hn hp
  obtain ⟨n, h⟩ := parts_accepted (gens := m.gens) m.parts
    ⟨⟨m.gens.map (·.name), [], []⟩, if clean then [0] else []⟩ hn.parts ⟨by simp, by simp, by simp⟩
    (fun y hy => hy) hnd
  refine ⟨n, fun k hk => ?_⟩
  obtain ⟨ran, h⟩ := h k hk
  refine ⟨ran, ?_⟩
  have h0 : call k ⟨Graph.empty, []⟩ (.callFunc clean 0) = .ok ⟨Graph.empty, if clean then [0] else []⟩ := by
    cases clean <;> rfl
  have hgm : m.gens.map (fun g => Call.callBuild true g.name) = (m.gens.map (·.name)).map (.callBuild true ·) := by
    simp
  rw [Multi.calls, hgm, List.cons_append, Reg.calls_cons h0,
    Reg.calls_append _ _ _ _ (calls_callBuilds k _ _ (by simpa [Graph.empty] using hn.names))]
  simp only [Graph.empty, List.nil_append]
  rw [h]
  rfl

theorem multi_selfDep {m : Multi} (hn : NeatMulti m) (clean : Bool) :
    ∀ x ∈ m.calls clean, x.selfDep = false := by
  intro x hx
  simp only [Multi.calls, List.cons_append, List.mem_cons, List.mem_append, List.mem_map,
    List.mem_flatMap] at hx
  rcases hx with h | ⟨_, _, h⟩ | ⟨y, hy, hx⟩
  · rw [h]; rfl
  · rw [← h]; rfl
  cases hc : y.state.build with
  | false =>
    simp only [Part.calls, List.mem_append, List.mem_map] at hx
    rcases hx with (((⟨_, _, rfl⟩ | ⟨_, _, rfl⟩) | ⟨_, _, rfl⟩) | ⟨_, _, rfl⟩) | ⟨_, _, rfl⟩ <;>
      simp [Call.selfDep, hc]
  | true =>
    have := hn.parts y (List.mem_filter.2 ⟨hy, hc⟩)
    refine mixed_selfDep (tc := y.tc) this clean y.state x ?_
    simp only [MText.calls, List.cons_append, List.append_assoc, List.mem_cons, List.mem_append]
    simp only [Part.calls, List.append_assoc, List.mem_append] at hx
    exact .inr (.inr hx)

end Verif.Sample
