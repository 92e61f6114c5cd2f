import Verif.Sample.MixedProps

/-! # Registration of scripts with generators given by their text, and their builds (C108) -/

namespace Verif.Sample
open Verif Verif.Schema Verif.Target Verif.Toolchain Verif.Path
open Verif.Reg (Reaches Script Graph Call calls call ScriptTarget ScriptGen)
open Verif.Boot (Filled)

variable {junk : Nat → TargetSchema} {p : Project} {list : Str → Option (List Str)}
  {ord : List Str → List Str} {tc : Toolchain} {s : MText} {gs : List GenMade} {fs : List Filled}

theorem named_id (k : Nat) : s.named.idAt tc k = s.idAt tc k := by
  simp only [MText.named, Text.idAt, MText.idAt, List.getElem?_map]
  cases s.targets[k]? <;> rfl

theorem named_ids : s.named.targets.map (Decl.id tc) = s.targets.map fun d => targetId tc.name d.name := by
  simp [MText.named, Decl.id, Function.comp_def]

theorem named_length : s.named.targets.length = s.targets.length := by simp [MText.named]

theorem id_bracket {k : Nat} (hk : k < s.targets.length) : c!"[" ∈ s.idAt tc k := by
  simp [MText.idAt, List.getElem?_eq_getElem hk, targetId]

theorem gen_bracket (hn : NeatMixed s) {i : Nat} (hi : i < s.gens.length) : c!"[" ∉ s.genAt i := by
  simp only [MText.genAt, List.getElem?_eq_getElem hi, Option.map_some, Option.getD_some]
  exact (hn.gens _ (List.getElem_mem hi)).2.1

theorem gen_mem {i : Nat} (hi : i < s.gens.length) : s.genAt i ∈ s.gens.map (·.name) := by
  simp only [MText.genAt, List.getElem?_eq_getElem hi, Option.map_some, Option.getD_some]
  exact List.mem_map_of_mem (List.getElem_mem hi)

theorem gen_inj (hn : NeatMixed s) {i j : Nat} (hi : i < s.gens.length) (hj : j < s.gens.length)
    (h : s.genAt i = s.genAt j) : i = j := by
  refine (List.getElem?_inj (l := s.gens.map (·.name)) (by simpa using hi) hn.names).1 ?_
  simp only [MText.genAt, List.getElem?_eq_getElem hi, List.getElem?_eq_getElem hj, Option.map_some,
    Option.getD_some] at h
  simp [List.getElem?_eq_getElem hi, List.getElem?_eq_getElem hj, h]

theorem target_id_inj (hn : NeatMixed s) {i j : Nat} (hi : i < s.targets.length) (hj : j < s.targets.length)
    (h : s.idAt tc i = s.idAt tc j) : i = j :=
  idAt_inj (tc := tc) hn.text (by rw [named_length]; exact hi) (by rw [named_length]; exact hj)
    (by rw [named_id, named_id]; exact h)

def depEdges (s : MText) (tc : Toolchain) : List (Str × Str) :=
  s.deps.map fun e => (s.idAt tc e.2, s.idAt tc e.1)

/-- From a target only targets are reached. -/
theorem reaches_targets (hn : NeatMixed s) {l : List (Nat × Nat)}
    (hl : ∀ e ∈ l, e.1 < s.targets.length ∧ e.2 < s.gens.length) {a b : Str}
    (h : Reaches (depEdges s tc ++ l.map fun e => (s.genAt e.2, s.idAt tc e.1)) a b) (ha : c!"[" ∈ a) :
    Reaches (depEdges s tc) a b := by
  induction h with
  | edge he =>
    rcases List.mem_append.1 he with he | he
    · exact .edge he
    · obtain ⟨e, hm, h⟩ := List.mem_map.1 he
      obtain ⟨rfl, rfl⟩ := Prod.mk.inj h
      exact absurd ha (gen_bracket hn (hl e hm).2)
  | step he _ ih =>
    rcases List.mem_append.1 he with he | he
    · refine .step he (ih ?_)
      obtain ⟨e, hm, h⟩ := List.mem_map.1 he
      obtain ⟨rfl, rfl⟩ := Prod.mk.inj h
      exact id_bracket (by rw [← named_length]; exact (hn.text.deps.2 e hm).2)
    · obtain ⟨e, hm, h⟩ := List.mem_map.1 he
      obtain ⟨rfl, rfl⟩ := Prod.mk.inj h
      exact absurd ha (gen_bracket hn (hl e hm).2)

theorem reaches_deps (hn : NeatMixed s) {a b : Str} (h : Reaches (depEdges s tc) a b) :
    ∃ i k, i < k ∧ k < s.targets.length ∧ a = s.idAt tc i ∧ b = s.idAt tc k := by
  have := reaches_earlier (tc := tc) hn.text hn.text.deps.2 (a := a) (b := b) (by
    simp only [named_id]; exact h)
  simpa only [named_id, named_length] using this

theorem reaches_to (hn : NeatMixed s) {l : List (Nat × Nat)}
    (hl : ∀ e ∈ l, e.1 < s.targets.length ∧ e.2 < s.gens.length) {a b : Str}
    (h : Reaches (depEdges s tc ++ l.map fun e => (s.genAt e.2, s.idAt tc e.1)) a b) : c!"[" ∈ b := by
  induction h with
  | edge he =>
    rcases List.mem_append.1 he with he | he
    · obtain ⟨e, hm, h⟩ := List.mem_map.1 he
      obtain ⟨rfl, rfl⟩ := Prod.mk.inj h
      exact id_bracket (by rw [← named_length]; exact (hn.text.deps.2 e hm).2)
    · obtain ⟨e, hm, h⟩ := List.mem_map.1 he
      obtain ⟨rfl, rfl⟩ := Prod.mk.inj h
      exact id_bracket (hl e hm).1
  | step _ _ ih => exact ih

/-- `base` are the dependencies between other builders. -/
theorem calls_uses (hn : NeatMixed s) (c : Reg.Condition) (hc : c.build = true) {base : List (Str × Str)}
    (hb : ∀ e ∈ base, e.1 ∉ s.targets.map (fun d => targetId tc.name d.name) ∧
      e.2 ∉ s.targets.map (fun d => targetId tc.name d.name)) :
    ∀ (l pre : List (Nat × Nat)) (st : Script),
    (∀ x, x ∈ s.gens.map (·.name) ∨ x ∈ s.targets.map (fun d => targetId tc.name d.name) → x ∈ st.graph.ids) →
    st.graph.edges = base ++ (depEdges s tc ++ pre.map (fun e => (s.genAt e.2, s.idAt tc e.1))) → (pre ++ l).Nodup →
    (∀ e ∈ pre ++ l, e.1 < s.targets.length ∧ e.2 < s.gens.length) →
    ∃ n, ∀ m, n ≤ m → calls m st (l.map fun e => .dep c (s.idAt tc e.1) (s.genAt e.2)) =
      .ok ⟨{ st.graph with edges := base ++ (depEdges s tc ++ (pre ++ l).map fun e =>
        (s.genAt e.2, s.idAt tc e.1)) }, st.ran⟩
  | [], pre, st, _, he, _, _ => ⟨0, fun m _ => by
      simp only [List.map_nil, calls, List.append_nil, ← he]⟩
  | x :: l, pre, st, hi, he, hnd, hd => by
    have hx := hd x (by simp)
    have hpre : ∀ e ∈ pre, e.1 < s.targets.length ∧ e.2 < s.gens.length :=
      fun e he => hd e (List.mem_append_left _ he)
    have hmem : ∀ {k}, k < s.targets.length → s.idAt tc k ∈ s.targets.map fun d => targetId tc.name d.name := by
      intro k hk
      rw [← named_ids, ← named_id]
      exact idAt_mem (by rw [named_length]; exact hk)
    have hxt : s.idAt tc x.1 ∈ st.graph.ids := hi _ (.inr (hmem hx.1))
    have hE : ∀ e ∈ depEdges s tc ++ pre.map (fun e => (s.genAt e.2, s.idAt tc e.1)),
        e.2 ∈ s.targets.map fun d => targetId tc.name d.name := by
      intro e he
      rcases List.mem_append.1 he with he | he
      · obtain ⟨e', hm, rfl⟩ := List.mem_map.1 he
        exact hmem (by rw [← named_length]; exact (hn.text.deps.2 e' hm).2)
      · obtain ⟨e', hm, rfl⟩ := List.mem_map.1 he
        exact hmem (hpre e' hm).1
    obtain ⟨n1, h1⟩ := Reg.C37_dep_exact st.graph (s.idAt tc x.1) (s.genAt x.2) hxt
      (hi _ (.inl (gen_mem hx.2)))
    obtain ⟨n2, h2⟩ := calls_uses hn c hc hb l (pre ++ [x])
      ⟨{ st.graph with edges := st.graph.edges ++ [(s.genAt x.2, s.idAt tc x.1)] }, st.ran⟩ hi
      (by simp [he]) (by simpa using hnd) (by simpa using hd)
    refine ⟨max n1 n2, fun m hm => ?_⟩
    have no : ¬ ((s.genAt x.2, s.idAt tc x.1) ∈ st.graph.edges ∨
        Reaches st.graph.edges (s.idAt tc x.1) (s.genAt x.2)) := by
      rintro (hm | hr)
      · rw [he] at hm
        rcases List.mem_append.1 hm with hm | hm
        · exact (hb _ hm).2 (hmem hx.1)
        rcases List.mem_append.1 hm with hm | hm
        · obtain ⟨e, hem, h⟩ := List.mem_map.1 hm
          obtain ⟨ha, -⟩ := Prod.mk.inj h
          refine gen_bracket hn hx.2 (ha ▸ id_bracket ?_)
          have := hn.text.deps.2 e hem
          rw [named_length] at this
          omega
        · obtain ⟨e, hem, h⟩ := List.mem_map.1 hm
          obtain ⟨ha, hb⟩ := Prod.mk.inj h
          have e1 := target_id_inj hn (hpre e hem).1 hx.1 hb
          have e2 := gen_inj hn (hpre e hem).2 hx.2 ha
          have : e = x := Prod.ext e1 e2
          subst this
          exact (List.nodup_append.1 hnd).2.2 e hem e (List.mem_cons_self ..) rfl
      · rw [he] at hr
        exact gen_bracket hn hx.2 (reaches_to hn hpre
          (reaches_apart (fun e h => (hb e h).1) hE hr (hmem hx.1)).1)
    have nc : ¬ Reg.MeetsCycle st.graph.edges (s.idAt tc x.1) := by
      intro hc
      rw [he] at hc
      obtain ⟨c, -, hr⟩ := meets_apart (fun e h => (hb e h).1) hE hc (hmem hx.1)
      obtain ⟨i, k, h1, h2, h3, h4⟩ := reaches_deps hn (reaches_targets hn hpre hr (reaches_to hn hpre hr))
      have := target_id_inj hn (by omega) h2 (h3.symm.trans h4)
      omega
    have hdep := h1 m (by omega)
    rw [if_neg no, if_neg nc] at hdep
    simp only [List.map_cons, calls, call, hc, if_true, hdep, Reg.Result.lift]
    rw [h2 m (by omega)]
    simp

theorem calls_callBuilds (n : Nat) (l : List Str) (st : Script) (h : (st.graph.ids ++ l).Nodup) :
    calls n st (l.map (.callBuild true ·)) = .ok ⟨{ st.graph with ids := st.graph.ids ++ l }, st.ran⟩ := by
  induction l generalizing st with
  | nil => simp [calls]
  | cons k l ih =>
    have hk : k ∉ st.graph.ids := by
      have := (List.nodup_append.1 h).2.2
      exact fun hm => this k hm k (List.mem_cons_self ..) rfl
    simp only [List.map_cons, calls, call, Reg.build, if_true, if_neg hk, Reg.Result.lift]
    rw [ih _ (by simpa using h)]
    simp

theorem mixed_nodup (hn : NeatMixed s) :
    (s.gens.map (·.name) ++ s.targets.map fun d => targetId tc.name d.name).Nodup := by
  refine List.nodup_append.2 ⟨hn.names, ?_, ?_⟩
  · rw [← named_ids]
    exact ids_nodup hn.text
  · intro a ha b hb e
    subst e
    obtain ⟨g, hg, rfl⟩ := List.mem_map.1 ha
    obtain ⟨d, -, hd⟩ := List.mem_map.1 hb
    refine (hn.gens g hg).2.1 ?_
    rw [← hd]
    simp [targetId]

/-- C108: the calls of the script on `Reg` are accepted.  `n` bounds the searches for cycles. -/
theorem C108_accepted (hn : NeatMixed s) (tc : Toolchain) (clean : Bool) (c : Reg.Condition)
    (hc : c.build = true) : ∃ n, ∀ m, n ≤ m →
      calls m ⟨Graph.empty, []⟩ (s.calls tc clean c) = .ok ⟨s.graph tc c.test,
        (if clean then [0] else []) ++ (List.range (s.infos.length + 1)).map (· + 1)⟩ := by
  have hnd := mixed_nodup (tc := tc) hn
  have hdn := hn.text.deps
  obtain ⟨n1, h1⟩ := calls_deps (tc := tc) hn.text c hc (base := []) (by simp) s.named.deps []
    ⟨{ Graph.empty with ids := s.gens.map (·.name) ++ s.targets.map fun d => targetId tc.name d.name },
      (if clean then [0] else []) ++ (List.range (s.infos.length + 1)).map (· + 1)⟩
    (by
      rw [named_ids]
      exact fun x hx => List.mem_append_right _ hx) rfl
    (by simpa using hdn.1) (by simpa using hdn.2)
  obtain ⟨n2, h2⟩ := calls_uses (tc := tc) hn c hc (base := []) (by simp) s.uses []
    ⟨⟨s.gens.map (·.name) ++ s.targets.map fun d => targetId tc.name d.name, depEdges s tc, []⟩,
      (if clean then [0] else []) ++ (List.range (s.infos.length + 1)).map (· + 1)⟩
    (by
      rintro x (hx | hx)
      · exact List.mem_append_left _ hx
      · exact List.mem_append_right _ hx) (by simp)
    (by simpa using hn.uses.1) (by simpa using hn.uses.2)
  refine ⟨max n1 n2, fun m hm => ?_⟩
  have h1 := h1 m (by omega)
  have h2 := h2 m (by omega)
  have hsd : s.named.deps = s.deps := rfl
  simp only [named_id, hsd] at h1
  have h0 : call m ⟨Graph.empty, []⟩ (.callFunc clean 0) = .ok ⟨Graph.empty, if clean then [0] else []⟩ := by
    cases clean <;> rfl
  have hgm : s.gens.map (fun g => Call.callBuild true g.name) = (s.gens.map (·.name)).map (.callBuild true ·) := by
    simp
  have hf : (List.range (s.infos.length + 1)).map (fun k => Call.func c (k + 1)) =
      ((List.range (s.infos.length + 1)).map (· + 1)).map (.func c ·) := by simp
  have hb : s.targets.map (fun d => Call.build c (targetId tc.name d.name)) =
      (s.targets.map fun d => targetId tc.name d.name).map (.build c ·) := by simp
  have ht : s.tests.map (fun k => Call.test c (s.idAt tc k)) = (s.tests.map (s.idAt tc)).map (.test c ·) := by
    simp
  have htn : s.tests.Nodup ∧ ∀ k ∈ s.tests, k < s.targets.length := by
    have := hn.text.tests
    rw [named_length] at this
    exact this
  have htests : (s.tests.map (s.idAt tc)).Nodup := by
    have h := htn
    generalize s.tests = l at h
    induction l with
    | nil => simp
    | cons k l ih =>
      simp only [List.map_cons, List.nodup_cons, List.mem_map, not_exists, not_and, List.mem_cons,
        forall_eq_or_imp] at h ⊢
      refine ⟨fun j hj e => ?_, ih ⟨h.1.2, h.2.2⟩⟩
      exact h.1.1 (target_id_inj hn (h.2.2 j hj) h.2.1 e ▸ hj)
  rw [MText.calls, hgm, hf, hb, ht]
  simp only [List.cons_append, List.append_assoc]
  rw [Reg.calls_cons h0,
    Reg.calls_append _ _ _ _ (calls_callBuilds m _ _ (by simpa [Graph.empty] using hn.names)),
    Reg.calls_append _ _ _ _ (calls_funcs m c hc _ _),
    Reg.calls_append _ _ _ _ (calls_builds m c hc _ _ (by simpa [Graph.empty] using hnd)),
    Reg.calls_append _ _ _ _ (by simpa [Graph.empty] using h1),
    Reg.calls_append _ _ _ _ (by simpa [depEdges, MText.named] using h2),
    calls_tests m c hc _ _ (by simpa [Graph.empty] using htests) ?_]
  · simp [MText.graph, Graph.empty, depEdges]
  · intro x hx
    obtain ⟨k, hk, rfl⟩ := List.mem_map.1 hx
    refine List.mem_append_right _ ?_
    rw [← named_ids, ← named_id]
    exact idAt_mem (by rw [named_length]; exact htn.2 k hk)

theorem mixed_selfDep (hn : NeatMixed s) (clean : Bool) (c : Reg.Condition) :
    ∀ x ∈ s.calls tc clean c, x.selfDep = false := by
  intro x hx
  simp only [MText.calls, List.cons_append, List.mem_cons, List.mem_append, List.mem_map] at hx
  rcases hx with h | (((((⟨_, _, h⟩ | ⟨_, _, h⟩) | ⟨_, _, h⟩) | ⟨e, he, h⟩) | ⟨e, he, h⟩) | ⟨_, _, h⟩)
  · rw [h]; rfl
  · rw [← h]; rfl
  · rw [← h]; rfl
  · rw [← h]; rfl
  · rw [← h]
    have h1 := hn.text.deps.2 e he
    rw [named_length] at h1
    have hne : s.idAt tc e.1 ≠ s.idAt tc e.2 := fun hid => by
      have := target_id_inj hn h1.2 (by omega) hid
      omega
    simp [Call.selfDep, hne]
  · rw [← h]
    have h1 := hn.uses.2 e he
    have hne : s.idAt tc e.1 ≠ s.genAt e.2 := fun hid =>
      gen_bracket hn h1.2 (hid ▸ id_bracket h1.1)
    simp [Call.selfDep, hne]
  · rw [← h]; rfl

/-- The names of the targets. -/
theorem target_ids (h : s.run junk p list ord tc = some (gs, fs)) (hn : NeatMixed s) (hp : MixedPlace p tc s)
    (order : Str → List Str) :
    (∀ f ∈ fs, ScriptTarget.id ⟨f.made, f.cfg, order f.made.name⟩ = targetId tc.name f.made.name) ∧
    (scriptTargets fs order).map ScriptTarget.id = s.targets.map fun d => targetId tc.name d.name := by
  obtain ⟨hg, ds, hd, hrun⟩ := run_parts h
  have hneat := plain_neat hn hp hg hd
  have hr := run_spec hrun hneat (mixed_declared (tc := tc) hd hneat false)
  have hid : ∀ f ∈ fs, ScriptTarget.id ⟨f.made, f.cfg, order f.made.name⟩ =
      targetId tc.name f.made.name := by
    intro f hf
    obtain ⟨k, d, -, -, -, h4⟩ := hr.target hf
    rw [ScriptTarget.id, h4]
  refine ⟨hid, ?_⟩
  rw [← plain_map (tc := tc) hd, scriptTargets, List.map_map]
  apply List.ext_getElem?
  intro k
  rw [List.getElem?_map, List.getElem?_map]
  cases hk : fs[k]? with
  | none =>
    rw [List.getElem?_eq_none_iff, hr.length, ← List.getElem?_eq_none_iff] at hk
    rw [hk]; rfl
  | some f =>
    have hlt := (List.getElem?_eq_some_iff.1 hk).1
    rw [hr.length] at hlt
    have hd := List.getElem?_eq_getElem hlt
    obtain ⟨h1, -⟩ := C70_made (hr.made k f _ hk hd)
    rw [hd]
    simp only [Option.map_some, Function.comp_apply]
    rw [hid f (List.mem_of_getElem? hk), h1, Decl.id]

/-- A file that a target takes from a generator is a source of the target and an output of the
generator. -/
theorem source_given (h : s.run junk p list ord tc = some (gs, fs)) (hn : NeatMixed s) (hp : MixedPlace p tc s)
    (hord : ∀ l, (ord l).Perm l) {k i : Nat} {id : Str} {d : MDecl} {f : Filled} {g : GenMade}
    (hk : s.targets[k]? = some d) (hx : .genSource i id ∈ d.steps) (hf : fs[k]? = some f)
    (hgi : gs[i]? = some g) :
    s.fileAt p i id ∈ paths f.cfg.sources ∧ s.fileAt p i id ∈ ScriptGen.outputs ⟨g.name, g.cfg⟩ := by
  obtain ⟨hg, ds, hd, hrun⟩ := run_parts h
  have hneat := plain_neat hn hp hg hd
  obtain ⟨steps, hs, hds⟩ := (plainDecls_spec hd).2 k d hk
  obtain ⟨y, hy, hye⟩ := (plainSteps_mem hs).1 _ hx
  obtain ⟨r, rfl, -, he, hrel, habs⟩ := source_plain hn hp hg hk hx hye
  obtain ⟨-, hdir, g', pat, hg', hname, hpat, hop, ho⟩ := source_parts hn hk hx
  refine ⟨?_, ?_⟩
  · rw [he]
    refine source_added hrun hneat hds hf hdir hrel
      (hp.below (List.ne_nil_of_mem (List.mem_of_getElem? hg'))).1 ?_ hy
    rw [← he]; exact habs.2.1
  · obtain ⟨h1, fg, h2, h3, -⟩ := (runGens_spec hg).2 i g' g hg' hgi
    have := (outputs_local hord (hn.gens g' (List.mem_of_getElem? hg')) hp.place.build h2 h3).2 id pat hop ho
    rw [MText.fileAt, hname, hpat, h1]
    exact this

/-- The output of a target is its own. -/
theorem mixed_own (h : s.run junk p list ord tc = some (gs, fs)) (hn : NeatMixed s) (hp : MixedPlace p tc s)
    {f : Filled} (hf : f ∈ fs) (o : List Str) : Reg.OwnName ⟨f.made, f.cfg, o⟩ := by
  obtain ⟨hg, ds, hd, hrun⟩ := run_parts h
  have hneat := plain_neat hn hp hg hd
  exact own_name (run_spec hrun hneat (mixed_declared (tc := tc) hd hneat false)) hneat hp.place hf o

/-- The output of a target that is given with `AddLibDep` is a library of the other one. -/
theorem linked_given (h : s.run junk p list ord tc = some (gs, fs)) (hn : NeatMixed s) (hp : MixedPlace p tc s)
    {i k : Nat} {d : MDecl} {a b : Filled} (hk : s.targets[k]? = some d) (hs : .step (.libDep i) ∈ d.steps)
    (hi : fs[i]? = some a) (hb : fs[k]? = some b) : outputPath a.made.fixed ∈ paths b.cfg.libs ∧
      ∀ o, Reg.OwnName ⟨a.made, a.cfg, o⟩ := by
  obtain ⟨hg, ds, hd, hrun⟩ := run_parts h
  have hneat := plain_neat hn hp hg hd
  have hr := run_spec hrun hneat (mixed_declared (tc := tc) hd hneat false)
  have ha' := List.mem_of_getElem? hi
  obtain ⟨steps, hst, hds⟩ := (plainDecls_spec hd).2 k d hk
  obtain ⟨y, hy, hye⟩ := (plainSteps_mem hst).1 _ hs
  cases hye
  refine ⟨?_, fun o => mixed_own h hn hp ha' o⟩
  obtain ⟨a', h1, h2⟩ := hr.linked k b _ hb hds i hy
  obtain rfl : a = a' := Option.some.inj (hi.symm.trans h1)
  have := (hr.placed hneat hp.place ha' []).output.2.2.1
  rw [ScriptTarget.output] at this
  rw [this] at h2
  exact h2

/-- The data of a generator are its commands. -/
theorem gen_data {gens : List GenDecl} (hg : runGens p ord gens = some gs) {g : GenMade} (hm : g ∈ gs) :
    ∃ cmd ins outs, Generator.fileCfg cmd ins outs g.commands = some g.cfg := by
  obtain ⟨i, hi⟩ := List.getElem?_of_mem hm
  have hlen : gs.length = gens.length := by
    have := congrArg List.length (runGens_spec hg).1
    simpa using this
  have hlt : i < gens.length := by rw [← hlen]; exact (List.getElem?_eq_some_iff.1 hi).1
  obtain ⟨-, fg, -, h3, -, h5⟩ := (runGens_spec hg).2 i _ g (List.getElem?_eq_getElem hlt) hi
  rw [h5]
  exact ⟨_, _, _, h3⟩

/-- C108: a script with file generators whose text keeps to the rules of `NeatMixed`, in any place where the
build directory is below the root directory, with files of which none is in the build directory, but for
those that targets take from generators.  Hash sets are iterated in any order.  The script is run again and
again.  Files are edited and deleted, between builds and during builds (but not at the moments named in
`Delicate`), and state files are dropped; builds fail, and are killed at any point.  Its calls on `Reg` are
accepted, and whenever `Reg::Run` returns with success and no file was changed from outside since the process
was started

* every target is what a build from scratch would leave,
* the commands of every generator were last run to the end with the present versions of its inputs,
* a file that a target takes from a generator is a source of the target and an output of the generator, and
* every target to which another one was given with `AddLibDep` is linked with the present version of it,
  which is the result of its last link; nobody writes that file by hand. -/
theorem C108_built (h : s.run junk p list ord tc = some (gs, fs)) (hn : NeatMixed s) (hp : MixedPlace p tc s)
    (hord : ∀ l, (ord l).Perm l) (hout : Outside p s gs fs) (order : Str → List Str)
    {clean : Bool} {c : Reg.Condition} (hc : c.build = true) {evs : List Reg.WEvent} {w : Reg.World}
    (hw : w = (Reg.World.init (Reg.kindsOf (scriptTargets fs order))).steps evs)
    (hal : Reg.AllOfScript (s.graph tc c.test) (Reg.setupWith (scriptTargets fs order) (scriptGens gs))
      (Reg.World.init (Reg.kindsOf (scriptTargets fs order))) evs)
    (ha : w.active = true) (hcalm : w.calm = true) (hres : (w.step .join).result = some true) :
    (∃ n, ∀ m, n ≤ m → ∃ ran,
      calls m ⟨Graph.empty, []⟩ (s.calls tc clean c) = .ok ⟨s.graph tc c.test, ran⟩) ∧
    (∀ f ∈ fs, ∃ σ, (w.step .join).comps (targetId tc.name f.made.name) = .target f.made.fixed σ ∧
      Clean f.made.fixed σ f.cfg) ∧
    (∀ g ∈ gs, Generator.Fits g.commands → ∃ σ, (w.step .join).comps g.name = .gen σ ∧
      σ.files = (w.step .join).files ∧
      Reg.Generated σ (ScriptGen.inputs ⟨g.name, g.cfg⟩) (ScriptGen.outputs ⟨g.name, g.cfg⟩) g.commands) ∧
    (∀ (k i : Nat) (id : Str) (d : MDecl) (f : Filled) (g : GenMade), s.targets[k]? = some d →
      .genSource i id ∈ d.steps → fs[k]? = some f → gs[i]? = some g →
      s.fileAt p i id ∈ paths f.cfg.sources ∧ s.fileAt p i id ∈ ScriptGen.outputs ⟨g.name, g.cfg⟩) ∧
    ∀ (i k : Nat) (d : MDecl) (a b : Filled), s.targets[k]? = some d → .step (.libDep i) ∈ d.steps →
      fs[i]? = some a → fs[k]? = some b →
      (∀ e ∈ evs, (∀ v, e ≠ .edit (outputPath a.made.fixed) v) ∧ e ≠ .delete (outputPath a.made.fixed)) →
      Reg.LinkedWith (w.step .join) (targetId tc.name a.made.name) (targetId tc.name b.made.name)
        (outputPath a.made.fixed) := by
  obtain ⟨n, hcalls⟩ := C108_accepted hn tc clean c hc
  obtain ⟨hg, -⟩ := run_parts h
  have hplain := C108_plain h hn hp hord hout order c.test
  obtain ⟨hid, hts⟩ := target_ids h hn hp order
  have hgn : (scriptGens gs).map ScriptGen.name = s.gens.map (·.name) := by
    rw [← (runGens_spec hg).1, scriptGens, List.map_map]
    rfl
  have hperm : (s.graph tc c.test).ids.Perm (Reg.Names (scriptTargets fs order) (scriptGens gs)) := by
    rw [Reg.Names, hts, hgn]
    exact List.perm_append_comm
  have hreg := hcalls n (Nat.le_refl n)
  have hself := mixed_selfDep (tc := tc) hn clean c
  have key := Reg.C88_mixed hreg hself hperm hplain hw hal ha hcalm hres
  refine ⟨⟨n, fun m hm => ⟨_, hcalls m hm⟩⟩, ?_, ?_, ?_, ?_⟩
  · intro f hf
    have := key.1 _ (List.mem_map_of_mem hf)
    rw [hid f hf] at this
    exact this
  · intro g hm hfits
    obtain ⟨cmd, ins, outs, h3⟩ := gen_data hg hm
    exact Reg.C88_commands hreg hself hperm hplain hw hal ha hcalm hres (g := ⟨g.name, g.cfg⟩)
      (List.mem_map_of_mem hm) hfits h3
  · intro k i id d f g hk hx hf hgi
    exact source_given h hn hp hord hk hx hf hgi
  · intro i k d a b hk hs hi hb hand
    have ha' := List.mem_of_getElem? hi
    have hb' := List.mem_of_getElem? hb
    obtain ⟨h1, h2⟩ := linked_given h hn hp hk hs hi hb
    have := key.2.2 _ (List.mem_map_of_mem ha') _ (List.mem_map_of_mem hb') h1 (h2 _) hand
    rw [hid a ha', hid b hb'] at this
    exact this

end Verif.Sample
