import Verif.Sample.Props
import Verif.Reg.CycleProps
import Verif.Reg.Cost

/-! # Registration of scripts given by their text (C106) -/

namespace Verif.Sample
open Verif Verif.Schema Verif.Target Verif.Toolchain Verif.Path
open Verif.Reg (Reaches Script Graph Call Outcome calls call)

variable {tc : Toolchain} {s : Text}

/-- What the script has registered. -/
def Text.graph (s : Text) (tc : Toolchain) (test : Bool) : Graph :=
  ⟨s.targets.map (Decl.id tc), s.deps.map fun e => (s.idAt tc e.2, s.idAt tc e.1),
    if test then s.tests.map (s.idAt tc) else []⟩

theorem ids_nodup (hn : Neat s) : (s.targets.map (Decl.id tc)).Nodup := by
  have h := hn.names
  generalize s.targets = l at h ⊢
  induction l with
  | nil => simp
  | cons d l ih =>
    simp only [List.map_cons, List.nodup_cons, List.mem_map, not_exists, not_and] at h ⊢
    refine ⟨?_, ih h.2⟩
    intro e he hid
    exact h.1 e he (List.append_cancel_left hid)

theorem idAt_get {k : Nat} (hk : k < s.targets.length) :
    (s.targets.map (Decl.id tc))[k]? = some (s.idAt tc k) := by
  simp [Text.idAt, List.getElem?_eq_getElem hk]

theorem idAt_mem {k : Nat} (hk : k < s.targets.length) : s.idAt tc k ∈ s.targets.map (Decl.id tc) :=
  List.mem_of_getElem? (idAt_get hk)

theorem idAt_inj (hn : Neat s) {i k : Nat} (hi : i < s.targets.length) (hk : k < s.targets.length)
    (h : s.idAt tc i = s.idAt tc k) : i = k := by
  have hnd := ids_nodup (tc := tc) hn
  refine (List.getElem?_inj (l := s.targets.map (Decl.id tc)) (by simpa using hi) hnd).1 ?_
  rw [idAt_get hi, idAt_get hk, h]

/-- Dependencies go from earlier targets to later ones. -/
theorem reaches_earlier (hn : Neat s) {deps : List (Nat × Nat)}
    (hd : ∀ e ∈ deps, e.2 < e.1 ∧ e.1 < s.targets.length) {a b : Str}
    (h : Reaches (deps.map fun e => (s.idAt tc e.2, s.idAt tc e.1)) a b) :
    ∃ i k, i < k ∧ k < s.targets.length ∧ a = s.idAt tc i ∧ b = s.idAt tc k := by
  induction h with
  | edge he =>
    obtain ⟨e, hm, h⟩ := List.mem_map.1 he
    obtain ⟨rfl, rfl⟩ := Prod.mk.inj h
    exact ⟨e.2, e.1, (hd e hm).1, (hd e hm).2, rfl, rfl⟩
  | step he _ ih =>
    obtain ⟨e, hm, h⟩ := List.mem_map.1 he
    obtain ⟨rfl, rfl⟩ := Prod.mk.inj h
    obtain ⟨i, k, h1, h2, h3, rfl⟩ := ih
    have := idAt_inj hn (hd e hm).2 (Nat.lt_trans h1 h2) h3
    exact ⟨e.2, k, by have := (hd e hm).1; omega, h2, rfl, rfl⟩

theorem calls_funcs (n : Nat) (c : Reg.Condition) (hc : c.build = true) (l : List Nat) (st : Script) :
    calls n st (l.map (.func c ·)) = .ok ⟨st.graph, st.ran ++ l⟩ := by
  induction l generalizing st with
  | nil => simp [calls]
  | cons k l ih => simp [calls, call, hc, ih]

theorem calls_builds (n : Nat) (c : Reg.Condition) (hc : c.build = true) (l : List Str) (st : Script)
    (h : (st.graph.ids ++ l).Nodup) :
    calls n st (l.map (.build c ·)) = .ok ⟨{ st.graph with ids := st.graph.ids ++ l }, st.ran⟩ := by
  induction l generalizing st with
  | nil => simp [calls]
  | cons k l ih =>
    have hk : k ∉ st.graph.ids := by
      have := (List.nodup_append.1 h).2.2
      exact fun hm => this k hm k (List.mem_cons_self ..) rfl
    simp only [List.map_cons, calls, call, hc, Reg.build, if_true, if_neg hk, Reg.Result.lift]
    rw [ih _ (by simpa using h)]
    simp

theorem calls_tests (n : Nat) (c : Reg.Condition) (hc : c.build = true) (l : List Str) (st : Script)
    (h : (st.graph.tests ++ l).Nodup) (hm : ∀ x ∈ l, x ∈ st.graph.ids) :
    calls n st (l.map (.test c ·)) =
      .ok ⟨{ st.graph with tests := st.graph.tests ++ if c.test then l else [] }, st.ran⟩ := by
  cases ht : c.test with
  | false =>
    induction l generalizing st with
    | nil => simp [calls]
    | cons k l ih =>
      simp only [List.map_cons, calls, call, hc, ht, Bool.and_false, Bool.false_eq_true, if_false]
      rw [ih st (h.sublist (by simp)) fun x hx => hm x (List.mem_cons_of_mem _ hx)]
      simp
  | true =>
    induction l generalizing st with
    | nil => simp [calls]
    | cons k l ih =>
      have hk : k ∉ st.graph.tests := by
        have := (List.nodup_append.1 h).2.2
        exact fun hm => this k hm k (List.mem_cons_self ..) rfl
      have hi := hm k (List.mem_cons_self ..)
      simp only [List.map_cons, calls, call, hc, ht, Bool.and_self, if_true, Reg.test, hi, hk,
        not_true_eq_false, if_false, Reg.Result.lift]
      rw [ih ⟨⟨st.graph.ids, st.graph.edges, st.graph.tests ++ [k]⟩, st.ran⟩ (by simpa using h)
        fun x hx => hm x (List.mem_cons_of_mem _ hx)]
      simp

/-- From the builders `ids` only they are reached, and not by way of the others. -/
theorem reaches_apart {base E : List (Str × Str)} {ids : List Str} (hb : ∀ e ∈ base, e.1 ∉ ids)
    (hE : ∀ e ∈ E, e.2 ∈ ids) {a b : Str} (h : Reaches (base ++ E) a b) (ha : a ∈ ids) :
    Reaches E a b ∧ b ∈ ids := by
  induction h with
  | edge he =>
    rcases List.mem_append.1 he with he | he
    · exact absurd ha (hb _ he)
    · exact ⟨.edge he, hE _ he⟩
  | step he _ ih =>
    rcases List.mem_append.1 he with he | he
    · exact absurd ha (hb _ he)
    · have := ih (hE _ he)
      exact ⟨.step he this.1, this.2⟩

theorem meets_apart {base E : List (Str × Str)} {ids : List Str} (hb : ∀ e ∈ base, e.1 ∉ ids)
    (hE : ∀ e ∈ E, e.2 ∈ ids) {a : Str} (h : Reg.MeetsCycle (base ++ E) a) (ha : a ∈ ids) :
    Reg.MeetsCycle E a := by
  obtain ⟨c, h1, h2⟩ := h
  rcases h1 with rfl | h1
  · exact ⟨c, .inl rfl, (reaches_apart hb hE h2 ha).1⟩
  · have := reaches_apart hb hE h1 ha
    exact ⟨c, .inr this.1, (reaches_apart hb hE h2 this.2).1⟩

/-- `base` are the dependencies between other builders. -/
theorem calls_deps (hn : Neat s) (c : Reg.Condition) (hc : c.build = true) {base : List (Str × Str)}
    (hb : ∀ e ∈ base, e.1 ∉ s.targets.map (Decl.id tc) ∧ e.2 ∉ s.targets.map (Decl.id tc)) :
    ∀ (l pre : List (Nat × Nat))
    (st : Script), (∀ x ∈ s.targets.map (Decl.id tc), x ∈ st.graph.ids) →
    st.graph.edges = base ++ pre.map (fun e => (s.idAt tc e.2, s.idAt tc e.1)) → (pre ++ l).Nodup →
    (∀ e ∈ pre ++ l, e.2 < e.1 ∧ e.1 < s.targets.length) →
    ∃ n, ∀ m, n ≤ m → calls m st (l.map fun e => .dep c (s.idAt tc e.1) (s.idAt tc e.2)) =
      .ok ⟨{ st.graph with edges := base ++ (pre ++ l).map fun e => (s.idAt tc e.2, s.idAt tc e.1) }, st.ran⟩
  | [], pre, st, _, he, _, _ => ⟨0, fun m _ => by
      simp only [List.map_nil, calls, List.append_nil, ← he]⟩
  | x :: l, pre, st, hi, he, hnd, hd => by
    have hx := hd x (by simp)
    have hpre : ∀ e ∈ pre, e.2 < e.1 ∧ e.1 < s.targets.length :=
      fun e he => hd e (List.mem_append_left _ he)
    have hx2 : x.2 < s.targets.length := by omega
    obtain ⟨n1, h1⟩ := Reg.C37_dep_exact st.graph (s.idAt tc x.1) (s.idAt tc x.2)
      (hi _ (idAt_mem hx.2)) (hi _ (idAt_mem hx2))
    obtain ⟨n2, h2⟩ := calls_deps hn c hc hb l (pre ++ [x])
      ⟨{ st.graph with edges := st.graph.edges ++ [(s.idAt tc x.2, s.idAt tc x.1)] }, st.ran⟩ hi
      (by simp [he]) (by simpa using hnd) (by simpa using hd)
    refine ⟨max n1 n2, fun m hm => ?_⟩
    have hE : ∀ e ∈ pre.map (fun e => (s.idAt tc e.2, s.idAt tc e.1)), e.2 ∈ s.targets.map (Decl.id tc) := by
      intro e he
      obtain ⟨e', hm, rfl⟩ := List.mem_map.1 he
      exact idAt_mem (hpre e' hm).2
    have no : ¬ ((s.idAt tc x.2, s.idAt tc x.1) ∈ st.graph.edges ∨
        Reaches st.graph.edges (s.idAt tc x.1) (s.idAt tc x.2)) := by
      rintro (hm | hr)
      · rw [he] at hm
        rcases List.mem_append.1 hm with hm | hm
        · exact (hb _ hm).2 (idAt_mem hx.2)
        obtain ⟨e, hem, h⟩ := List.mem_map.1 hm
        obtain ⟨ha, hb⟩ := Prod.mk.inj h
        have e1 := idAt_inj hn (hpre e hem).2 hx.2 hb
        have e2 := idAt_inj hn (by have := hpre e hem; omega) hx2 ha
        have : e = x := Prod.ext e1 e2
        subst this
        exact (List.nodup_append.1 hnd).2.2 e hem e (List.mem_cons_self ..) rfl
      · rw [he] at hr
        obtain ⟨i, k, h1, h2, h3, h4⟩ := reaches_earlier hn hpre
          (reaches_apart (fun e h => (hb e h).1) hE hr (idAt_mem hx.2)).1
        have e1 := idAt_inj hn hx.2 (by omega) h3
        have e2 := idAt_inj hn hx2 h2 h4
        omega
    have nc : ¬ Reg.MeetsCycle st.graph.edges (s.idAt tc x.1) := by
      intro hc
      rw [he] at hc
      obtain ⟨c, -, hr⟩ := meets_apart (fun e h => (hb e h).1) hE hc (idAt_mem hx.2)
      obtain ⟨i, k, h1, h2, h3, h4⟩ := reaches_earlier hn hpre hr
      have := idAt_inj hn (by omega) h2 (h3.symm.trans h4)
      omega
    have hdep := h1 m (by omega)
    rw [if_neg no, if_neg nc] at hdep
    simp only [List.map_cons, calls, call, hc, if_true, hdep, Reg.Result.lift]
    rw [h2 m (by omega)]
    simp

/-- C106: the calls of the script on `Reg` are accepted.  `n` bounds the searches for cycles. -/
theorem C106_accepted (hn : Neat s) (tc : Toolchain) (clean : Bool) (c : Reg.Condition)
    (hc : c.build = true) : ∃ n, ∀ m, n ≤ m →
      calls m ⟨Graph.empty, []⟩ (s.calls tc clean c) = .ok ⟨s.graph tc c.test,
        (if clean then [0] else []) ++ (List.range (s.infos.length + 1)).map (· + 1)⟩ := by
  have hdn := hn.deps
  obtain ⟨n, h⟩ := calls_deps (tc := tc) hn c hc (base := []) (by simp) s.deps []
    ⟨{ Graph.empty with ids := s.targets.map (Decl.id tc) },
      (if clean then [0] else []) ++ (List.range (s.infos.length + 1)).map (· + 1)⟩ (fun _ hx => hx) rfl
    (by simpa using hdn.1) (by simpa using hdn.2)
  refine ⟨n, fun m hm => ?_⟩
  have h0 : call m ⟨Graph.empty, []⟩ (.callFunc clean 0) = .ok ⟨Graph.empty, if clean then [0] else []⟩ := by
    cases clean <;> rfl
  have hf : (List.range (s.infos.length + 1)).map (fun k => Call.func c (k + 1)) =
      ((List.range (s.infos.length + 1)).map (· + 1)).map (.func c ·) := by simp
  have hb : s.targets.map (fun d => Call.build c (d.id tc)) =
      (s.targets.map (Decl.id tc)).map (.build c ·) := by simp
  have ht : s.tests.map (fun k => Call.test c (s.idAt tc k)) =
      (s.tests.map (s.idAt tc)).map (.test c ·) := by simp
  have htests : (s.tests.map (s.idAt tc)).Nodup := by
    have h := hn.tests
    generalize s.tests = l at h
    induction l with
    | nil => simp
    | cons k l ih =>
      simp only [List.map_cons, List.nodup_cons, List.mem_map, not_exists, not_and, List.mem_cons,
        forall_eq_or_imp] at h ⊢
      refine ⟨fun j hj e => ?_, ih ⟨h.1.2, h.2.2⟩⟩
      exact h.1.1 (idAt_inj hn (h.2.2 j hj) h.2.1 e ▸ hj)
  rw [Text.calls, hf, hb, ht, List.cons_append, List.cons_append, List.cons_append, Reg.calls_cons h0]
  rw [List.append_assoc, List.append_assoc, Reg.calls_append _ _ _ _ (calls_funcs m c hc _ _),
    Reg.calls_append _ _ _ _ (calls_builds m c hc _ _ (by simpa [Graph.empty] using ids_nodup hn)),
    Reg.calls_append _ _ _ _ (by simpa [Graph.empty] using h m hm), calls_tests m c hc _ _ (by simpa [Graph.empty] using htests) ?_]
  · simp [Text.graph, Graph.empty]
  · intro x hx
    obtain ⟨k, hk, rfl⟩ := List.mem_map.1 hx
    exact idAt_mem (hn.tests.2 k hk)

theorem declared (hn : Neat s) (test : Bool) : Declared s tc (s.graph tc test).edges := by
  intro d hd x hx i hi e he
  obtain ⟨k, hk⟩ := List.getElem?_of_mem hd
  have hl := hn.linked (d, k) (List.mem_zipIdx_iff_getElem?.2 hk) x hx i hi
  refine .edge (List.mem_map.2 ⟨_, hl, ?_⟩)
  simp [Text.idAt, hk, he]

theorem selfDep (hn : Neat s) (clean : Bool) (c : Reg.Condition) :
    ∀ x ∈ s.calls tc clean c, x.selfDep = false := by
  intro x hx
  simp only [Text.calls, List.cons_append, List.mem_cons, List.mem_append, List.mem_map] at hx
  rcases hx with h | ((⟨_, _, h⟩ | ⟨_, _, h⟩) | ⟨e, he, h⟩) | ⟨_, _, h⟩
  · rw [h]; rfl
  · rw [← h]; rfl
  · rw [← h]; rfl
  · rw [← h]
    have h1 := hn.deps.2 e he
    have hne : s.idAt tc e.1 ≠ s.idAt tc e.2 := fun hid => by
      have := idAt_inj hn h1.2 (by omega) hid
      omega
    simp [Call.selfDep, hne]
  · rw [← h]; rfl

/-- C106: a script whose text keeps to the rules of `Neat`, in any place, with files of which none is in
the build directory.  It is run again and again.  Files are edited and deleted, between builds and during
builds (but not at the moments named in `Delicate`), and state files are dropped; builds fail, and are
killed at any point.  Whenever `Reg::Run` returns with success and no file was changed from outside since
the process was started

* every target is what a build from scratch would leave, and
* every target to which another one was given with `AddLibDep` is linked with the present version of it,
  which is the result of its last link; nobody writes that file by hand. -/
theorem C106_built (h : s.run junk p list tc = some fs) (hn : Neat s) (hp : Place p tc)
    (hout : ∀ f ∈ fs, ∀ q ∈ Reg.given f.cfg, ¬ Inside p.buildDir q) (order : Str → List Str)
    {clean : Bool} {c : Reg.Condition} (hc : c.build = true) {evs : List Reg.WEvent} {w : Reg.World}
    (hw : w = (Reg.World.init (Reg.kindsOf (scriptTargets fs order))).steps evs)
    (hal : Reg.AllOfScript (s.graph tc c.test) (Reg.setupOf (scriptTargets fs order))
      (Reg.World.init (Reg.kindsOf (scriptTargets fs order))) evs)
    (ha : w.active = true) (hcalm : w.calm = true) (hres : (w.step .join).result = some true) :
    (∃ n, ∀ m, n ≤ m → ∃ ran,
      calls m ⟨Graph.empty, []⟩ (s.calls tc clean c) = .ok ⟨s.graph tc c.test, ran⟩) ∧
    (∀ f ∈ fs, ∃ σ, (w.step .join).comps (targetId tc.name f.made.name) = .target f.made.fixed σ ∧
      Clean f.made.fixed σ f.cfg) ∧
    ∀ (i k : Nat) (d : Decl) (a b : Boot.Filled), s.targets[k]? = some d → .libDep i ∈ d.steps →
      fs[i]? = some a → fs[k]? = some b →
      (∀ e ∈ evs, (∀ v, e ≠ .edit (outputPath a.made.fixed) v) ∧ e ≠ .delete (outputPath a.made.fixed)) →
      Reg.LinkedWith (w.step .join) (targetId tc.name a.made.name) (targetId tc.name b.made.name)
        (outputPath a.made.fixed) := by
  obtain ⟨n, hcalls⟩ := C106_accepted hn tc clean c hc
  refine ⟨⟨n, fun m hm => ⟨_, hcalls m hm⟩⟩, ?_⟩
  exact built_declared h hn hp hout order (hcalls n (Nat.le_refl n)) (selfDep hn clean c) rfl
    (declared hn c.test) hw hal ha hcalm hres

end Verif.Sample
