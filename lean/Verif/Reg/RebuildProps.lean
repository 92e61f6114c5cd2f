import Verif.Reg.RebuildInv

/-! # C93, C94: what a build does after a build -/

namespace Verif.Reg
open Verif Verif.Schema
open Verif.Target (Fixed BinArt objPath outputPath upd paths AllCurrent)

variable {kinds : Str → Kind} {hist : List WEvent}

/-! ## After a successful build -/

theorem RunsScript.pInv {w w' : World} {g : Graph} {s : Str → Setup} {mid : List WEvent}
    (hB : BInv w) (h : RunsScript w g s mid w') :
    PInv w.comps w' ∧ w'.graph = g ∧ w'.setup = s := by
  obtain ⟨h1, h2, h3, -⟩ := pInv_launch hB h.plan h.idle h.launched
  obtain ⟨h4, h5, h6⟩ := pInv_steps mid _ h1 h.inside
  rw [h.result] at h4 h5 h6
  exact ⟨h4, h5.trans h2, h6.trans h3⟩

/-- After a build that succeeded nothing is to be done for any of its builders. -/
theorem joined {κ : Str → Comp} {w : World} (h : PInv κ w)
    (hr : (w.step .join).result = some true) :
    (w.step .join).files = w.files ∧ (w.step .join).used = w.used ∧
    (w.step .join).active = false ∧ (w.step .join).comps = w.comps ∧
    ∀ j ∈ w.graph.ids, (w.comps j).running = false ∧
      (Regular (w.setup j) → Recorded w.files (w.setup j) (w.comps j)) := by
  obtain ⟨ho, hok⟩ := join_result h.active hr h.result
  have hfin := over_finished h.valid h.acyclic ho
  have hrun : ∀ j ∈ w.graph.ids, (w.comps j).running = false := by
    intro j hj
    have := hfin j hj
    simp only [World.finished, Bool.and_eq_true, Bool.not_eq_true'] at this
    exact this.2
  simp only [World.step, h.active, ho, Bool.and_self, if_true]
  refine ⟨trivial, trivial, trivial, ?_, fun j hj => ⟨hrun j hj, fun hg => ?_⟩⟩
  · funext j
    split
    · rename_i hj; exact kill_idle _ _ _ (hrun j hj)
    · rfl
  · have := (h.quiet j hj).recorded hg (hrun j hj) (h.good hok j hj)
    rw [(h.base.views j).1] at this
    exact this

/-- Histories that do not concern a builder leave what it has stored. -/
structure Aside (j : Str) (κ : Comp) (w : World) : Prop where
  base : BInv w
  idle : (w.comps j).running = false
  out : w.active = true → j ∉ w.graph.ids
  same : ∀ f s, Recorded f s (w.comps j) ↔ Recorded f s κ

theorem recorded_write {f : Str → Option Nat} {s : Setup} {c : Comp} {p : Str} {x : Option Nat} :
    Recorded f s (c.write p x) ↔ Recorded f s c := by
  cases x <;> cases c <;> cases s <;> exact Iff.rfl

theorem recorded_writes {f : Str → Option Nat} {s : Setup} {j : Str} : ∀ (ws : Writes) (w : World),
    Recorded f s ((w.writes ws).comps j) ↔ Recorded f s (w.comps j) := by
  intro ws
  induction ws with
  | nil => intro w; exact Iff.rfl
  | cons x l ih => intro w; exact (ih (w.write x.1 x.2)).trans recorded_write

theorem running_writes {j : Str} : ∀ (ws : Writes) (w : World),
    ((w.writes ws).comps j).running = (w.comps j).running := by
  intro ws
  induction ws with
  | nil => intro w; rfl
  | cons x l ih => intro w; exact (ih (w.write x.1 x.2)).trans (write_running _ _ _).1

theorem aside_step {j : Str} {κ : Comp} {w : World} {e : WEvent} (h : Aside j κ w)
    (he : e.leavesOut j = true) : Aside j κ (w.step e) := by
  have hB := bInv_step h.base e
  have hsame : ∀ w' : World, BInv w' → w'.comps j = w.comps j →
      (w'.active = true → j ∉ w'.graph.ids) → Aside j κ w' := fun w' h1 h2 h3 =>
    ⟨h1, by rw [h2]; exact h.idle, h3, by rw [h2]; exact h.same⟩
  have hwr : ∀ (p : Str) (x : Option Nat) (w' : World), BInv w' → w'.comps j = (w.comps j).write p x →
      w'.active = w.active → w'.graph = w.graph → Aside j κ w' := fun p x w' h1 h2 h3 h4 =>
    ⟨h1, by rw [h2]; exact (write_running _ _ _).1.trans h.idle, by rw [h3, h4]; exact h.out,
      fun f s => by rw [h2]; exact recorded_write.trans (h.same f s)⟩
  cases e with
  | edit p t => exact hwr p (some t) _ hB rfl rfl rfl
  | delete p => exact hwr p none _ hB rfl rfl rfl
  | dropState id =>
    simp only [WEvent.leavesOut, decide_eq_true_eq] at he
    revert hB
    simp only [World.step]
    split
    · exact fun _ => h
    · exact fun hB => hsame _ hB (by simp only [upd, if_neg (Ne.symm he)]) h.out
  | launch g s =>
    simp only [WEvent.leavesOut, decide_eq_true_eq] at he
    revert hB
    simp only [World.step]
    split
    · exact fun hB => hsame _ hB (by simp only [if_neg he]) fun _ => he
    · exact fun _ => h
  | «begin» id =>
    revert hB
    simp only [World.step]
    split
    · exact fun hB => hsame _ hB rfl h.out
    · exact fun _ => h
  | task id e ws =>
    revert hB
    simp only [World.step]
    split
    · rename_i hg
      simp only [Bool.and_eq_true, decide_eq_true_eq] at hg
      obtain ⟨⟨⟨⟨ha, hb⟩, hr⟩, het⟩, hl⟩ := hg
      intro hB
      have hne : j ≠ id := by rintro rfl; exact h.out ha (h.base.sub _ hb)
      have hc : (w.stepped id e ws).comps j = w.comps j := by
        simp only [World.stepped, if_neg hne]
        split
        · exact fail_idle _ h.idle
        · rfl
      have hfr := writes_frame ws (w.stepped id e ws)
      rw [task_eq] at hB ⊢
      refine ⟨hB, ?_, ?_, fun f s => ?_⟩
      · rw [running_writes, hc]; exact h.idle
      · rw [hfr.1, hfr.2.1]; exact h.out
      · rw [recorded_writes, hc]; exact h.same f s
    · exact fun _ => h
  | look id e =>
    revert hB
    simp only [World.step]
    split
    · rename_i hg
      simp only [Bool.and_eq_true, decide_eq_true_eq] at hg
      obtain ⟨⟨⟨ha, hb⟩, hr⟩, hel⟩ := hg
      have hne : j ≠ id := by rintro rfl; exact h.out ha (h.base.sub _ hb)
      exact fun hB => hsame _ hB (by simp only [upd, if_neg hne]) h.out
    · exact fun _ => h
  | join =>
    revert hB
    simp only [World.step]
    split
    · rename_i hg
      simp only [Bool.and_eq_true] at hg
      exact fun hB => hsame _ hB (by simp only [if_neg (h.out hg.1)]) (by simp)
    · exact fun _ => h
  | kill order written =>
    revert hB
    simp only [World.step]
    split
    · rename_i hg
      exact fun hB => hsame _ hB (by simp only [if_neg (h.out hg)]) (by simp)
    · exact fun _ => h

theorem aside_steps {j : Str} {κ : Comp} : ∀ (evs : List WEvent) (w : World), Aside j κ w →
    (∀ e ∈ evs, e.leavesOut j = true) → Aside j κ (w.steps evs) := by
  intro evs
  induction evs with
  | nil => intro w h _; exact h
  | cons e l ih =>
    intro w h he
    exact ih (w.step e) (aside_step h (he e (by simp))) fun x hx => he x (by simp [hx])

theorem Regular.same {s s' : Setup} (h : SameSetup s s') (hr : Regular s') : Regular s := by
  cases s <;> cases s' <;> first | exact h.elim | (obtain rfl : _ = _ := h; exact hr)

theorem Recorded.same {f : Str → Option Nat} {s s' : Setup} {c : Comp} (h : SameSetup s s')
    (hr : Recorded f s' c) : Recorded f s c := by
  cases s <;> cases s' <;> first
    | exact h.elim
    | (obtain rfl : _ = _ := h; cases c <;> first | exact hr.elim | exact hr)

/-- The second build starts from a record of the files after the first. -/
theorem second {w₀ w₁ w₂ w₃ : World} {g₁ g₂ : Graph} {s₁ s₂ : Str → Setup}
    {mid₁ between mid₂ : List WEvent} {j : Str} (hw₀ : w₀ = (World.init kinds).steps hist)
    (h₁ : RunsScript w₀ g₁ s₁ mid₁ w₁) (hok : (w₁.step .join).result = some true)
    (hw₂ : w₂ = (w₁.step .join).steps between) (hout : ∀ e ∈ between, e.leavesOut j = true)
    (h₂ : RunsScript w₂ g₂ s₂ mid₂ w₃) (hj₁ : j ∈ g₁.ids) (hj₂ : j ∈ g₂.ids)
    (hs : SameSetup (s₂ j) (s₁ j)) (hr : Regular (s₁ j)) :
    PInv w₂.comps w₃ ∧ w₃.graph = g₂ ∧ w₃.setup = s₂ ∧ Recorded w₁.files (s₂ j) (w₂.comps j) := by
  have hB₀ : BInv w₀ := by rw [hw₀]; exact bInv_steps hist _ (bInv_init kinds)
  obtain ⟨hP₁, hg₁, hs₁⟩ := h₁.pInv hB₀
  obtain ⟨k1, -, k2, k3, k4⟩ := joined hP₁ hok
  obtain ⟨k5, k6⟩ := k4 j (by rw [hg₁]; exact hj₁)
  rw [hs₁] at k6
  have hA : Aside j (w₁.comps j) (w₁.step .join) :=
    ⟨bInv_step hP₁.base _, by rw [k3]; exact k5, by rw [k2]; simp, fun f s => by rw [k3]⟩
  have hA₂ := aside_steps between _ hA hout
  rw [← hw₂] at hA₂
  obtain ⟨hP₂, hg₂, hs₂⟩ := h₂.pInv hA₂.base
  exact ⟨hP₂, hg₂, hs₂, ((hA₂.same _ _).2 (k6 hr)).same hs⟩

/-! ## C94 -/

/-- C94: after a build that succeeded, a later build runs a command or callback of a builder
with the same configuration only if one of its input files is not any more what it was. -/
theorem C94_only_affected {w₀ w₁ w₂ w₃ : World} {g₁ g₂ : Graph} {s₁ s₂ : Str → Setup}
    {mid₁ between mid₂ : List WEvent} {j : Str} (hw₀ : w₀ = (World.init kinds).steps hist)
    (h₁ : RunsScript w₀ g₁ s₁ mid₁ w₁) (hok : (w₁.step .join).result = some true)
    (hw₂ : w₂ = (w₁.step .join).steps between) (hout : ∀ e ∈ between, e.leavesOut j = true)
    (h₂ : RunsScript w₂ g₂ s₂ mid₂ w₃) (hj₁ : j ∈ g₁.ids) (hj₂ : j ∈ g₂.ids)
    (hs : SameSetup (s₂ j) (s₁ j)) (hr : Regular (s₁ j))
    (he : Executed (w₃.comps j) ∨ Working (w₃.comps j)) :
    ∃ p ∈ (s₂ j).inputs, w₃.files p ≠ w₁.files p := by
  obtain ⟨hP, hg, hss, hrec⟩ := second hw₀ h₁ hok hw₂ hout h₂ hj₁ hj₂ hs hr
  have hq := (hP.quiet j (by rw [hg]; exact hj₂)).begin
  rw [hss] at hq
  have hv := (hP.base.views j).1
  rcases he with he | he
  · obtain ⟨p, hp, hne⟩ := hq.needed (hr.same hs) hrec he
    rw [hv] at hne
    exact ⟨p, hp, hne⟩
  · obtain ⟨e, het, hx⟩ := he.executes
    obtain ⟨p, hp, hne⟩ := (hq.task (.inl het)).needed (hr.same hs) hrec hx
    rw [(step_files _ e (task_leaves het)).1, hv] at hne
    exact ⟨p, hp, hne⟩

/-- C94: so it was changed in between, or by a builder that runs something in the later build
and on which this one depends. -/
theorem C94_cause {w₀ w₁ w₂ w₃ : World} {g₁ g₂ : Graph} {s₁ s₂ : Str → Setup}
    {mid₁ between mid₂ : List WEvent} {j : Str} (hw₀ : w₀ = (World.init kinds).steps hist)
    (h₁ : RunsScript w₀ g₁ s₁ mid₁ w₁) (hok : (w₁.step .join).result = some true)
    (hw₂ : w₂ = (w₁.step .join).steps between) (hout : ∀ e ∈ between, e.leavesOut j = true)
    (h₂ : RunsScript w₂ g₂ s₂ mid₂ w₃) (hj₁ : j ∈ g₁.ids) (hj₂ : j ∈ g₂.ids)
    (hs : SameSetup (s₂ j) (s₁ j)) (hr : Regular (s₁ j))
    (he : Executed (w₃.comps j) ∨ Working (w₃.comps j)) :
    (∃ p ∈ (s₂ j).inputs, w₂.files p ≠ w₁.files p) ∨
      ∃ a ∈ g₂.ids, Reaches g₂.edges a j ∧ Executed (w₃.comps a) := by
  obtain ⟨p, hp, hne⟩ := C94_only_affected hw₀ h₁ hok hw₂ hout h₂ hj₁ hj₂ hs hr he
  by_cases hc : w₂.files p = w₁.files p
  · right
    have hB₂ : BInv w₂ := by
      rw [hw₂]
      refine bInv_steps _ _ (bInv_step ?_ _)
      exact (h₁.pInv (by rw [hw₀]; exact bInv_steps hist _ (bInv_init kinds))).1.base
    obtain ⟨k1, k2, k3, k4, -⟩ := pInv_launch hB₂ h₂.plan h₂.idle h₂.launched
    obtain ⟨a, ha, hx, ho⟩ := changed_steps (p := p) mid₂ _ k1 h₂.inside (by
      rw [h₂.result, k4, hc]; exact hne)
    rw [h₂.result] at hx
    rw [k2] at ha
    rw [k3, outputs_event] at ho
    exact ⟨a, ha, h₂.plan.declared a ha j hj₂ p ho hp, hx⟩
  · exact .inl ⟨p, hp, hc⟩

/-- C94, for the single commands of a target: a source is compiled again only if it changed, or
something did that all compile commands use. -/
theorem C94_commands {w₀ w₁ w₂ w₃ : World} {g₁ g₂ : Graph} {s₁ s₂ : Str → Setup}
    {mid₁ between mid₂ : List WEvent} {j : Str} {c : TargetSchema} {o : List Str} {fx : Fixed}
    {σ : Target.Sys} (hw₀ : w₀ = (World.init kinds).steps hist)
    (h₁ : RunsScript w₀ g₁ s₁ mid₁ w₁) (hok : (w₁.step .join).result = some true)
    (hw₂ : w₂ = (w₁.step .join).steps between) (hout : ∀ e ∈ between, e.leavesOut j = true)
    (h₂ : RunsScript w₂ g₂ s₂ mid₂ w₃) (hj₁ : j ∈ g₁.ids) (hj₂ : j ∈ g₂.ids)
    (hs : SameSetup (s₂ j) (s₁ j)) (hr : Regular (s₁ j)) (hc : s₂ j = .target c o)
    (hσ : w₃.comps j = .target fx σ) :
    (∀ b, .pch b ∈ σ.log → ∃ p ∈ paths c.headers ++ paths c.pchs, w₃.files p ≠ w₁.files p) ∧
    (∀ p b, .obj p b ∈ σ.log → ∃ q ∈ p :: (paths c.headers ++ paths c.pchs ++ paths c.compileDeps),
      w₃.files q ≠ w₁.files q) := by
  obtain ⟨hP, hg, hss, hrec⟩ := second hw₀ h₁ hok hw₂ hout h₂ hj₁ hj₂ hs hr
  have hq := hP.quiet j (by rw [hg]; exact hj₂)
  have hv := (hP.base.views j).1
  have hr2 := hr.same hs
  rw [hss, hc, hσ] at hq
  rw [hσ] at hv
  rw [hc] at hrec hr2
  generalize w₂.comps j = κ at hq hrec
  generalize decide (j ∈ w₃.begun) = b at hq
  cases hq with
  | target hq =>
    obtain ⟨x, hx, hcur⟩ := hrec
    obtain ⟨k1, k2, -⟩ := hq.needed hr2 hx hcur
    rw [show σ.files = w₃.files from hv] at k1 k2
    exact ⟨k1, k2⟩

/-- C94, for the single ids of a generator: a callback is called again only if one of the inputs
of its id changed. -/
theorem C94_ids {w₀ w₁ w₂ w₃ : World} {g₁ g₂ : Graph} {s₁ s₂ : Str → Setup}
    {mid₁ between mid₂ : List WEvent} {j id : Str} {c : Generator.Cfg} {b : Bool}
    {σ : Generator.Sys} (hw₀ : w₀ = (World.init kinds).steps hist)
    (h₁ : RunsScript w₀ g₁ s₁ mid₁ w₁) (hok : (w₁.step .join).result = some true)
    (hw₂ : w₂ = (w₁.step .join).steps between) (hout : ∀ e ∈ between, e.leavesOut j = true)
    (h₂ : RunsScript w₂ g₂ s₂ mid₂ w₃) (hj₁ : j ∈ g₁.ids) (hj₂ : j ∈ g₂.ids)
    (hs : SameSetup (s₂ j) (s₁ j)) (hr : Regular (s₁ j)) (hc : s₂ j = .gen c)
    (hσ : w₃.comps j = .gen σ) (hid : .called id b ∈ σ.log) :
    ∃ i, Generator.find id c = some i ∧ ∃ p ∈ i.inputs, w₃.files p ≠ w₁.files p := by
  obtain ⟨hP, hg, hss, hrec⟩ := second hw₀ h₁ hok hw₂ hout h₂ hj₁ hj₂ hs hr
  have hq := hP.quiet j (by rw [hg]; exact hj₂)
  have hv := (hP.base.views j).1
  rw [hss, hc, hσ] at hq
  rw [hσ] at hv
  rw [hc] at hrec
  generalize w₂.comps j = κ at hq hrec
  generalize decide (j ∈ w₃.begun) = b at hq
  cases hq with
  | gen hq =>
    have := hq.needed hrec (id := id)
      (by simp only [Generator.calledIds, List.mem_filterMap]; exact ⟨_, hid, rfl⟩)
    rw [show σ.files = w₃.files from hv] at this
    exact this

/-! ## C93 -/

theorem SameStored.rfl' (c : Comp) : SameStored c c := by
  cases c
  · exact ⟨rfl, rfl, rfl, rfl⟩
  · exact ⟨rfl, rfl⟩

theorem SameStored.trans {a b c : Comp} (h : SameStored a b) (h' : SameStored b c) : SameStored a c := by
  cases a <;> cases b <;> cases c <;> first | exact h.elim | exact h'.elim | skip
  · exact ⟨h.1.trans h'.1, h.2.1.trans h'.2.1, h.2.2.1.trans h'.2.2.1, h.2.2.2.trans h'.2.2.2⟩
  · exact ⟨h.1.trans h'.1, h.2.trans h'.2⟩

theorem SameStored.recorded {a b : Comp} (h : SameStored a b) {f : Str → Option Nat} {s : Setup}
    (hr : Recorded f s b) : Recorded f s a := by
  cases a <;> cases b <;> cases s <;> first | exact h.elim | exact hr.elim | skip
  · simp only [Recorded] at hr ⊢; rw [h.1]; exact hr
  · simp only [Recorded] at hr ⊢; rw [h.1]; exact hr

/-- After `w₁`, in which everything is up to date, nothing has changed. -/
structure NInv (w₁ : World) (g : Graph) (s : Str → Setup) (w : World) : Prop where
  base : BInv w
  files : w.files = w₁.files
  used : w.used = w₁.used
  result : w.result ≠ some false
  kind : ∀ a t, outputs (w.comps a) t = outputs (w₁.comps a) t
  idle : w.active = false → ∀ j ∈ g.ids, SameStored (w.comps j) (w₁.comps j)
  run : w.active = true → ∃ κ, PInv κ w ∧ w.ok = true ∧ (∀ j ∈ w.graph.ids, j ∈ g.ids) ∧
    (∀ j ∈ w.graph.ids, SameSetup (w.setup j) (s j)) ∧
    (∀ j ∈ g.ids, SameStored (κ j) (w₁.comps j)) ∧
    ∀ j ∈ g.ids, j ∉ w.graph.ids → SameStored (w.comps j) (w₁.comps j)

/-- What the invariant says about a builder of a process. -/
theorem NInv.null {w₁ : World} {s : Str → Setup} {κ : Str → Comp} {j : Str} {c : Comp}
    {t : Setup} {b : Bool} (hq : Quietly (κ j) t b c) (hf : c.files = w₁.files)
    (hst : SameStored (κ j) (w₁.comps j)) (hss : SameSetup t (s j)) (hreg : Regular (s j))
    (hrec : Recorded w₁.files (s j) (w₁.comps j)) :
    SameStored c (w₁.comps j) ∧ ¬ OwnFailure c ∧ ¬ Executed c ∧
      ∀ order n, SameStored (c.kill order n) (w₁.comps j) := by
  have h1 : Recorded w₁.files t (κ j) := (hst.recorded hrec).same hss
  obtain ⟨k1, k2, k3⟩ := hq.null (hreg.same hss) (by rw [hf]; exact h1)
  refine ⟨k1.trans hst, k2, fun he => ?_, fun o n => (k3 o n).trans hst⟩
  obtain ⟨p, -, hne⟩ := hq.needed (hreg.same hss) h1 he
  exact hne (by rw [hf])

theorem nInv_step {w₁ w : World} {g : Graph} {s : Str → Setup} {e : WEvent}
    (hrec : ∀ j ∈ g.ids, Regular (s j) ∧ Recorded w₁.files (s j) (w₁.comps j))
    (h : NInv w₁ g s w) (he : Again w₁ g s e) : NInv w₁ g s (w.step e) := by
  have hB := bInv_step h.base e
  have hkind : ∀ a t, outputs ((w.step e).comps a) t = outputs (w₁.comps a) t := fun a t =>
    (outputs_event w e a t).trans (h.kind a t)
  cases e with
  | edit p t => exact he.elim
  | delete p => exact he.elim
  | dropState id => exact he.elim
  | launch g' s' =>
    cases ha : w.active with
    | true =>
      have : w.step (.launch g' s') = w := by simp [World.step, ha]
      rw [this]; exact h
    | false =>
      cases hl : (w.step (.launch g' s')).active with
      | false =>
        have : w.step (.launch g' s') = w := by
          revert hl; simp only [World.step]; split
          · simp
          · exact fun _ => rfl
        rw [this]; exact h
      | true =>
        obtain ⟨hp, hsub, hsame⟩ := he
        have hp' : Plan w g' s' := ⟨hp.valid, hp.acyclic, hp.declared.congr h.kind⟩
        obtain ⟨k1, k2, k3, k4, k5, k6, k7, k8⟩ := pInv_launch h.base hp' ha hl
        refine ⟨hB, k4.trans h.files, k5.trans h.used, by rw [k1.result]; simp, hkind,
          fun hna => by rw [hl] at hna; simp at hna, fun _ => ⟨w.comps, k1, k7, ?_, ?_, h.idle ha, ?_⟩⟩
        · rw [k2]; exact hsub
        · rw [k2, k3]; exact hsame
        · rw [k2]
          intro j hj hn
          rw [k8, if_neg hn]
          exact h.idle ha j hj
  | «begin» id =>
    cases ha : w.active with
    | false =>
      have : w.step (.begin id) = w := by simp [World.step, ha]
      rw [this]; exact h
    | true =>
      obtain ⟨κ, k1, k2, k3, k4, k5, k6⟩ := h.run ha
      obtain ⟨p1, p2, p3⟩ := pInv_step (e := .begin id) k1 rfl
      have hfr : (w.step (.begin id)).files = w.files ∧ (w.step (.begin id)).used = w.used ∧
          (w.step (.begin id)).ok = w.ok ∧ (w.step (.begin id)).comps = w.comps := by
        simp only [World.step]; split <;> exact ⟨rfl, rfl, rfl, rfl⟩
      refine ⟨hB, hfr.1.trans h.files, hfr.2.1.trans h.used, by rw [p1.result]; simp, hkind,
        fun hna => by rw [p1.active] at hna; simp at hna,
        fun _ => ⟨κ, p1, hfr.2.2.1.trans k2, by rw [p2]; exact k3, by rw [p2, p3]; exact k4, k5, ?_⟩⟩
      rw [p2, hfr.2.2.2]; exact k6
  | task id e ws =>
    by_cases hg : (w.active && decide (id ∈ w.begun) && (w.comps id).running && e.isTask
        && legal (w.comps id) e w.used ws) = true
    · have hg' := hg
      simp only [Bool.and_eq_true, decide_eq_true_eq] at hg'
      obtain ⟨⟨⟨⟨ha, hb⟩, hr⟩, het⟩, hl⟩ := hg'
      obtain ⟨κ, k1, k2, k3, k4, k5, k6⟩ := h.run ha
      have hid := k1.base.sub id hb
      obtain ⟨r1, r2⟩ := hrec id (k3 id hid)
      -- the step executes nothing and does not fail
      have hq := (k1.quiet id hid).begin.task (.inl het)
      have hf : ((w.comps id).step e).files = w₁.files :=
        (step_files _ e (task_leaves het)).1.trans ((h.base.views id).1.trans h.files)
      obtain ⟨n1, n2, n3, -⟩ := NInv.null hq hf (k5 id (k3 id hid)) (k4 id hid) r1 r2
      have hws : ws = [] := by
        cases hws : ws with
        | nil => rfl
        | cons x l =>
          exact absurd (mayWrite_executed ((legal_spec hl).2 x (by rw [hws]; simp)).1) n3
      have hok : ((w.comps id).step e).ok = true := by
        cases hok : ((w.comps id).step e).ok with
        | true => rfl
        | false => exact absurd (OwnFailure.of_ok het (k1.good k2 id hid) hok) n2
      obtain ⟨p1, p2, p3⟩ := pInv_step (e := .task id e ws) k1 rfl
      have hfr : w.step (.task id e ws) = w.stepped id e ws := by
        simp only [World.step]
        rw [if_pos hg, task_eq, hws]
        rfl
      rw [hfr] at hB hkind p1 ⊢
      refine ⟨hB, h.files, h.used, h.result, hkind, fun hna => by rw [p1.active] at hna; simp at hna,
        fun _ => ⟨κ, p1, ?_, k3, k4, k5, ?_⟩⟩
      · simp [World.stepped, k2, hok]
      · intro j hj hn
        have hne : j ≠ id := fun e => hn (e ▸ hid)
        have : (w.stepped id e ws).comps j = w.comps j := by
          simp [World.stepped, hne, hok]
        rw [this]
        exact k6 j hj hn
    · have : w.step (.task id e ws) = w := by simp only [World.step]; rw [if_neg hg]
      rw [this]; exact h
  | look id e =>
    cases ha : w.active with
    | false =>
      have : w.step (.look id e) = w := by simp [World.step, ha]
      rw [this]; exact h
    | true =>
      obtain ⟨κ, k1, k2, k3, k4, k5, k6⟩ := h.run ha
      obtain ⟨p1, p2, p3⟩ := pInv_step (e := .look id e) k1 rfl
      have hfr : (w.step (.look id e)).files = w.files ∧ (w.step (.look id e)).used = w.used ∧
          (w.step (.look id e)).ok = w.ok ∧
          ∀ j, j ∉ w.graph.ids → (w.step (.look id e)).comps j = w.comps j := by
        simp only [World.step]
        split
        · rename_i hg
          simp only [Bool.and_eq_true, decide_eq_true_eq] at hg
          refine ⟨rfl, rfl, rfl, fun j hj => ?_⟩
          have hne : j ≠ id := by
            rintro rfl; exact hj (k1.base.sub _ hg.1.1.2)
          simp only [upd, if_neg hne]
        · exact ⟨rfl, rfl, rfl, fun _ _ => rfl⟩
      refine ⟨hB, hfr.1.trans h.files, hfr.2.1.trans h.used, by rw [p1.result]; simp, hkind,
        fun hna => by rw [p1.active] at hna; simp at hna,
        fun _ => ⟨κ, p1, hfr.2.2.1.trans k2, by rw [p2]; exact k3, by rw [p2, p3]; exact k4, k5, ?_⟩⟩
      rw [p2]
      intro j hj hn
      rw [hfr.2.2.2 j hn]
      exact k6 j hj hn
  | join =>
    revert hB hkind
    simp only [World.step]
    split
    · rename_i hg
      simp only [Bool.and_eq_true] at hg
      obtain ⟨κ, k1, k2, k3, k4, k5, k6⟩ := h.run hg.1
      intro hB hkind
      refine ⟨hB, h.files, h.used, by simp [k2], hkind, fun _ j hj => ?_, by simp⟩
      simp only
      split
      · rename_i hjm
        obtain ⟨r1, r2⟩ := hrec j hj
        exact (NInv.null (k1.quiet j hjm) ((h.base.views j).1.trans h.files) (k5 j hj)
          (k4 j hjm) r1 r2).2.2.2 _ _
      · rename_i hjm; exact k6 j hj hjm
    · exact fun _ _ => h
  | kill order written =>
    revert hB hkind
    simp only [World.step]
    split
    · rename_i hg
      obtain ⟨κ, k1, k2, k3, k4, k5, k6⟩ := h.run hg
      intro hB hkind
      refine ⟨hB, h.files, h.used, h.result, hkind, fun _ j hj => ?_, by simp⟩
      simp only
      split
      · rename_i hjm
        obtain ⟨r1, r2⟩ := hrec j hj
        exact (NInv.null (k1.quiet j hjm) ((h.base.views j).1.trans h.files) (k5 j hj)
          (k4 j hjm) r1 r2).2.2.2 _ _
      · rename_i hjm; exact k6 j hj hjm
    · exact fun _ _ => h

theorem nInv_steps {w₁ : World} {g : Graph} {s : Str → Setup}
    (hrec : ∀ j ∈ g.ids, Regular (s j) ∧ Recorded w₁.files (s j) (w₁.comps j)) :
    ∀ (evs : List WEvent) (w : World), NInv w₁ g s w → (∀ e ∈ evs, Again w₁ g s e) →
      NInv w₁ g s (w.steps evs) := by
  intro evs
  induction evs with
  | nil => intro w h _; exact h
  | cons e l ih =>
    intro w h he
    exact ih (w.step e) (nInv_step hrec h (he e (by simp))) fun x hx => he x (by simp [hx])

/-- C93: after a build that succeeded, building again, any number of times, the whole script or
parts of it, whether or not processes are killed, runs no command and no callback, changes no
file, no state file and no artifact, and never fails. -/
theorem C93_null_rebuild {w₀ w₁ w₂ : World} {g : Graph} {s : Str → Setup}
    {mid later : List WEvent} (hw₀ : w₀ = (World.init kinds).steps hist)
    (h₁ : RunsScript w₀ g s mid w₁) (hok : (w₁.step .join).result = some true)
    (hr : ∀ j ∈ g.ids, Regular (s j)) (hl : ∀ e ∈ later, Again w₁ g s e)
    (hw₂ : w₂ = (w₁.step .join).steps later) :
    w₂.files = w₁.files ∧ w₂.used = w₁.used ∧ w₂.result ≠ some false ∧
      (∀ j ∈ g.ids, SameStored (w₂.comps j) (w₁.comps j)) ∧
      (w₂.active = true → w₂.ok = true ∧
        ∀ j ∈ w₂.graph.ids, ¬ Executed (w₂.comps j) ∧ ¬ Working (w₂.comps j)) := by
  have hB₀ : BInv w₀ := by rw [hw₀]; exact bInv_steps hist _ (bInv_init kinds)
  obtain ⟨hP₁, hg₁, hs₁⟩ := h₁.pInv hB₀
  obtain ⟨k1, k0, k2, k3, k4⟩ := joined hP₁ hok
  have hrec : ∀ j ∈ g.ids, Regular (s j) ∧ Recorded w₁.files (s j) (w₁.comps j) := by
    intro j hj
    have := (k4 j (by rw [hg₁]; exact hj)).2
    rw [hs₁] at this
    exact ⟨hr j hj, this (hr j hj)⟩
  have hN : NInv w₁ g s (w₁.step .join) :=
    ⟨bInv_step hP₁.base _, k1, k0, by rw [hok]; simp, fun a t => by rw [k3],
      fun _ j _ => by rw [k3]; exact .rfl' _, by rw [k2]; simp⟩
  have hN₂ := nInv_steps hrec later _ hN hl
  rw [← hw₂] at hN₂
  refine ⟨hN₂.files, hN₂.used, hN₂.result, fun j hj => ?_, fun ha => ?_⟩
  · cases ha : w₂.active with
    | false => exact hN₂.idle ha j hj
    | true =>
      obtain ⟨κ, p1, p2, p3, p4, p5, p6⟩ := hN₂.run ha
      by_cases hjm : j ∈ w₂.graph.ids
      · obtain ⟨r1, r2⟩ := hrec j hj
        exact (NInv.null (p1.quiet j hjm) ((hN₂.base.views j).1.trans hN₂.files) (p5 j hj)
          (p4 j hjm) r1 r2).1
      · exact p6 j hj hjm
  · obtain ⟨κ, p1, p2, p3, p4, p5, p6⟩ := hN₂.run ha
    refine ⟨p2, fun j hjm => ?_⟩
    obtain ⟨r1, r2⟩ := hrec j (p3 j hjm)
    have hf := (hN₂.base.views j).1.trans hN₂.files
    refine ⟨(NInv.null (p1.quiet j hjm) hf (p5 j (p3 j hjm)) (p4 j hjm) r1 r2).2.2.1, ?_⟩
    intro hwk
    obtain ⟨e, het, hx⟩ := hwk.executes
    exact (NInv.null ((p1.quiet j hjm).begin.task (.inl het))
      ((step_files _ e (task_leaves het)).1.trans hf) (p5 j (p3 j hjm)) (p4 j hjm) r1 r2).2.2.1 hx

end Verif.Reg
