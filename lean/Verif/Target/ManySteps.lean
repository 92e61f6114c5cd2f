import Verif.Target.ManyInv

/-! # Several processes: preservation of the invariant -/

namespace Verif.Target
open Verif Verif.Command Verif.Schema Verif.Json

theorem step_local (fx : Fixed) (σ : Sys) (e : Event) (h : e.starts = false)
    (ho : e.outside = false) : (step fx σ e).files = σ.files ∧ (step fx σ e).used = σ.used ∧
      (step fx σ e).fresh = σ.fresh := by
  cases e <;> simp only [Event.outside, Event.starts, Bool.true_eq_false] at h ho
  all_goals
    simp only [step, inPhase, lookAt, pchTask, pchExec, objTask, execObj, addObj, linkTask, linkExec,
      finishRun, crashRun, Sys.fail]
    repeat' split
    all_goals exact ⟨rfl, rfl, rfl⟩

theorem step_done (fx : Fixed) (σ : Sys) (e : Event) (hd : σ.done = none) {d : Done}
    (h : (step fx σ e).done = some d) : ∃ r, σ.run = some r ∧ d.cfg = r.cfg := by
  by_cases hi : e.inner = true
  · rw [(step_frame fx σ e hi).2.2.2.1, hd] at h; simp at h
  · revert h
    cases e <;> simp only [Event.inner, not_true_eq_false] at hi
    case dropState => simp only [step]; split <;> simp [hd]
    case start c o => simp only [step, startRun]; split <;> (try split) <;> simp [hd]
    case finish o =>
      simp only [step, inPhase]
      split
      · rename_i r hr
        split
        · simp only [finishRun]
          repeat' split
          all_goals
            intro h
            simp only [Option.some.injEq] at h
            exact ⟨r, hr, by rw [← h]⟩
        · simp [hd]
      · simp [hd]
    case crash w =>
      simp only [step]
      split
      · simp only [crashRun]
        repeat' split
        all_goals simp [hd]
      · simp [hd]

/-- An idle process does nothing. -/
theorem step_idle (fx : Fixed) (σ : Sys) (e : Event) (hr : σ.run = none) (h : e.starts = false)
    (ho : e.outside = false) (hl : ∀ p v, e ≠ .look p v) : step fx σ e = σ := by
  cases e <;> simp only [Event.outside, Event.starts, Bool.true_eq_false] at h ho
  case look p v => exact absurd rfl (hl p v)
  all_goals simp [step, inPhase, hr]

theorem Many.take_sys (m : Many) (k : Nat) : m.take k (m.sys k) = m := by
  have : (fun j => if j = k then m.procs k else m.procs j) = m.procs := by
    funext j
    split
    · rename_i e; rw [e]
    · rfl
  show Many.mk m.files m.used m.objs m.pch m.bin m.stateFile
    (fun j => if j = k then m.procs k else m.procs j) = m
  rw [this]

/-- The invariant. -/
structure MInv (fx : Fixed) (c : TargetSchema) (m : Many) : Prop where
  view : ∀ k p, (m.procs k).view p ∈ (m.procs k).seen p
  rest : ∃ l sv lo, l.run = none ∧ l.done = none ∧ KInv fx (One c) (m.at l m.stateFile sv lo)
  run : ∀ k, (m.procs k).run.isSome = true → (m.procs k).fresh = true ∧ (m.procs k).done = none ∧
    ∃ sf sv lo, KInv fx (One c) (m.at (m.procs k) sf sv lo)
  done : ∀ k d, (m.procs k).done = some d → d.ok = true → (m.procs k).fresh = true →
    CleanFiles fx m c

theorem MInv.init (fx : Fixed) (c : TargetSchema) : MInv fx c Many.init :=
  ⟨fun _ _ => by simp [Many.init, Proc.init],
    ⟨Proc.init, TargetSchema.empty, [], rfl, rfl, KInv.init fx (One c)⟩,
    fun _ h => absurd h (by simp [Many.init, Proc.init]),
    fun _ _ h => absurd h (by simp [Many.init, Proc.init])⟩

/-- No process builds, and files are changed. -/
theorem MInv.outside {fx : Fixed} {c : TargetSchema} {m m' : Many} {e : Event}
    (hlc : CompileLocal fx) (hlp : PchLocal fx) (hf : Family fx (One c)) (h : MInv fx c m)
    (hr : ∀ k, (m.procs k).run = none) (he : (∃ p t, e = .edit p t ∧ t ∉ m.used p) ∨ ∃ p, e = .delete p)
    (hrun : ∀ k, (m'.procs k).run = none) (hfr : ∀ k, (m'.procs k).fresh = false)
    (hv : ∀ k p, (m'.procs k).view p ∈ (m'.procs k).seen p)
    (hm : ∀ l sv lo, l.run = none → l.done = none →
      ∃ l', l'.run = none ∧ l'.done = none ∧
      step fx (m.at l m.stateFile sv lo) e = m'.at l' m'.stateFile sv lo) : MInv fx c m' := by
  refine ⟨hv, ?_, ?_, ?_⟩
  · obtain ⟨l, sv, lo, h1, h2, h3⟩ := h.rest
    obtain ⟨l', h1', h2', h3'⟩ := hm l sv lo h1 h2
    refine ⟨l', sv, lo, h1', h2', ?_⟩
    rw [← h3']
    have hone : ∀ a b, One c a → One c b → a = b := fun a b h1 h2 => h1.trans h2.symm
    refine (h3.step hlc hlp hf ?_ ?_ ?_ ?_ (.inl hone)).2
    · intro c' o e'; rcases he with ⟨p, t, e2, _⟩ | ⟨p, e2⟩ <;> rw [e2] at e' <;> simp at e'
    · rcases he with ⟨p, t, e2, _⟩ | ⟨p, e2⟩ <;> rw [e2] <;> rfl
    · intro p t e'
      rcases he with ⟨p', t', e2, h4⟩ | ⟨p', e2⟩
      · rw [e2] at e'
        simp only [Event.edit.injEq] at e'
        rw [← e'.1, ← e'.2]; exact h4
      · rw [e2] at e'; simp at e'
    · intro p t _; exact .inl h1
  · intro k hk; rw [hrun k] at hk; simp at hk
  · intro k d _ _ hk; rw [hfr k] at hk; simp at hk

/-- The other processes after a step of process `k`. -/
theorem MInv.others {fx : Fixed} {c : TargetSchema} {m : Many} (hf : Family fx (One c))
    (h : MInv fx c m) {k : Nat} {X : Sys} {sf : Option Str} {sv : TargetSchema} {lo : List TargetSchema}
    (hfi : X.files = m.files) (hu : X.used = m.used)
    (hw : CleanW fx c (m.at (m.procs k) sf sv lo) X) :
    (∀ l sf sv lo, l.done = none → KInv fx (One c) (m.at l sf sv lo) →
      KInv fx (One c) ((m.take k X).at l sf sv lo)) ∧
    (CleanFiles fx m c → CleanFiles fx (m.take k X) c) := by
  have hw2 : ∀ l sf sv lo, CleanW fx c (m.at l sf sv lo) X := fun l sf sv lo =>
    ⟨hw.pch, hw.obj, hw.bin⟩
  constructor
  · intro l sf sv lo hd hk
    have := hk.cleanW hf hd (hw2 l sf sv lo)
    have e : (m.at l sf sv lo).built X = (m.take k X).at l sf sv lo := by
      simp only [Sys.built, Many.at, Many.take, hfi, hu]
    rwa [e] at this
  · intro hc
    have h0 : Clean fx (m.sys k) c := ⟨hc.pch, hc.obj, hc.bin⟩
    have := h0.cleanW (hf.inj c c rfl rfl) (hw2 _ _ _ _)
    have e : (m.take k X).files = m.files := hfi
    exact ⟨by rw [e]; exact this.pch, by rw [e]; exact this.obj, by rw [e]; exact this.bin⟩

/-- A step of a process that builds. -/
theorem MInv.running {fx : Fixed} {c : TargetSchema} {m : Many} {k : Nat} {e : Event}
    (hlc : CompileLocal fx) (hlp : PchLocal fx) (hf : Family fx (One c)) (h : MInv fx c m)
    (hr : (m.procs k).run.isSome = true) (hs : e.starts = false) (ho : e.outside = false)
    (ht : e.tidy = true) : MInv fx c (m.take k (step fx (m.sys k) e)) := by
  obtain ⟨hfr, hdn, sf, sv, lo, hα⟩ := h.run k hr
  have hone : ∀ a b, One c a → One c b → a = b := fun a b h1 h2 => h1.trans h2.symm
  have hX : KInv fx (One c) (step fx (m.at (m.procs k) sf sv lo) e) := by
    refine (hα.step hlc hlp hf ?_ ?_ ?_ ?_ (.inl hone)).2
    · intro c' o e'; rw [e'] at hs; simp [Event.starts] at hs
    · cases e <;> simp only [Event.outside, Bool.true_eq_false] at ho <;> rfl
    · intro p t e'; rw [e'] at ho; simp [Event.outside] at ho
    · intro p t e'; rw [e'] at ho; simp [Event.outside] at ho
  obtain ⟨l1, l2, l3⟩ := step_local fx (m.at (m.procs k) sf sv lo) e hs ho
  have hw := step_cleanW hα hX.inv hfr ho ht
  obtain ⟨a', b', l', hst, hsf⟩ := step_withState fx (m.at (m.procs k) sf sv lo) e hs ho
    m.stateFile TargetSchema.empty []
  rw [show m.sys k = (m.at (m.procs k) sf sv lo).withState m.stateFile TargetSchema.empty [] from rfl,
    hst]
  have hdone : ∀ d, (step fx (m.at (m.procs k) sf sv lo) e).done = some d → d.cfg = c := by
    intro d hd
    obtain ⟨r, h1, h2⟩ := step_done fx (m.at (m.procs k) sf sv lo) e hdn hd
    exact h2.trans (hα.run r h1)
  clear hst
  generalize step fx (m.at (m.procs k) sf sv lo) e = X at *
  have hw' : CleanW fx c (m.at (m.procs k) sf sv lo) (X.withState a' b' l') := ⟨hw.pch, hw.obj, hw.bin⟩
  obtain ⟨o1, o2⟩ := h.others hf (k := k) (X := X.withState a' b' l') l1 l2 hw'
  have hat : ∀ sf sv lo, (m.take k (X.withState a' b' l')).at X.proc sf sv lo = X.withState sf sv lo :=
    fun _ _ _ => rfl
  have hself : (m.take k (X.withState a' b' l')).procs k = X.proc := by
    show (if k = k then X.proc else m.procs k) = X.proc
    rw [if_pos rfl]
  have hoth : ∀ j, j ≠ k → (m.take k (X.withState a' b' l')).procs j = m.procs j := by
    intro j hj
    show (if j = k then X.proc else m.procs j) = m.procs j
    rw [if_neg hj]
  refine ⟨?_, ?_, ?_, ?_⟩
  · intro j p
    by_cases hj : j = k
    · rw [hj, hself]; exact hX.inv.view p
    · rw [hoth j hj]; exact h.view j p
  · obtain ⟨l, sv', lo', h1, h2, h3⟩ := h.rest
    rcases hsf with e1 | ⟨e1, e2⟩
    · refine ⟨l, sv', lo', h1, h2, ?_⟩
      rw [show (m.take k (X.withState a' b' l')).stateFile = m.stateFile from e1]
      exact o1 l _ _ _ h2 h3
    · have h4 := hX.idle e2 (seen := X.seen) (view := X.view) hX.inv.view true [] true
      refine ⟨⟨X.seen, X.view, X.run, true, [], none, true⟩, X.saved, X.lost, e2, rfl, ?_⟩
      rw [show (m.take k (X.withState a' b' l')).stateFile = X.stateFile from e1]
      exact h4
  · intro j hj
    by_cases hjk : j = k
    · rw [hjk, hself] at hj ⊢
      exact ⟨l3.trans hfr, hX.inv.doneRun hj, X.stateFile, X.saved, X.lost, hX⟩
    · rw [hoth j hjk] at hj ⊢
      obtain ⟨h1, h2, sf', sv', lo', h3⟩ := h.run j hj
      exact ⟨h1, h2, sf', sv', lo', o1 _ _ _ _ h2 h3⟩
  · intro j d hd hok hfr'
    by_cases hjk : j = k
    · rw [hjk, hself] at hd hfr'
      have := (hX.inv.done d hd hok hfr').1
      rw [hdone d hd] at this
      exact ⟨this.pch, this.obj, this.bin⟩
    · rw [hoth j hjk] at hd hfr'
      exact o2 (h.done j d hd hok hfr')

/-- The `Target` object of a build that has just started. -/
def startedRun (sf : Option Str) (c : TargetSchema) (order : List Str) : Run where
  cfg := c
  order := order
  user := c
  load := (loadTargetFile sf).getD TargetSchema.empty
  loaded := (loadTargetFile sf).isSome
  store := TargetSchema.empty
  dirty := false
  phase := if c.pchs ≠ [] then .pch else .obj
  pending := []
  executed := []

theorem start_eq (fx : Fixed) {σ : Sys} (c : TargetSchema) (order : List Str) (h : σ.run = none) :
    step fx σ (.start c order) =
      if order.isPerm (distinct (srcPaths c)) && buildable fx c order then
        { σ with ok := true, log := [], done := none, fresh := true
                 run := some (startedRun σ.stateFile c order) }
      else σ := by
  show startRun fx σ c order = _
  rw [startRun, h]
  rfl

theorem Many.take_back (m : Many) (k : Nat) (sf : Option Str) :
    ({ m.take k { m.sys k with stateFile := sf } with stateFile := m.stateFile } : Many) = m :=
  m.take_sys k

/-- A process starts, and reads the state file `sf`. -/
theorem MInv.start {fx : Fixed} {c : TargetSchema} {m : Many} {k : Nat} {order : List Str}
    (hlc : CompileLocal fx) (hlp : PchLocal fx) (hf : Family fx (One c)) (h : MInv fx c m)
    {sf : Option Str} {l : Proc} {sv : TargetSchema} {lo : List TargetSchema}
    (hl : l.run = none) (hk : KInv fx (One c) (m.at l sf sv lo)) :
    MInv fx c { m.take k (step fx { m.sys k with stateFile := sf } (.start c order)) with
      stateFile := m.stateFile } := by
  have hone : ∀ a b, One c a → One c b → a = b := fun a b h1 h2 => h1.trans h2.symm
  cases hr : (m.procs k).run with
  | some r =>
    have e : step fx { m.sys k with stateFile := sf } (.start c order) =
        { m.sys k with stateFile := sf } := by
      show startRun fx _ c order = _
      rw [startRun, show ({ m.sys k with stateFile := sf } : Sys).run = some r from hr]
    rw [e, m.take_back]
    exact h
  | none =>
    have h4 := hk.idle hl (h.view k) (m.procs k).ok (m.procs k).log (m.procs k).fresh
    have h5 := (h4.step (e := .start c order) hlc hlp hf
      (fun c' o e => by simp only [Event.start.injEq] at e; exact e.1.symm) rfl
      (fun _ _ e => by simp at e) (fun _ _ e => by simp at e) (.inl hone)).2
    rw [start_eq fx c order (by exact hl)] at h5
    rw [start_eq fx c order (by exact hr)]
    by_cases hb : (order.isPerm (distinct (srcPaths c)) && buildable fx c order) = true
    · rw [if_pos hb] at h5 ⊢
      have hmm : ∃ P : Proc, P.view = (m.procs k).view ∧ P.seen = (m.procs k).seen ∧ P.fresh = true ∧
          P.done = none ∧ KInv fx (One c) (m.at P sf sv lo) ∧
          ({ m.take k
              { ({ m.sys k with stateFile := sf } : Sys) with
                ok := true, log := [], done := none, fresh := true
                run := some (startedRun sf c order) } with
            stateFile := m.stateFile } : Many) =
          { m with procs := fun j => if j = k then P else m.procs j } :=
        ⟨⟨(m.procs k).seen, (m.procs k).view, some (startedRun sf c order), true, [], none, true⟩,
          rfl, rfl, rfl, rfl, h5, rfl⟩
      obtain ⟨P, p1, p2, p3, p4, p5, e⟩ := hmm
      refine e.symm ▸ ⟨?_, h.rest, ?_, ?_⟩
      · intro j p
        show (if j = k then P else m.procs j).view p ∈ (if j = k then P else m.procs j).seen p
        split
        · rw [p1, p2]; exact h.view k p
        · exact h.view j p
      · intro j
        show (if j = k then P else m.procs j).run.isSome = true →
          (if j = k then P else m.procs j).fresh = true ∧ (if j = k then P else m.procs j).done = none ∧
          ∃ sf sv lo, KInv fx (One c) (m.at (if j = k then P else m.procs j) sf sv lo)
        split
        · exact fun _ => ⟨p3, p4, sf, sv, lo, p5⟩
        · exact h.run j
      · intro j d
        show (if j = k then P else m.procs j).done = some d → d.ok = true →
          (if j = k then P else m.procs j).fresh = true → _
        intro hd hok hfr
        have : CleanFiles fx m c := by
          split at hd
          · rw [p4] at hd; simp at hd
          · rename_i hj
            rw [if_neg hj] at hfr
            exact h.done j d hd hok hfr
        exact ⟨this.pch, this.obj, this.bin⟩
    · rw [if_neg hb, m.take_back]
      exact h

theorem MInv.act {fx : Fixed} {c : TargetSchema} {m : Many} {k : Nat} {e : Event}
    (hlc : CompileLocal fx) (hlp : PchLocal fx) (hf : Family fx (One c)) (h : MInv fx c m)
    (ho : e.outside = false) (ht : e.tidy = true) (hc : ∀ c' o, e = .start c' o → c' = c) :
    MInv fx c (m.take k (step fx (m.sys k) e)) := by
  by_cases hs : e.starts = true
  · cases e <;> simp only [Event.starts, Bool.false_eq_true] at hs
    rename_i c' o
    rw [hc c' o rfl]
    obtain ⟨l, sv, lo, h1, _, h3⟩ := h.rest
    have e : m.take k (step fx (m.sys k) (.start c o)) =
        { m.take k (step fx { m.sys k with stateFile := m.stateFile } (.start c o)) with
          stateFile := m.stateFile } := by
      have e1 : (step fx (m.sys k) (.start c o)).stateFile = m.stateFile := by
        simp only [step, startRun]
        repeat' split
        all_goals rfl
      show Many.mk _ _ _ _ _ (step fx (m.sys k) (.start c o)).stateFile _ = _
      rw [e1]; rfl
    rw [e]
    exact h.start hlc hlp hf h1 h3
  · have hs' : e.starts = false := by simpa using hs
    by_cases hr : (m.procs k).run.isSome = true
    · exact h.running hlc hlp hf hr hs' ho ht
    · have hr' : (m.sys k).run = none := by
        show (m.procs k).run = none
        simpa using hr
      by_cases hl : ∃ p v, e = .look p v
      · obtain ⟨p, v, rfl⟩ := hl
        simp only [step, lookAt]
        split
        · rename_i hv
          have hmm : ∃ P : Proc, (∀ p, P.view p ∈ P.seen p) ∧ P.run = (m.procs k).run ∧
              P.fresh = (m.procs k).fresh ∧ P.done = (m.procs k).done ∧
              m.take k { m.sys k with view := upd (m.sys k).view p v } =
                { m with procs := fun j => if j = k then P else m.procs j } := by
            refine ⟨⟨(m.procs k).seen, upd (m.procs k).view p v, (m.procs k).run, (m.procs k).ok,
              (m.procs k).log, (m.procs k).done, (m.procs k).fresh⟩, ?_, rfl, rfl, rfl, rfl⟩
            intro q
            show upd (m.procs k).view p v q ∈ (m.procs k).seen q
            simp only [upd]
            split
            · rename_i e; rw [e]; exact hv
            · exact h.view k q
          obtain ⟨P, p1, p2, p3, p4, e⟩ := hmm
          refine e.symm ▸ ⟨?_, h.rest, ?_, ?_⟩
          · intro j q
            show (if j = k then P else m.procs j).view q ∈ (if j = k then P else m.procs j).seen q
            split
            · exact p1 q
            · exact h.view j q
          · intro j
            show (if j = k then P else m.procs j).run.isSome = true →
              (if j = k then P else m.procs j).fresh = true ∧
              (if j = k then P else m.procs j).done = none ∧
              ∃ sf sv lo, KInv fx (One c) (m.at (if j = k then P else m.procs j) sf sv lo)
            split
            · intro h2; rw [p2] at h2; exact absurd h2 hr
            · exact h.run j
          · intro j d
            show (if j = k then P else m.procs j).done = some d → d.ok = true →
              (if j = k then P else m.procs j).fresh = true → _
            intro hd hok hfr
            have : CleanFiles fx m c := by
              split at hd
              · rename_i hj
                rw [if_pos hj, p3] at hfr
                rw [p4] at hd
                exact h.done k d hd hok hfr
              · rename_i hj
                rw [if_neg hj] at hfr
                exact h.done j d hd hok hfr
            exact ⟨this.pch, this.obj, this.bin⟩
        · rw [m.take_sys]; exact h
      · rw [step_idle fx (m.sys k) e hr' hs' ho (fun p v e' => hl ⟨p, v, e'⟩), m.take_sys]
        exact h

theorem MInv.torn {fx : Fixed} {c : TargetSchema} {m : Many} (hlc : CompileLocal fx)
    (hlp : PchLocal fx) (hf : Family fx (One c)) (h : MInv fx c m) (j n : Nat) :
    ∃ l sv lo, l.run = none ∧
      KInv fx (One c) (m.at l (step fx (m.sys j) (.crash (some n))).stateFile sv lo) := by
  have hone : ∀ a b, One c a → One c b → a = b := fun a b h1 h2 => h1.trans h2.symm
  by_cases hr : (m.procs j).run.isSome = true
  · obtain ⟨hfr, hdn, sf, sv, lo, hα⟩ := h.run j hr
    have hX : KInv fx (One c) (step fx (m.at (m.procs j) sf sv lo) (.crash (some n))) :=
      (hα.step hlc hlp hf (by simp) rfl (by simp) (by simp) (.inl hone)).2
    have hw : CleanW fx c (m.at (m.procs j) sf sv lo) (step fx (m.at (m.procs j) sf sv lo) (.crash (some n))) :=
      step_cleanW hα hX.inv hfr rfl rfl
    obtain ⟨a', b', l', hst, hsf⟩ := step_withState fx (m.at (m.procs j) sf sv lo) (.crash (some n)) rfl rfl
      m.stateFile TargetSchema.empty []
    rw [show m.sys j = (m.at (m.procs j) sf sv lo).withState m.stateFile TargetSchema.empty [] from rfl,
      hst]
    show ∃ l sv lo, l.run = none ∧ KInv fx (One c) (m.at l a' sv lo)
    rcases hsf with e | ⟨e1, e2⟩
    · obtain ⟨l, sv, lo, h1, _, h3⟩ := h.rest
      exact ⟨l, sv, lo, h1, e ▸ h3⟩
    · have hff : (step fx (m.at (m.procs j) sf sv lo) (.crash (some n))).files = m.files ∧
          (step fx (m.at (m.procs j) sf sv lo) (.crash (some n))).used = m.used ∧
          (step fx (m.at (m.procs j) sf sv lo) (.crash (some n))).objs = m.objs ∧
          (step fx (m.at (m.procs j) sf sv lo) (.crash (some n))).pch = m.pch ∧
          (step fx (m.at (m.procs j) sf sv lo) (.crash (some n))).bin = m.bin := by
        simp only [step, crashRun]
        repeat' split
        all_goals exact ⟨rfl, rfl, rfl, rfl, rfl⟩
      clear hst hw
      generalize step fx (m.at (m.procs j) sf sv lo) (.crash (some n)) = X at *
      refine ⟨X.proc, X.saved, X.lost, e2, ?_⟩
      have e3 : m.at X.proc a' X.saved X.lost = X := by
        simp only [Many.at, Sys.proc, e1, ← hff.1, ← hff.2.1, ← hff.2.2.1, ← hff.2.2.2.1, ← hff.2.2.2.2]
      rw [e3]; exact hX
  · have hr' : (m.sys j).run = none := by
      show (m.procs j).run = none
      simpa using hr
    rw [step_idle fx (m.sys j) (.crash (some n)) hr' rfl rfl (by simp)]
    obtain ⟨l, sv, lo, h1, _, h3⟩ := h.rest
    exact ⟨l, sv, lo, h1, h3⟩

theorem upd_mem {α : Type} {view : Str → α} {seen : Str → List α} (h : ∀ p, view p ∈ seen p) (p : Str)
    (v : α) (q : Str) : upd view p v q ∈ upd seen p (v :: seen p) q := by
  simp only [upd]
  split
  · simp
  · exact h q

theorem MInv.steps {fx : Fixed} {c : TargetSchema} (hlc : CompileLocal fx) (hlp : PchLocal fx)
    (hf : Family fx (One c)) (evs : List MEvent) : ∀ {m : Many}, MInv fx c m → Together fx c m evs →
      MInv fx c (msteps fx m evs) := by
  induction evs with
  | nil => intro m h _; exact h
  | cons e evs ih =>
    intro m h hg
    refine ih ?_ hg.2
    have ha := hg.1
    cases e with
    | edit p t =>
      simp only at ha
      refine h.outside hlc hlp hf ha.2 (.inl ⟨p, t, rfl, ha.1⟩) ha.2 (fun _ => rfl)
        (fun k q => upd_mem (h.view k) p (some t) q) ?_
      intro l sv lo h1 h2
      exact ⟨⟨upd l.seen p (some t :: l.seen p), upd l.view p (some t), l.run, l.ok, l.log, l.done,
        false⟩, h1, h2, rfl⟩
    | delete p =>
      simp only at ha
      refine h.outside hlc hlp hf ha (.inr ⟨p, rfl⟩) ha (fun _ => rfl)
        (fun k q => upd_mem (h.view k) p none q) ?_
      intro l sv lo h1 h2
      exact ⟨⟨upd l.seen p (none :: l.seen p), upd l.view p none, l.run, l.ok, l.log, l.done,
        false⟩, h1, h2, rfl⟩
    | act k e =>
      simp only at ha
      simp only [mstep]
      split
      · exact h
      · rename_i ho
        exact h.act hlc hlp hf (by simpa using ho) ha.1 ha.2
    | startDuring k j n c' o =>
      simp only at ha
      rw [ha]
      obtain ⟨l, sv, lo, h1, h3⟩ := h.torn hlc hlp hf j n
      exact h.start hlc hlp hf h1 h3

end Verif.Target
