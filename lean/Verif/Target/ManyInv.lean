import Verif.Target.Many

/-! # Several processes: the invariant -/

namespace Verif.Target
open Verif Verif.Command Verif.Schema Verif.Json

/-! ## Writing what a build from scratch would write -/

theorem ePch_clean {fx : Fixed} {σ : Sys} {u c : TargetSchema} (hs : SameCfg u c)
    (h : ∀ i ∈ u.pchs ++ u.headers, Live σ i) : ePch fx u = cleanPch fx σ.files c := by
  simp only [ePch, cleanPch, hs.pchCommand fx,
    versions_of_live hs.pchs fun i hi => h i (List.mem_append_left _ hi),
    versions_of_live hs.headers fun i hi => h i (List.mem_append_right _ hi)]

theorem ePch?_clean {fx : Fixed} {σ : Sys} {u c : TargetSchema} (hs : SameCfg u c)
    (h : ∀ i ∈ u.pchs ++ u.headers, Live σ i) : ePch? fx u = cleanPch? fx σ.files c := by
  by_cases hc : c.pchs = []
  · simp [ePch?, cleanPch?, hc, hs.pchs_nil.2 hc]
  · have : ¬ u.pchs = [] := fun e => hc (hs.pchs_nil.1 e)
    simp [ePch?, cleanPch?, hc, this, ePch_clean hs h]

theorem eObj_clean {fx : Fixed} {σ : Sys} {u c : TargetSchema} (hs : SameCfg u c) {i : PathInfo}
    (hi : Live σ i) (h : ∀ i ∈ u.pchs ++ u.headers ++ u.compileDeps, Live σ i) :
    eObj fx u i = cleanObj fx σ.files c i.path := by
  have h1 : version σ.files i.path = some i.hash := live_hash hi
  simp only [eObj, cleanObj, hs.compileCommand fx, h1,
    versions_of_live hs.headers fun i hi =>
      h i (List.mem_append_left _ (List.mem_append_right _ hi)),
    versions_of_live hs.compileDeps fun i hi => h i (List.mem_append_right _ hi),
    ePch?_clean hs fun i hi => h i (List.mem_append_left _ hi)]

theorem eBin_clean {fx : Fixed} {σ : Sys} {u c : TargetSchema} (hs : SameCfg u c)
    (hn : (paths u.sources).Nodup) {order : List Str} (ho : order.Perm (paths u.sources))
    (h : ∀ i ∈ u.sources ++ (u.pchs ++ u.headers ++ u.compileDeps) ++ u.libs ++ u.linkDeps,
      Live σ i) : eBin fx u order = cleanBin fx σ.files c order := by
  have hd : ∀ i ∈ u.pchs ++ u.headers ++ u.compileDeps, Live σ i := fun i hi =>
    h i (List.mem_append_left _ (List.mem_append_left _ (List.mem_append_right _ hi)))
  have e : (order.map fun p => some (eObj fx u (infoOf u.sources p))) =
      order.map fun s => some (cleanObj fx σ.files c s) := by
    rw [List.map_inj_left]
    intro p hp
    have hm := infoOf_path hn (ho.mem_iff.1 hp)
    rw [eObj_clean hs (h _ (List.mem_append_left _ (List.mem_append_left _
      (List.mem_append_left _ hm)))) hd]
    rfl
  simp only [eBin, cleanBin, hs.linkCommand fx, e,
    versions_of_live hs.libs fun i hi =>
      h i (List.mem_append_left _ (List.mem_append_right _ hi)),
    versions_of_live hs.linkDeps fun i hi => h i (List.mem_append_right _ hi),
    ePch?_clean hs fun i hi => hd i (List.mem_append_left _ hi)]

/-- From `σ` to `σ'` built files were left as they are, or replaced by what a build from
scratch of `c` makes. -/
structure CleanW (fx : Fixed) (c : TargetSchema) (σ σ' : Sys) : Prop where
  pch : σ'.pch = σ.pch ∨ σ'.pch = some (cleanPch fx σ.files c)
  obj : ∀ p, σ'.objs p = σ.objs p ∨ ∃ s ∈ paths c.sources, p = objPath fx s ∧
    σ'.objs p = some (cleanObj fx σ.files c s)
  bin : σ'.bin = σ.bin ∨ ∃ order : List Str, order.Perm (paths c.sources) ∧
    σ'.bin = some (cleanBin fx σ.files c order)

theorem CleanW.of_eq {fx : Fixed} {c : TargetSchema} {σ σ' : Sys} (h1 : σ'.pch = σ.pch)
    (h2 : σ'.objs = σ.objs) (h3 : σ'.bin = σ.bin) : CleanW fx c σ σ' :=
  ⟨.inl h1, fun p => .inl (by rw [h2]), .inl h3⟩

/-- `σ` with the built files of `σ'`. -/
def Sys.built (σ σ' : Sys) : Sys := { σ with objs := σ'.objs, pch := σ'.pch, bin := σ'.bin }

theorem Stored.cleanW {fx : Fixed} {σ σ' : Sys} {A : List TargetSchema} {s g c : TargetSchema}
    (h : Stored fx σ A s g) (hs : SameCfg g c)
    (hinj : ∀ p ∈ paths c.sources, ∀ q ∈ paths c.sources, objPath fx p = objPath fx q → p = q)
    (hw : CleanW fx c σ σ') : Stored fx (σ.built σ') A s g where
  agree := h.agree
  pchOr := h.pchOr
  srcPch := h.srcPch
  srcRec := h.srcRec
  sub := h.sub
  nodup := h.nodup
  nodupS := h.nodupS
  pchRec := h.pchRec
  link := h.link
  tPch := by
    intro h1
    rcases hw.pch with e | e
    · rw [show (σ.built σ').pch = σ.pch from e]; exact h.tPch h1
    · by_cases hd : DeadPch σ g
      · exact .inr (.inl hd)
      · left
        rw [show (σ.built σ').pch = _ from e, ePch_clean (σ := σ) hs]
        exact fun i hi => live_of_not_dead (h.pchRec h1 i hi) fun e => hd ⟨i, hi, e⟩
  tObj := by
    intro i hi
    rcases hw.obj (objPath fx i.path) with e | ⟨q, hq, e1, e2⟩
    · rw [show (σ.built σ').objs _ = _ from e]; exact h.tObj i hi
    · by_cases hd : DeadObj σ g i
      · exact .inr (.inl hd)
      · left
        have hm : i.path ∈ paths c.sources := by
          rw [← hs.sources]; exact mem_paths.2 ⟨i, (h.sub i hi).1, rfl⟩
        rw [show (σ.built σ').objs _ = _ from e2, ← hinj _ hm _ hq e1]
        have hne : s.sources ≠ [] := fun e => by rw [e] at hi; simp at hi
        rw [eObj_clean (σ := σ) hs
          (live_of_not_dead (h.sub i hi).2 fun e => hd (.inl e)) fun j hj => ?_]
        refine live_of_not_dead ?_ fun e => hd (.inr ⟨j, hj, e⟩)
        rcases List.mem_append.1 hj with hj | hj
        · rcases List.mem_append.1 hj with hj | hj
          · have hp : g.pchs ≠ [] := fun e => by rw [e] at hj; simp at hj
            exact h.pchRec (h.srcPch hne hp) j (List.mem_append_left _ hj)
          · exact h.srcRec hne j (List.mem_append_left _ hj)
        · exact h.srcRec hne j (List.mem_append_right _ hj)
  tBin := by
    intro h1
    rcases hw.bin with e | ⟨o, ho, e⟩
    · rw [show (σ.built σ').bin = σ.bin from e]; exact h.tBin h1
    · by_cases hd : DeadBin σ g
      · exact .inr (.inl hd)
      · left
        have hl := h.link h1
        rw [← hs.sources] at ho
        refine ⟨o, ho, ?_⟩
        rw [show (σ.built σ').bin = _ from e, eBin_clean (σ := σ) hs h.nodup ho]
        intro j hj
        refine live_of_not_dead ?_ fun e => hd ⟨j, hj, e⟩
        rcases List.mem_append.1 hj with hj | hj
        · rcases List.mem_append.1 hj with hj | hj
          · rcases List.mem_append.1 hj with hj | hj
            · exact (h.sub j (hl.1.mem_iff.2 hj)).2
            · rcases List.mem_append.1 hj with hj | hj
              · rcases List.mem_append.1 hj with hj | hj
                · have hp : g.pchs ≠ [] := fun e => by rw [e] at hj; simp at hj
                  exact h.pchRec (hl.2.1 hp) j (List.mem_append_left _ hj)
                · exact hl.2.2 j (by simp [hj])
              · exact hl.2.2 j (by simp [hj])
          · exact hl.2.2 j (by simp [hj])
        · exact hl.2.2 j (by simp [hj])

theorem Clean.cleanW {fx : Fixed} {σ σ' : Sys} {c : TargetSchema} (h : Clean fx σ c)
    (hinj : ∀ p ∈ paths c.sources, ∀ q ∈ paths c.sources, objPath fx p = objPath fx q → p = q)
    (hw : CleanW fx c σ σ') : Clean fx (σ.built σ') c where
  pch := fun hc => by
    rcases hw.pch with e | e
    · exact e.trans (h.pch hc)
    · exact e
  obj := fun p hp => by
    rcases hw.obj (objPath fx p) with e | ⟨q, hq, e1, e2⟩
    · exact e.trans (h.obj p hp)
    · rw [← hinj p hp q hq e1] at e2; exact e2
  bin := by
    rcases hw.bin with e | ⟨o, ho, e⟩
    · obtain ⟨o, ho, e2⟩ := h.bin
      exact ⟨o, ho, e.trans e2⟩
    · exact ⟨o, ho, e⟩

/-- One configuration. -/
abbrev One (c : TargetSchema) : TargetSchema → Prop := (· = c)

theorem KInv.cleanW {fx : Fixed} {c : TargetSchema} {σ σ' : Sys} (hf : Family fx (One c))
    (h : KInv fx (One c) σ) (hd : σ.done = none) (hw : CleanW fx c σ σ') :
    KInv fx (One c) (σ.built σ') := by
  have hinj := hf.inj c c rfl rfl
  refine ⟨⟨h.inv.wf, h.inv.view, ?_, ?_, h.inv.doneRun, ?_⟩, h.saved, h.lost, h.run, h.single⟩
  · intro s hs
    obtain ⟨k, hk, hsk⟩ := h.saved s hs
    rw [show k = c from hk] at hsk
    exact (h.inv.stored s hs).cleanW hsk hinj hw
  · intro r hr
    have hri := h.inv.run r hr
    have hc : r.cfg = c := h.run r hr
    exact ⟨hri.load, hri.same, hri.start.frame rfl rfl rfl, hri.order,
      hri.virt.cleanW (hc ▸ hri.same) hinj hw,
      hri.phase.frame (Fwd.of_eq rfl rfl) (Keeps.of_eq rfl rfl) id rfl
        (fun h => ⟨h, rfl⟩) (fun _ _ h => h)⟩
  · intro d hdd
    rw [show (σ.built σ').done = none from hd] at hdd
    exact absurd hdd (by simp)

/-- The local part of an idle process does not matter. -/
theorem KInv.idle {fx : Fixed} {K : TargetSchema → Prop} {σ : Sys} (h : KInv fx K σ)
    (hr : σ.run = none) {seen : Str → List (Option Nat)} {view : Str → Option Nat}
    (hv : ∀ p, view p ∈ seen p) (ok : Bool) (log : List Entry) (fresh : Bool) :
    KInv fx K { σ with seen := seen, view := view, ok := ok, log := log, done := none,
                       fresh := fresh } := by
  refine ⟨⟨h.inv.wf, hv, ?_, ?_, fun _ => rfl, by simp⟩, h.saved, h.lost, h.run, h.single⟩
  · intro s hs
    exact (h.inv.stored s hs).still (Fwd.of_eq rfl rfl) (fun _ h => h) rfl rfl rfl
  · intro r hr2
    rw [show σ.run = some r from hr2] at hr
    simp at hr

/-! ## Steps of one process -/

/-- The process starts a build. -/
def Event.starts : Event → Bool
  | .start _ _ => true
  | _ => false

/-- `σ` with another state file and other history variables. -/
def Sys.withState (σ : Sys) (a : Option Str) (b : TargetSchema) (l : List TargetSchema) : Sys :=
  { σ with stateFile := a, saved := b, lost := l }

theorem ite_withState (p : Prop) [Decidable p] (x y : Sys) (a : Option Str) (b : TargetSchema)
    (l : List TargetSchema) : (if p then x else y).withState a b l =
      if p then x.withState a b l else y.withState a b l := by
  split <;> rfl

theorem inPhase_withState {σ : Sys} {ph : Phase} {f g : Run → Sys} {a : Option Str}
    {b : TargetSchema} {l : List TargetSchema} (h : ∀ r, g r = (f r).withState a b l) :
    inPhase (σ.withState a b l) ph g = (inPhase σ ph f).withState a b l := by
  show (match σ.run with
    | some r => if r.phase = ph then g r else σ.withState a b l
    | none => σ.withState a b l) = _
  unfold inPhase
  cases σ.run with
  | none => rfl
  | some r => simp only [ite_withState, h]

theorem step_withState_inner (fx : Fixed) (σ : Sys) (e : Event) (h : e.inner = true)
    (ho : e.outside = false) (a : Option Str) (b : TargetSchema) (l : List TargetSchema) :
    step fx (σ.withState a b l) e = (step fx σ e).withState a b l := by
  cases e <;> simp only [Event.inner, Event.outside, Bool.false_eq_true, Bool.true_eq_false] at h ho
  case otherFail => simp only [step, ite_withState]; rfl
  case look => simp only [step, lookAt, ite_withState]; rfl
  case pchTask =>
    exact inPhase_withState fun r => by simp only [pchTask, ite_withState]; rfl
  case pchExec =>
    exact inPhase_withState fun r => by simp only [pchExec, ite_withState]; rfl
  case objTask =>
    exact inPhase_withState fun r => by simp only [objTask, ite_withState]; rfl
  case exec k ok junk =>
    refine inPhase_withState fun r => ?_
    unfold execObj
    cases r.pending[k]? with
    | none => rfl
    | some i => simp only [ite_withState]; rfl
  case add k =>
    refine inPhase_withState fun r => ?_
    unfold addObj
    cases r.executed[k]? with
    | none => rfl
    | some i => rfl
  case linkTask =>
    show (match σ.run with
      | some r => if r.phase = .link ∨ (r.phase = .objRun ∧ r.pending = [] ∧ r.executed = []) then
          linkTask (σ.withState a b l).settle r else σ.withState a b l
      | none => σ.withState a b l) = Sys.withState (match σ.run with
      | some r => if r.phase = .link ∨ (r.phase = .objRun ∧ r.pending = [] ∧ r.executed = []) then
          linkTask σ.settle r else σ
      | none => σ) a b l
    cases σ.run with
    | none => rfl
    | some r =>
      have : linkTask (σ.withState a b l).settle r = (linkTask σ.settle r).withState a b l := by
        simp only [linkTask, ite_withState]; rfl
      simp only [ite_withState, this]
  case linkExec =>
    exact inPhase_withState fun r => by simp only [linkExec, ite_withState]; rfl

/-- A step of a running process with another state file: the same, and the state file is as it
was or as the process wrote it when it ended. -/
theorem step_withState (fx : Fixed) (σ : Sys) (e : Event) (h : e.starts = false)
    (ho : e.outside = false) (a : Option Str) (b : TargetSchema) (l : List TargetSchema) :
    ∃ a' b' l', step fx (σ.withState a b l) e = (step fx σ e).withState a' b' l' ∧
      (a' = a ∨ a' = (step fx σ e).stateFile ∧ (step fx σ e).run = none) := by
  by_cases hi : e.inner = true
  · exact ⟨a, b, l, step_withState_inner fx σ e hi ho a b l, .inl rfl⟩
  · cases e <;> simp only [Event.inner, Event.outside, Event.starts, not_true_eq_false,
      Bool.true_eq_false] at hi ho h
    case finish o =>
      simp only [step, inPhase]
      have e1 : (σ.withState a b l).run = σ.run := rfl
      rw [e1]
      cases σ.run with
      | none => exact ⟨a, b, l, rfl, .inl rfl⟩
      | some r =>
        by_cases hp : r.phase = .fin
        · simp only [if_pos hp, finishRun]
          by_cases hd : r.dirty = true
          · simp only [if_pos hd]
            cases targetText r.toStore with
            | none => exact ⟨a, b, l ++ [r.cfg], rfl, .inl rfl⟩
            | some t =>
              cases o with
              | false => exact ⟨a, b, l ++ [r.cfg], rfl, .inl rfl⟩
              | true => exact ⟨some t, r.user, [], rfl, .inr ⟨rfl, rfl⟩⟩
          · simp only [if_neg hd]
            exact ⟨a, b, l, rfl, .inl rfl⟩
        · simp only [if_neg hp]
          exact ⟨a, b, l, rfl, .inl rfl⟩
    case crash w =>
      simp only [step]
      have e1 : (σ.withState a b l).run = σ.run := rfl
      rw [e1]
      cases σ.run with
      | none => exact ⟨a, b, l, rfl, .inl rfl⟩
      | some r =>
        simp only [crashRun]
        cases w with
        | none => exact ⟨a, b, if r.dirty then l ++ [r.cfg] else l, rfl, .inl rfl⟩
        | some n =>
          simp only
          split
          · rename_i text _ _ _
            split
            · exact ⟨_, b, l ++ [r.cfg], rfl, .inr ⟨rfl, rfl⟩⟩
            · exact ⟨_, r.user, [], rfl, .inr ⟨rfl, rfl⟩⟩
          · exact ⟨a, b, if r.dirty then l ++ [r.cfg] else l, rfl, .inl rfl⟩

theorem step_cleanW {fx : Fixed} {c : TargetSchema} {σ : Sys} {e : Event}
    (h : KInv fx (One c) σ) (hi : SysInv fx (step fx σ e)) (hfr : σ.fresh = true)
    (ho : e.outside = false) (ht : e.tidy = true) : CleanW fx c σ (step fx σ e) := by
  have same : (step fx σ e).pch = σ.pch ∧ (step fx σ e).objs = σ.objs ∧ (step fx σ e).bin = σ.bin →
      CleanW fx c σ (step fx σ e) := fun h => CleanW.of_eq h.1 h.2.1 h.2.2
  cases e <;> simp only [Event.outside, Bool.true_eq_false] at ho
  case pchExec ok junk =>
    revert hi
    simp only [step, inPhase]
    split
    · rename_i r hr
      split
      · rename_i hph
        have hc : r.cfg = c := h.run r hr
        have hri := h.inv.run r hr
        have hp := hri.phase
        rw [PhaseInv, hph] at hp
        simp only at hp
        cases ok with
        | false =>
          intro _
          cases junk with
          | some a => simp [Event.tidy] at ht
          | none => exact CleanW.of_eq rfl rfl rfl
        | true =>
          intro hi
          refine ⟨?_, fun p => .inl rfl, .inl rfl⟩
          have hlive : ∀ i ∈ r.user.pchs ++ r.user.headers, Live σ i := fun i hi =>
            (hp.hashed i hi).2.1 hfr
          rcases (hi.run _ rfl).virt.tPch rfl with h1 | ⟨i, hi2, h1⟩ | ⟨l, hl, _⟩
          · right
            rw [h1, ePch_clean (σ := σ) (hc ▸ hri.same) hlive]
          · exact absurd h1 (Live.not_dead (hlive i hi2))
          · simp at hl
      · intro _; exact CleanW.of_eq rfl rfl rfl
    · intro _; exact CleanW.of_eq rfl rfl rfl
  case exec k ok junk =>
    revert hi
    simp only [step, inPhase]
    split
    · rename_i r hr
      split
      · rename_i hph
        have hc : r.cfg = c := h.run r hr
        have hri := h.inv.run r hr
        have hp := hri.phase
        rw [PhaseInv, hph] at hp
        simp only at hp
        simp only [execObj]
        split
        · intro _; exact CleanW.of_eq rfl rfl rfl
        · rename_i x hx
          cases ok with
          | false =>
            intro _
            cases junk with
            | some a => simp [Event.tidy] at ht
            | none => exact CleanW.of_eq rfl rfl rfl
          | true =>
            intro hi
            refine ⟨.inl rfl, fun p => ?_, .inl rfl⟩
            have hxu := hp.sub x (List.mem_of_getElem? hx)
            by_cases hpp : p = objPath fx x.path
            · right
              refine ⟨x.path, ?_, hpp, ?_⟩
              · rw [← hc, ← hri.same.sources]; exact mem_paths.2 ⟨x, hxu, rfl⟩
              · have hl : ∀ i ∈ r.user.sources ++ r.user.headers ++ r.user.compileDeps, Live σ i :=
                  fun i hi => (hp.hashed i hi).2.1 hfr
                have hlx : Live σ x := hl x (by simp [hxu])
                have hlo : ∀ i ∈ r.user.pchs ++ r.user.headers ++ r.user.compileDeps, Live σ i := by
                  intro i hi
                  rcases List.mem_append.1 hi with hi | hi
                  · rcases List.mem_append.1 hi with hi | hi
                    · have hne : r.cfg.pchs ≠ [] := fun e => by
                        rw [hri.same.pchs_nil.2 e] at hi; simp at hi
                      exact (hp.done.hashed hne i (List.mem_append_left _ hi)).2.1 hfr
                    · exact hl i (by simp [hi])
                  · exact hl i (by simp [hi])
                rcases (hi.run _ rfl).virt.tObj x (by simp [virt]) with h1 | h1 | ⟨l, hl, _⟩
                · rw [hpp]
                  refine Eq.trans h1 ?_
                  rw [← eObj_clean (σ := σ) (fx := fx) (hc ▸ hri.same) hlx hlo]
                · exfalso
                  rcases h1 with h1 | ⟨i, hi2, h1⟩
                  · exact hlx.not_dead h1
                  · exact (hlo i hi2).not_dead h1
                · simp at hl
            · left
              show upd σ.objs _ _ _ = _
              rw [upd, if_neg hpp]
      · intro _; exact CleanW.of_eq rfl rfl rfl
    · intro _; exact CleanW.of_eq rfl rfl rfl
  case linkExec ok junk =>
    revert hi
    simp only [step, inPhase]
    split
    · rename_i r hr
      split
      · rename_i hph
        have hc : r.cfg = c := h.run r hr
        have hri := h.inv.run r hr
        have hp := hri.phase
        rw [PhaseInv, hph] at hp
        simp only at hp
        cases ok with
        | false =>
          intro _
          cases junk with
          | some a => simp [Event.tidy] at ht
          | none => exact CleanW.of_eq rfl rfl rfl
        | true =>
          intro hi
          refine ⟨.inl rfl, fun p => .inl rfl, ?_⟩
          have hl : ∀ i ∈ r.user.sources ++ r.user.headers ++ r.user.compileDeps, Live σ i :=
            fun i hi => (hp.hashed i hi).2.1 hfr
          have hlL : ∀ i ∈ r.user.libs ++ r.user.linkDeps, Live σ i :=
            fun i hi => (hp.hashedL i hi).2.1 hfr
          have hlive : ∀ i ∈ r.user.sources ++ (r.user.pchs ++ r.user.headers ++ r.user.compileDeps)
              ++ r.user.libs ++ r.user.linkDeps, Live σ i := by
            intro i hi
            simp only [List.mem_append] at hi
            rcases hi with ((hi | ((hi | hi) | hi)) | hi) | hi
            · exact hl i (by simp [hi])
            · have hne : r.cfg.pchs ≠ [] := fun e => by
                rw [hri.same.pchs_nil.2 e] at hi; simp at hi
              exact (hp.done.hashed hne i (List.mem_append_left _ hi)).2.1 hfr
            · exact hl i (by simp [hi])
            · exact hl i (by simp [hi])
            · exact hlL i (by simp [hi])
            · exact hlL i (by simp [hi])
          rcases (hi.run _ rfl).virt.tBin rfl with ⟨o, ho, h1⟩ | ⟨i, hi2, h1⟩ | ⟨l, hl, _⟩
          · right
            refine ⟨o, ?_, ?_⟩
            · rw [← hc, ← hri.same.sources]; exact ho
            · refine Eq.trans h1 ?_
              rw [← eBin_clean (σ := σ) (fx := fx) (hc ▸ hri.same) hri.virt.nodup ho hlive]
          · exact absurd h1 (Live.not_dead (hlive i hi2))
          · simp at hl
      · intro _; exact CleanW.of_eq rfl rfl rfl
    · intro _; exact CleanW.of_eq rfl rfl rfl
  all_goals
    apply same
    simp only [step, inPhase, lookAt, startRun, pchTask, objTask, addObj, linkTask, finishRun, crashRun]
    repeat' split
    all_goals exact ⟨rfl, rfl, rfl⟩

end Verif.Target
