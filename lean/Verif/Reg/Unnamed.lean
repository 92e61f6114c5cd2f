import Verif.Reg.WorldInv
import Verif.Generator.Shadow

/-!
# Files that no builder names

A build script names the files that its builders read; the other files it deals with are those that the
builders write.  What happens to any other file makes no difference.
-/

namespace Verif.Reg
open Verif Verif.Schema
open Verif.Target (Fixed BinArt objPath outputPath upd paths inputPaths RunPaths)

/-! ## Specification -/

/-- The files that a builder of this kind reads or may write when it is configured like this. -/
def Kind.files (k : Kind) (s : Setup) : List Str := s.inputs ++ outputs k.init s

/-- The scripts of the history read and write only files in `P`. -/
def Within (P : Str → Bool) (kinds : Str → Kind) (hist : List WEvent) : Prop :=
  ∀ g s, .launch g s ∈ hist → ∀ j ∈ g.ids, ∀ p ∈ (kinds j).files (s j), P p = true

/-- The event is not a change of a file outside `P`. -/
def WEvent.within (P : Str → Bool) : WEvent → Bool
  | .edit p _ | .delete p => P p
  | _ => true

/-- The two builders have done the same, have the same state and have left the same artifacts. -/
def SameBuilder : Comp → Comp → Prop
  | .target fx σ, .target fx' σ' =>
    fx = fx' ∧ σ.log = σ'.log ∧ σ.run = σ'.run ∧ σ.ok = σ'.ok ∧ σ.done = σ'.done ∧
    σ.stateFile = σ'.stateFile ∧ σ.objs = σ'.objs ∧ σ.pch = σ'.pch ∧ σ.bin = σ'.bin
  | .gen σ, .gen σ' =>
    σ.log = σ'.log ∧ σ.run = σ'.run ∧ σ.ok = σ'.ok ∧ σ.done = σ'.done ∧
    σ.stateFile = σ'.stateFile ∧ σ.last = σ'.last
  | _, _ => False

/-- The two worlds differ in files outside `P` only. -/
structure SameWithin (P : Str → Bool) (w w' : World) : Prop where
  files : ∀ p, P p = true → w.files p = w'.files p
  content : w.content = w'.content
  builders : ∀ j, SameBuilder (w.comps j) (w'.comps j)
  active : w.active = w'.active
  graph : w.graph = w'.graph
  begun : w.begun = w'.begun
  ok : w.ok = w'.ok
  result : w.result = w'.result
  after : w.after = w'.after

/-! ## Single builders -/

/-- What runs reads and writes only files in `P`. -/
def RunIn (P : Str → Bool) : Kind → Comp → Prop
  | .target fx, .target fx' σ => fx = fx' ∧ RunPaths σ ∧ ∀ r, σ.run = some r →
      (∀ p ∈ inputPaths r.cfg, P p = true) ∧
      ∀ p ∈ pchFiles fx ++ (paths r.cfg.sources).map (objPath fx) ++ linkFiles fx, P p = true
  | .gen, .gen σ => ∀ r, σ.run = some r → (∀ p ∈ Generator.inputsOf r.cfg, P p = true) ∧
      ∀ p ∈ r.cfg.flatMap (fun x => x.2.outputs), P p = true
  | _, _ => False

/-- The builders differ in files outside `P` only. -/
def Near (P : Str → Bool) : Comp → Comp → Prop
  | .target fx σ, .target fx' σ' => fx = fx' ∧ ∃ f u b s v, σ' = σ.withFiles f u b s v ∧
      ∀ p, P p = true → f p = σ.files p ∧ s p = σ.seen p ∧ v p = σ.view p
  | .gen σ, .gen σ' => ∃ f u s v, σ' = σ.withFiles f u s v ∧
      ∀ p, P p = true → f p = σ.files p ∧ ∀ id, s id p = σ.seen id p ∧ v id p = σ.view id p
  | _, _ => False

theorem near_refl (P : Str → Bool) (c : Comp) : Near P c c := by
  cases c with
  | target fx σ => exact ⟨rfl, σ.files, σ.used, σ.fresh, σ.seen, σ.view, rfl, fun _ _ => ⟨rfl, rfl, rfl⟩⟩
  | gen σ => exact ⟨σ.files, σ.used, σ.seen, σ.view, rfl, fun _ _ => ⟨rfl, fun _ => ⟨rfl, rfl⟩⟩⟩

theorem Near.running {P : Str → Bool} {c c' : Comp} (h : Near P c c') : c'.running = c.running ∧ c'.ok = c.ok := by
  cases c <;> cases c'
  · obtain ⟨rfl, f, u, b, s, v, rfl, -⟩ := h; exact ⟨rfl, rfl⟩
  · exact h.elim
  · exact h.elim
  · obtain ⟨f, u, s, v, rfl, -⟩ := h; exact ⟨rfl, rfl⟩

theorem Near.same {P : Str → Bool} {c c' : Comp} (h : Near P c c') : SameBuilder c c' := by
  cases c <;> cases c'
  · obtain ⟨rfl, f, u, b, s, v, rfl, -⟩ := h; exact ⟨rfl, rfl, rfl, rfl, rfl, rfl, rfl, rfl, rfl⟩
  · exact h.elim
  · exact h.elim
  · obtain ⟨f, u, s, v, rfl, -⟩ := h; exact ⟨rfl, rfl, rfl, rfl, rfl, rfl⟩

theorem Near.mayWrite {P : Str → Bool} {c c' : Comp} (h : Near P c c') (e : Ev) : mayWrite c' e = mayWrite c e := by
  cases c <;> cases c'
  · obtain ⟨rfl, f, u, b, s, v, rfl, -⟩ := h
    cases e with
    | g e => rfl
    | t e => cases e <;> rfl
  · exact h.elim
  · exact h.elim
  · obtain ⟨f, u, s, v, rfl, -⟩ := h
    cases e with
    | t e => rfl
    | g e => cases e <;> rfl

theorem Near.record {P : Str → Bool} {c c' : Comp} (h : Near P c c') (e : Ev) (ws : Writes)
    (content : Str → Nat → Option BinArt) : record content c' e ws = record content c e ws := by
  cases c <;> cases c'
  · obtain ⟨rfl, f, u, b, s, v, rfl, -⟩ := h
    cases e with
    | g e => rfl
    | t e => cases e <;> rfl
  · exact h.elim
  · exact h.elim
  · obtain ⟨f, u, s, v, rfl, -⟩ := h
    cases e with
    | t e => rfl
    | g e => cases e <;> rfl

theorem Near.legal {P : Str → Bool} {c c' : Comp} (h : Near P c c') (e : Ev) (u : Str → List Nat) (ws : Writes) :
    legal c' e u ws = legal c e u ws := by
  cases c <;> cases c'
  · obtain ⟨rfl, f, u, b, s, v, rfl, -⟩ := h
    cases e with
    | g e => rfl
    | t e => cases e <;> rfl
  · exact h.elim
  · exact h.elim
  · obtain ⟨f, u, s, v, rfl, -⟩ := h
    cases e with
    | t e => rfl
    | g e => cases e <;> rfl

theorem legal_used {c : Comp} {e : Ev} {u u' : Str → List Nat} {ws : Writes}
    (hu : ∀ p ∈ mayWrite c e, u p = u' p) (h : legal c e u ws = true) : legal c e u' ws = true := by
  simp only [legal, Bool.and_eq_true] at h ⊢
  obtain ⟨⟨⟨h1, h2⟩, h3⟩, h4⟩ := h
  refine ⟨⟨⟨h1, h2⟩, ?_⟩, h4⟩
  rw [List.all_eq_true] at h1 h3 ⊢
  intro x hx
  have k1 := hu x.1 (of_decide_eq_true (h1 x hx))
  have k3 := h3 x hx
  obtain ⟨p, y⟩ := x
  cases y with
  | none => rfl
  | some t => simp only at k1 k3 ⊢; rw [← k1]; exact k3

/-- The files that a step may write are in `P`. -/
theorem RunIn.writes {P : Str → Bool} {k : Kind} {c : Comp} (h : RunIn P k c) {e : Ev} {p : Str}
    (hp : p ∈ mayWrite c e) : P p = true := by
  cases k <;> cases c
  · rename_i fx fx' σ
    obtain ⟨rfl, hr, h⟩ := h
    cases e with
    | g e => simp [mayWrite] at hp
    | t e =>
      cases hrun : σ.run with
      | none => cases e <;> simp [mayWrite, hrun] at hp
      | some r =>
        obtain ⟨-, h⟩ := h r hrun
        have hpend := (hr r hrun).2
        cases e <;> simp only [mayWrite, hrun, List.not_mem_nil] at hp
        · split at hp
          · exact h p (by simp only [List.mem_append]; exact .inl (.inl hp))
          · simp at hp
        · split at hp
          · split at hp
            · rename_i i hi
              have : i ∈ r.pending := List.mem_of_getElem? hi
              refine h p (List.mem_append.2 (.inl (List.mem_append.2 (.inr ?_))))
              rw [List.mem_singleton.1 hp]
              exact List.mem_map_of_mem (hpend i this)
            · simp at hp
          · simp at hp
        · split at hp
          · exact h p (by simp only [List.mem_append]; exact .inr hp)
          · simp at hp
  · exact h.elim
  · exact h.elim
  · rename_i σ
    cases e with
    | t e => simp [mayWrite] at hp
    | g e =>
      cases hrun : σ.run with
      | none => cases e <;> simp [mayWrite, hrun] at hp
      | some r =>
        obtain ⟨-, h⟩ := h r hrun
        cases e <;> simp only [mayWrite, hrun, List.not_mem_nil] at hp
        split at hp
        · rename_i i hi _
          exact h p (List.mem_flatMap.2 ⟨_, Generator.find_mem hi, hp⟩)
        · simp at hp

/-- Tasks and commands do not look at other files. -/
theorem near_inner {P : Str → Bool} {k : Kind} {c c' : Comp} {e : Ev} (h : Near P c c') (hk : RunIn P k c)
    (he : e.isTask = true ∨ e.isLook = true) :
    Near P (c.step e) (c'.step e) ∧ RunIn P k (c.step e) := by
  cases k <;> cases c <;> cases c' <;> first | exact h.elim | exact hk.elim | skip
  · rename_i fx fx1 σ fx2 σ'
    cases e with
    | g e => exact ⟨h, hk⟩
    | t e =>
      obtain ⟨rfl, f, u, b, s, v, rfl, hf⟩ := h
      obtain ⟨rfl, hrp, hr⟩ := hk
      have h1 : e.outside = false ∧ e.isStart = false := by
        rcases he with he | he <;>
          cases e <;> simp_all [Ev.isTask, Ev.isLook, Target.Event.progress, Target.Event.outside,
            Target.Event.isStart]
      obtain ⟨s', v', k1, k2⟩ := Target.step_withFiles_on (fx := fx) (u := u) (b := b)
        (P := fun p => P p = true) h1.1 h1.2 hrp (fun r h => (hr r h).1) hf
      refine ⟨⟨rfl, f, u, b, s', v', k1, fun p hp => ⟨?_, k2 p hp⟩⟩, rfl, Target.runPaths_step hrp e, ?_⟩
      · rw [(t_frame fx σ e h1.1).1]; exact (hf p hp).1
      · intro r' hr'
        cases hrun : σ.run with
        | none =>
          have : Target.CfgIs r'.cfg σ := fun r h => by rw [hrun] at h; simp at h
          have hn : (Target.step fx σ e).run = none := by
            rcases he with he | he <;>
              cases e <;> simp only [Ev.isTask, Ev.isLook, Target.Event.progress, Bool.false_eq_true] at he <;>
              simp only [Target.step, Target.inPhase, hrun, Target.lookAt] <;> try exact hrun
            split
            · rfl
            · exact hrun
          rw [hn] at hr'; simp at hr'
        | some r =>
          have hc : Target.CfgIs r.cfg σ := fun x hx => by rw [hrun] at hx; rw [Option.some.inj hx]
          rw [Target.cfgIs_step hc h1.2 r' hr']
          exact hr r hrun
  · rename_i σ σ'
    cases e with
    | t e => exact ⟨h, hk⟩
    | g e =>
      obtain ⟨f, u, s, v, rfl, hf⟩ := h
      have h1 : e.outside = false := by
        rcases he with he | he <;>
          cases e <;> simp_all [Ev.isTask, Ev.isLook, Generator.Event.progress, Generator.Event.outside]
      obtain ⟨s', v', k1, k2⟩ := Generator.step_withFiles_on (u := u)
        (P := fun p => P p = true) h1 (fun r h => (hk r h).1) hf
      refine ⟨⟨f, u, s', v', k1, fun p hp => ⟨?_, k2 p hp⟩⟩, ?_⟩
      · rw [(Generator.quiet_files h1).1]; exact (hf p hp).1
      · intro r' hr'
        cases hrun : σ.run with
        | none =>
          have hn : (Generator.step σ e).run = none := by
            rcases he with he | he <;>
              cases e <;> simp only [Ev.isTask, Ev.isLook, Generator.Event.progress, Bool.false_eq_true] at he <;>
              simp only [Generator.step, Generator.inRun, hrun]
          rw [hn] at hr'; simp at hr'
        | some r =>
          have hc : Generator.CfgIs r.cfg σ := fun x hx => by rw [hrun] at hx; rw [Option.some.inj hx]
          rw [Generator.cfgIs_step hc h1 r' hr']
          exact hk r hrun

/-- A file in `P` changes. -/
theorem near_write {P : Str → Bool} {c c' : Comp} (h : Near P c c') (p : Str) (x : Option Nat) :
    Near P (c.write p x) (c'.write p x) := by
  cases c <;> cases c' <;> first | exact h.elim | skip
  · obtain ⟨rfl, f, u, b, s, v, rfl, hf⟩ := h
    rename_i fx σ
    cases x with
    | some t =>
      refine ⟨rfl, _, _, _, _, _, rfl, ?_⟩
      intro q hq
      obtain ⟨h1, h2, h3⟩ := hf q hq
      by_cases hpq : q = p
      · subst hpq
        simp [Comp.step, Target.step, Target.Sys.put, upd, Target.Sys.withFiles, h2]
      · simp [Comp.step, Target.step, Target.Sys.put, upd, hpq, Target.Sys.withFiles, h1, h2, h3]
    | none =>
      refine ⟨rfl, _, _, _, _, _, rfl, ?_⟩
      intro q hq
      obtain ⟨h1, h2, h3⟩ := hf q hq
      by_cases hpq : q = p
      · subst hpq
        simp [Comp.step, Target.step, Target.Sys.put, upd, Target.Sys.withFiles, h2]
      · simp [Comp.step, Target.step, Target.Sys.put, upd, hpq, Target.Sys.withFiles, h1, h2, h3]
  · obtain ⟨f, u, s, v, rfl, hf⟩ := h
    rename_i σ
    cases x with
    | some t =>
      refine ⟨_, _, _, _, rfl, ?_⟩
      intro q hq
      obtain ⟨h1, h2⟩ := hf q hq
      by_cases hpq : q = p
      · subst hpq
        simp [Comp.step, Generator.step, Generator.Sys.put, upd, Generator.Sys.withFiles, h2]
      · simp [Comp.step, Generator.step, Generator.Sys.put, upd, hpq, Generator.Sys.withFiles, h1, h2]
    | none =>
      refine ⟨_, _, _, _, rfl, ?_⟩
      intro q hq
      obtain ⟨h1, h2⟩ := hf q hq
      by_cases hpq : q = p
      · subst hpq
        simp [Comp.step, Generator.step, Generator.Sys.put, upd, Generator.Sys.withFiles, h2]
      · simp [Comp.step, Generator.step, Generator.Sys.put, upd, hpq, Generator.Sys.withFiles, h1, h2]

/-- A file outside `P` changes in one of the two. -/
theorem near_outside {P : Str → Bool} {c c' : Comp} (h : Near P c c') {p : Str} (hp : P p = false)
    (x : Option Nat) : Near P (c.write p x) c' := by
  have hne : ∀ q, P q = true → q ≠ p := fun q hq e => by rw [e, hp] at hq; simp at hq
  cases c <;> cases c' <;> first | exact h.elim | skip
  · obtain ⟨rfl, f, u, b, s, v, rfl, hf⟩ := h
    rename_i fx σ
    cases x with
    | some t =>
      refine ⟨rfl, f, u, b, s, v, rfl, ?_⟩
      intro q hq
      obtain ⟨h1, h2, h3⟩ := hf q hq
      simp [Comp.step, Target.step, Target.Sys.put, upd, hne q hq, h1, h2, h3]
    | none =>
      refine ⟨rfl, f, u, b, s, v, rfl, ?_⟩
      intro q hq
      obtain ⟨h1, h2, h3⟩ := hf q hq
      simp [Comp.step, Target.step, Target.Sys.put, upd, hne q hq, h1, h2, h3]
  · obtain ⟨f, u, s, v, rfl, hf⟩ := h
    rename_i σ
    cases x with
    | some t =>
      refine ⟨f, u, s, v, rfl, ?_⟩
      intro q hq
      obtain ⟨h1, h2⟩ := hf q hq
      simp [Comp.step, Generator.step, Generator.Sys.put, upd, hne q hq, h1, h2]
    | none =>
      refine ⟨f, u, s, v, rfl, ?_⟩
      intro q hq
      obtain ⟨h1, h2⟩ := hf q hq
      simp [Comp.step, Generator.step, Generator.Sys.put, upd, hne q hq, h1, h2]

theorem runIn_write {P : Str → Bool} {k : Kind} {c : Comp} (h : RunIn P k c) (p : Str) (x : Option Nat) :
    RunIn P k (c.write p x) := by
  cases k <;> cases c <;> first | exact h.elim | skip
  · cases x <;> exact ⟨h.1, Target.runPaths_step h.2.1 _, h.2.2⟩
  · cases x <;> exact h

theorem near_fail {P : Str → Bool} {k : Kind} {c c' : Comp} (h : Near P c c') (hk : RunIn P k c) :
    Near P c.fail c'.fail ∧ RunIn P k c.fail := by
  cases k <;> cases c <;> cases c' <;> first | exact h.elim | exact hk.elim | skip
  · rename_i fx fx1 σ fx2 σ'
    obtain ⟨rfl, f, u, b, s, v, rfl, hf⟩ := h
    obtain ⟨rfl, hk1, hk2⟩ := hk
    have hfr : (Target.step fx σ .otherFail).files = σ.files ∧ (Target.step fx σ .otherFail).seen = σ.seen ∧
        (Target.step fx σ .otherFail).view = σ.view ∧ (Target.step fx σ .otherFail).run = σ.run := by
      simp only [Target.step]; split <;> exact ⟨rfl, rfl, rfl, rfl⟩
    refine ⟨⟨rfl, f, u, b, s, v, Target.otherFail_withFiles, ?_⟩, rfl, Target.runPaths_step hk1 _, ?_⟩
    · show ∀ p, P p = true → f p = (Target.step fx σ .otherFail).files p ∧ s p = (Target.step fx σ .otherFail).seen p ∧
        v p = (Target.step fx σ .otherFail).view p
      rw [hfr.1, hfr.2.1, hfr.2.2.1]; exact hf
    · rw [hfr.2.2.2]; exact hk2
  · rename_i σ σ'
    obtain ⟨f, u, s, v, rfl, hf⟩ := h
    have hfr : (Generator.step σ .otherFail).files = σ.files ∧ (Generator.step σ .otherFail).seen = σ.seen ∧
        (Generator.step σ .otherFail).view = σ.view ∧ (Generator.step σ .otherFail).run = σ.run := by
      simp only [Generator.step]; split <;> exact ⟨rfl, rfl, rfl, rfl⟩
    refine ⟨⟨f, u, s, v, Generator.otherFail_withFiles, ?_⟩, ?_⟩
    · show ∀ p, P p = true → f p = (Generator.step σ .otherFail).files p ∧
        ∀ id, s id p = (Generator.step σ .otherFail).seen id p ∧ v id p = (Generator.step σ .otherFail).view id p
      rw [hfr.1, hfr.2.1, hfr.2.2.1]; exact hf
    · show ∀ r, (Generator.step σ .otherFail).run = some r → _
      rw [hfr.2.2.2]; exact hk

theorem near_dropState {P : Str → Bool} {k : Kind} {c c' : Comp} (h : Near P c c') (hk : RunIn P k c) :
    Near P c.dropState c'.dropState ∧ RunIn P k c.dropState := by
  cases k <;> cases c <;> cases c' <;> first | exact h.elim | exact hk.elim | skip
  · rename_i fx fx1 σ fx2 σ'
    obtain ⟨rfl, f, u, b, s, v, rfl, hf⟩ := h
    obtain ⟨rfl, hk1, hk2⟩ := hk
    refine ⟨?_, rfl, Target.runPaths_step hk1 _, ?_⟩
    · by_cases hi : σ.run.isNone = true
      · have e1 : Target.step fx σ .dropState = { σ with stateFile := none, fresh := false } := if_pos hi
        have e2 : Target.step fx (σ.withFiles f u b s v) .dropState =
          { σ.withFiles f u b s v with stateFile := none, fresh := false } := if_pos hi
        simp only [Comp.dropState, Comp.step, e1, e2]; exact ⟨rfl, f, u, false, s, v, rfl, hf⟩
      · have e1 : Target.step fx σ .dropState = σ := if_neg hi
        have e2 : Target.step fx (σ.withFiles f u b s v) .dropState = σ.withFiles f u b s v := if_neg hi
        simp only [Comp.dropState, Comp.step, e1, e2]; exact ⟨rfl, f, u, b, s, v, rfl, hf⟩
    · simp only [Target.step]
      split <;> exact hk2
  · rename_i σ σ'
    obtain ⟨f, u, s, v, rfl, hf⟩ := h
    constructor
    · simp only [Comp.dropState, Comp.step, Generator.step, Generator.Sys.withFiles]
      by_cases hi : σ.run.isNone = true
      · simp only [if_pos hi]; exact ⟨f, u, s, v, rfl, hf⟩
      · simp only [if_neg hi]; exact ⟨f, u, s, v, rfl, hf⟩
    · simp only [Comp.dropState, Comp.step, Generator.step]
      split <;> exact hk

theorem near_kill {P : Str → Bool} {k : Kind} {c c' : Comp} (h : Near P c c') (hk : RunIn P k c)
    (o : List Str) (n : Option Nat) : Near P (c.kill o n) (c'.kill o n) ∧ RunIn P k (c.kill o n) := by
  cases k <;> cases c <;> cases c' <;> first | exact h.elim | exact hk.elim | skip
  · rename_i fx fx1 σ fx2 σ'
    obtain ⟨rfl, f, u, b, s, v, rfl, hf⟩ := h
    obtain ⟨rfl, hk1, hk2⟩ := hk
    obtain ⟨s', v', k1, k2⟩ := Target.step_withFiles_on (fx := fx) (u := u) (b := b) (e := .crash n)
        (P := fun p => P p = true) rfl rfl hk1 (fun r h => (hk2 r h).1) hf
    refine ⟨⟨rfl, f, u, b, s', v', k1, fun p hp => ⟨?_, k2 p hp⟩⟩, rfl, Target.runPaths_step hk1 _, ?_⟩
    · show f p = (Target.step fx σ (.crash n)).files p
      rw [(t_frame fx σ (.crash n) rfl).1]; exact (hf p hp).1
    · intro r' hr'
      cases hrun : σ.run with
      | none =>
        have hr' : (Target.step fx σ (.crash n)).run = some r' := hr'
        simp only [Target.step, hrun] at hr'; simp at hr'
      | some r =>
        have hc : Target.CfgIs r.cfg σ := fun x hx => by rw [hrun] at hx; rw [Option.some.inj hx]
        rw [Target.cfgIs_step hc rfl r' hr']
        exact hk2 r hrun
  · rename_i σ σ'
    obtain ⟨f, u, s, v, rfl, hf⟩ := h
    simp only [Comp.kill, Comp.step, Generator.step, Generator.inRun]
    have hr' : (σ.withFiles f u s v).run = σ.run := rfl
    cases hrun : σ.run with
    | none =>
      simp only [hr', hrun]
      exact ⟨⟨f, u, s, v, rfl, hf⟩, hk⟩
    | some r =>
      simp only [hr', hrun]
      have ht : Generator.toStore f r o = Generator.toStore σ.files r o := by
        simp only [Generator.toStore]
        rw [Generator.convertAll_congr fun p hp => (hf p ((hk r hrun).1 p hp)).1]
      constructor
      · simp only [Generator.crashRun, Generator.Sys.withFiles, ht]
        repeat' split
        all_goals exact ⟨f, u, s, v, rfl, hf⟩
      · simp only [Generator.crashRun]
        repeat' split
        all_goals (intro r hr; simp at hr)

theorem near_start {P : Str → Bool} {k : Kind} {c c' : Comp} (h : Near P c c') (hk : RunIn P k c)
    (s : Setup) : Near P (c.start s) (c'.start s) ∧
      ((∀ p ∈ k.files s, P p = true) → RunIn P k (c.start s)) := by
  cases k <;> cases c <;> cases c' <;> first | exact h.elim | exact hk.elim | skip
  · rename_i fx fx1 σ fx2 σ'
    cases s with
    | gen cfg => exact ⟨h, fun _ => hk⟩
    | target cfg o =>
      obtain ⟨rfl, f, u, b, s, v, rfl, hf⟩ := h
      constructor
      · simp only [Comp.start, Comp.step, Target.step, Target.startRun]
        have hr' : (σ.withFiles f u b s v).run = σ.run := rfl
        cases hrun : σ.run with
        | some r =>
          simp only [hr', hrun]
          exact ⟨rfl, f, u, b, s, v, rfl, hf⟩
        | none =>
          simp only [hr', hrun]
          split
          · exact ⟨rfl, f, u, true, s, v, rfl, hf⟩
          · exact ⟨rfl, f, u, b, s, v, rfl, hf⟩
      · intro hp
        obtain ⟨rfl, hk1, hk2⟩ := hk
        refine ⟨rfl, Target.runPaths_step hk1 _, ?_⟩
        intro r' hr'
        have hr' : (Target.startRun fx σ cfg o).run = some r' := hr'
        simp only [Target.startRun] at hr'
        split at hr'
        · exact hk2 r' hr'
        · split at hr'
          · obtain rfl := Option.some.inj hr'
            exact ⟨fun p h => hp p (List.mem_append.2 (.inl h)), fun p h => hp p (List.mem_append.2 (.inr h))⟩
          · exact hk2 r' hr'
  · rename_i σ σ'
    cases s with
    | target cfg o => exact ⟨h, fun _ => hk⟩
    | gen cfg =>
      obtain ⟨f, u, s, v, rfl, hf⟩ := h
      constructor
      · obtain ⟨h1, -, h3, h4⟩ := Generator.start_files (σ := σ) (c := cfg)
        refine ⟨f, u, s, v, Generator.start_withFiles, ?_⟩
        show ∀ p, P p = true → f p = (Generator.step σ (.start cfg)).files p ∧
          ∀ id, s id p = (Generator.step σ (.start cfg)).seen id p ∧ v id p = (Generator.step σ (.start cfg)).view id p
        rw [h1, h3, h4]; exact hf
      · intro hp r' hr'
        have hr' : (Generator.startRun σ cfg).run = some r' := hr'
        simp only [Generator.startRun] at hr'
        split at hr'
        · exact hk r' hr'
        · split at hr'
          · obtain rfl := Option.some.inj hr'
            exact ⟨fun p h => hp p (List.mem_append.2 (.inl h)), fun p h => hp p (List.mem_append.2 (.inr h))⟩
          · exact hk r' hr'

/-! ## Worlds -/

/-- The worlds differ in files outside `P` only, and what runs does not deal with these. -/
structure Beside (P : Str → Bool) (kinds : Str → Kind) (w w' : World) : Prop where
  files : ∀ p, P p = true → w'.files p = w.files p ∧ w'.used p = w.used p
  near : ∀ j, Near P (w.comps j) (w'.comps j)
  inside : ∀ j, RunIn P (kinds j) (w.comps j)
  content : w'.content = w.content
  active : w'.active = w.active
  graph : w'.graph = w.graph
  begun : w'.begun = w.begun
  ok : w'.ok = w.ok
  result : w'.result = w.result
  after : w'.after = w.after

section
variable {P : Str → Bool} {kinds : Str → Kind} {w w' : World}

theorem Beside.write (h : Beside P kinds w w') (p : Str) (x : Option Nat) :
    Beside P kinds (w.write p x) (w'.write p x) := by
  refine ⟨?_, fun j => near_write (h.near j) p x, fun j => runIn_write (h.inside j) p x, h.content, h.active,
    h.graph, h.begun, h.ok, h.result, h.after⟩
  intro q hq
  obtain ⟨h1, h2⟩ := h.files q hq
  by_cases hqp : q = p
  · subst hqp
    cases x <;> simp [World.write, upd, addUsed, h2]
  · simp only [World.write, addUsed_ne hqp]
    simp [upd, hqp, h1, h2]

theorem Beside.writes (ws : Writes) : ∀ {w w' : World}, Beside P kinds w w' →
    Beside P kinds (w.writes ws) (w'.writes ws) := by
  induction ws with
  | nil => exact fun h => h
  | cons x ws ih => exact fun h => ih (h.write x.1 x.2)

theorem Beside.outside (h : Beside P kinds w w') {p : Str} (hp : P p = false) (x : Option Nat) :
    Beside P kinds (w.write p x) w' := by
  have hne : ∀ q, P q = true → q ≠ p := fun q hq e => by rw [e, hp] at hq; simp at hq
  refine ⟨?_, fun j => near_outside (h.near j) hp x, fun j => runIn_write (h.inside j) p x, h.content, h.active,
    h.graph, h.begun, h.ok, h.result, h.after⟩
  intro q hq
  obtain ⟨h1, h2⟩ := h.files q hq
  simp only [World.write, addUsed_ne (hne q hq)]
  simp [upd, hne q hq, h1, h2]

theorem Beside.calm (h : Beside P kinds w w') (a b : Bool) :
    Beside P kinds { w with calm := a } { w' with calm := b } :=
  ⟨h.files, h.near, h.inside, h.content, h.active, h.graph, h.begun, h.ok, h.result, h.after⟩

theorem Beside.finished (h : Beside P kinds w w') (j : Str) : w'.finished j = w.finished j := by
  simp only [World.finished, h.begun, (h.near j).running.1]

theorem Beside.ready (h : Beside P kinds w w') (j : Str) : w'.ready j = w.ready j := by
  have : (fun d => w'.finished d) = fun d => w.finished d := funext h.finished
  simp only [World.ready, h.begun, h.graph, this]

theorem Beside.over (h : Beside P kinds w w') : w'.over = w.over := by
  have e1 : (fun d => w'.finished d) = fun d => w.finished d := funext h.finished
  have e2 : (fun d => !w'.ready d) = fun d => !w.ready d := funext fun d => by rw [h.ready]
  simp only [World.over, h.begun, h.graph, e1, e2]

theorem Beside.legal (h : Beside P kinds w w') (j : Str) (e : Ev) (ws : Writes) :
    legal (w'.comps j) e w'.used ws = legal (w.comps j) e w.used ws := by
  refine ((h.near j).legal e _ ws).trans ?_
  have key : ∀ p ∈ mayWrite (w.comps j) e, w'.used p = w.used p := fun p hp =>
    (h.files p ((h.inside j).writes hp)).2
  exact Bool.eq_iff_iff.2 ⟨legal_used key, legal_used fun p hp => (key p hp).symm⟩

/-- A step of both. -/
theorem Beside.step (h : Beside P kinds w w') (e : WEvent)
    (he : ∀ g s, e = .launch g s → ∀ j ∈ g.ids, ∀ p ∈ (kinds j).files (s j), P p = true) :
    Beside P kinds (w.step e) (w'.step e) := by
  cases e with
  | edit p t => exact (h.write p (some t)).calm _ _
  | delete p => exact (h.write p none).calm _ _
  | dropState id =>
    simp only [World.step, h.active]
    split
    · exact h
    · refine ⟨h.files, ?_, ?_, h.content, rfl, h.graph, h.begun, h.ok, h.result, h.after⟩ <;>
        (intro j; simp only [upd]; split)
      · subst j; exact (near_dropState (h.near _) (h.inside _)).1
      · exact h.near j
      · subst j; exact (near_dropState (h.near _) (h.inside _)).2
      · exact h.inside j
  | launch g s =>
    have hg : (g.ids.all fun id => ((w'.comps id).start (s id)).running) =
        g.ids.all fun id => ((w.comps id).start (s id)).running := by
      congr 1
      funext id
      exact ((near_start (h.near id) (h.inside id) (s id)).1).running.1
    simp only [World.step, h.active, hg]
    split
    · refine ⟨h.files, ?_, ?_, h.content, rfl, rfl, rfl, rfl, rfl, rfl⟩ <;>
        (intro j; simp only; split)
      · exact (near_start (h.near j) (h.inside j) (s j)).1
      · exact h.near j
      · rename_i hj
        exact (near_start (h.near j) (h.inside j) (s j)).2 (he g s rfl j hj)
      · exact h.inside j
    · exact h
  | begin id =>
    simp only [World.step, h.active, h.ready]
    split
    · exact ⟨h.files, h.near, h.inside, h.content, rfl, h.graph, by simp only [h.begun], h.ok, h.result,
        h.after⟩
    · exact h
  | task id e ws =>
    simp only [World.step, h.active, h.begun, (h.near id).running.1, h.legal]
    split
    · rename_i hc
      simp only [Bool.and_eq_true] at hc
      obtain ⟨k1, k2⟩ := near_inner (h.near id) (h.inside id) (.inl hc.1.2)
      refine Beside.writes ws ⟨h.files, ?_, ?_, ?_, h.active, h.graph, h.begun, ?_, h.result, h.after⟩
      · intro j
        simp only [h.ok, k1.running.2]
        split
        · exact k1
        · split
          · exact (near_fail (h.near j) (h.inside j)).1
          · exact h.near j
      · intro j
        simp only
        split
        · subst j; exact k2
        · split
          · exact (near_fail (h.near j) (h.inside j)).2
          · exact h.inside j
      · simp only [h.content]; exact k1.record e ws _
      · simp only [h.ok, k1.running.2]
    · exact h
  | look id e =>
    simp only [World.step, h.active, h.begun, (h.near id).running.1]
    split
    · rename_i hc
      simp only [Bool.and_eq_true] at hc
      obtain ⟨k1, k2⟩ := near_inner (h.near id) (h.inside id) (.inr hc.2)
      refine ⟨h.files, ?_, ?_, h.content, rfl, h.graph, rfl, h.ok, h.result, h.after⟩ <;>
        (intro j; simp only [upd]; split)
      · exact k1
      · exact h.near j
      · subst j; exact k2
      · exact h.inside j
    · exact h
  | join =>
    simp only [World.step, h.active, h.over]
    split
    · refine ⟨h.files, ?_, ?_, h.content, rfl, h.graph, h.begun, h.ok, by simp only [h.ok], ?_⟩
      · intro j; simp only [h.graph]; split
        · exact (near_kill (h.near j) (h.inside j) _ _).1
        · exact h.near j
      · intro j; simp only; split
        · exact (near_kill (h.near j) (h.inside j) _ _).2
        · exact h.inside j
      · simp only [h.ok, h.graph]
    · exact h
  | kill o n =>
    simp only [World.step, h.active]
    split
    · refine ⟨h.files, ?_, ?_, h.content, rfl, h.graph, h.begun, h.ok, h.result, h.after⟩
      · intro j; simp only [h.graph]; split
        · exact (near_kill (h.near j) (h.inside j) _ _).1
        · exact h.near j
      · intro j; simp only; split
        · exact (near_kill (h.near j) (h.inside j) _ _).2
        · exact h.inside j
    · exact h

theorem Beside.skip (h : Beside P kinds w w') {e : WEvent} (he : e.within P = false) :
    Beside P kinds (w.step e) w' := by
  cases e <;> simp only [WEvent.within, Bool.true_eq_false] at he
  · exact (h.outside he _).calm _ _
  · exact (h.outside he _).calm _ _

theorem Beside.steps : ∀ (hist : List WEvent) {w w' : World}, Beside P kinds w w' → Within P kinds hist →
    Beside P kinds (w.steps hist) (w'.steps (hist.filter (·.within P))) := by
  intro hist
  induction hist with
  | nil => exact fun h _ => h
  | cons e l ih =>
    intro w w' h hw
    have hl : Within P kinds l := fun g s hm => hw g s (by simp [hm])
    by_cases he : e.within P = true
    · rw [List.filter_cons_of_pos he]
      exact ih (h.step e fun g s e' => hw g s (by simp [e'])) hl
    · rw [List.filter_cons_of_neg he]
      exact ih (h.skip (by simpa using he)) hl

theorem beside_init (P : Str → Bool) (kinds : Str → Kind) :
    Beside P kinds (World.init kinds) (World.init kinds) := by
  refine ⟨fun _ _ => ⟨rfl, rfl⟩, fun j => near_refl P _, ?_, rfl, rfl, rfl, rfl, rfl, rfl, rfl⟩
  intro j
  simp only [World.init]
  cases kinds j with
  | target fx => exact ⟨rfl, fun r hr => by simp [Target.Sys.init] at hr, fun r hr => by simp [Target.Sys.init] at hr⟩
  | gen => exact fun r hr => by simp [Generator.Sys.init] at hr

theorem SameWithin.symm (h : SameWithin P w w') : SameWithin P w' w := by
  refine ⟨fun p hp => (h.files p hp).symm, h.content.symm, ?_, h.active.symm, h.graph.symm, h.begun.symm,
    h.ok.symm, h.result.symm, h.after.symm⟩
  intro j
  have hb := h.builders j
  generalize w.comps j = c at hb
  generalize w'.comps j = c' at hb
  cases c <;> cases c' <;> first | exact hb.elim | skip
  · obtain ⟨h1, h2, h3, h4, h5, h6, h7, h8, h9⟩ := hb
    exact ⟨h1.symm, h2.symm, h3.symm, h4.symm, h5.symm, h6.symm, h7.symm, h8.symm, h9.symm⟩
  · obtain ⟨h2, h3, h4, h5, h6, h7⟩ := hb
    exact ⟨h2.symm, h3.symm, h4.symm, h5.symm, h6.symm, h7.symm⟩

theorem SameWithin.trans {w'' : World} (h : SameWithin P w w') (k : SameWithin P w' w'') : SameWithin P w w'' := by
  refine ⟨fun p hp => (h.files p hp).trans (k.files p hp), h.content.trans k.content, ?_, h.active.trans k.active,
    h.graph.trans k.graph, h.begun.trans k.begun, h.ok.trans k.ok, h.result.trans k.result, h.after.trans k.after⟩
  intro j
  have hb := h.builders j
  have kb := k.builders j
  generalize w.comps j = c at hb
  generalize w'.comps j = c' at hb kb
  generalize w''.comps j = c'' at kb
  cases c <;> cases c' <;> cases c'' <;> first | exact hb.elim | exact kb.elim | skip
  · obtain ⟨h1, h2, h3, h4, h5, h6, h7, h8, h9⟩ := hb
    obtain ⟨k1, k2, k3, k4, k5, k6, k7, k8, k9⟩ := kb
    exact ⟨h1.trans k1, h2.trans k2, h3.trans k3, h4.trans k4, h5.trans k5, h6.trans k6, h7.trans k7, h8.trans k8,
      h9.trans k9⟩
  · obtain ⟨h2, h3, h4, h5, h6, h7⟩ := hb
    obtain ⟨k2, k3, k4, k5, k6, k7⟩ := kb
    exact ⟨h2.trans k2, h3.trans k3, h4.trans k4, h5.trans k5, h6.trans k6, h7.trans k7⟩

end

end Verif.Reg
