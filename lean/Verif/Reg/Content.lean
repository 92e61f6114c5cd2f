import Verif.Reg.WorldInv

/-! # What the output file of a target holds -/

namespace Verif.Reg
open Verif Verif.Schema
open Verif.Target (Fixed BinArt objPath outputPath upd paths Clean)

/-- Nobody but the link task of `A` changes the file `p` in this step. -/
def Keeps (A p : Str) (w : World) : WEvent → Prop
  | .edit q _ => q ≠ p
  | .delete q => q ≠ p
  | .task j e ws => w.step (.task j e ws) ≠ w → p ∈ ws.map (·.1) →
      j = A ∧ ∃ ok junk, e = .t (.linkExec ok junk)
  | _ => True

/-- The same for a history. -/
def AllKeeps (A p : Str) : World → List WEvent → Prop
  | _, [] => True
  | w, e :: l => Keeps A p w e ∧ AllKeeps A p (w.step e) l

/-- The file `p` is the output of the target `A` and holds what was linked last. -/
def Holds (A p : Str) (w : World) : Prop :=
  ∃ fx σ, w.comps A = .target fx σ ∧ outputPath fx = p ∧
    (w.files p = none → σ.bin = none) ∧
    ∀ t, w.files p = some t → σ.bin.isSome = true ∧ w.content p t = σ.bin

theorem writes_at : ∀ (ws : Writes) (w : World) (p : Str), (ws.map (·.1)).Nodup →
    (p ∉ ws.map (·.1) → (w.writes ws).files p = w.files p) ∧
    ∀ x, (p, x) ∈ ws → (w.writes ws).files p = x := by
  intro ws
  induction ws with
  | nil => intro w p _; exact ⟨fun _ => rfl, by simp⟩
  | cons y l ih =>
    intro w p hn
    simp only [List.map_cons, List.nodup_cons] at hn
    obtain ⟨h1, h2⟩ := ih (w.write y.1 y.2) p hn.2
    simp only [World.writes, List.foldl_cons] at h1 h2 ⊢
    refine ⟨fun hp => ?_, fun x hx => ?_⟩
    · simp only [List.map_cons, List.mem_cons, not_or] at hp
      rw [h1 hp.2]
      simp [World.write, upd, hp.1]
    · rcases List.mem_cons.1 hx with hx | hx
      · have : p ∉ l.map (·.1) := by rw [show p = y.1 by rw [← hx]]; exact hn.1
        rw [h1 this]
        rw [← hx]
        simp [World.write, upd]
      · exact h2 x hx

theorem writes_target : ∀ (ws : Writes) (w : World) {A : Str} {fx : Fixed} {σ : Target.Sys},
    w.comps A = .target fx σ →
    ∃ σ', (w.writes ws).comps A = .target fx σ' ∧ σ'.bin = σ.bin := by
  intro ws
  induction ws with
  | nil => intro w A fx σ h; exact ⟨σ, h, rfl⟩
  | cons y l ih =>
    intro w A fx σ h
    have : ∃ σ1, (w.write y.1 y.2).comps A = .target fx σ1 ∧ σ1.bin = σ.bin := by
      simp only [World.write, h]
      rcases write_cases (.target fx σ) y.1 y.2 with ⟨fx', σ', e, h1, h2, h3⟩ | ⟨σ', e, h1, _⟩
      · simp only [Comp.target.injEq] at h1
        obtain ⟨rfl, rfl⟩ := h1
        exact ⟨_, h2, (t_write_parts _ _ _ _ (h3.imp (fun ⟨t, h, _⟩ => ⟨t, h⟩) id)).2.2.2.1⟩
      · simp at h1
    obtain ⟨σ1, h1, h2⟩ := this
    obtain ⟨σ2, h3, h4⟩ := ih (w.write y.1 y.2) h1
    exact ⟨σ2, h3, h4.trans h2⟩

/-- Steps that do not link leave the linked target alone. -/
theorem step_bin (fx : Fixed) (σ : Target.Sys) (e : Target.Event) (he : e.progress = true)
    (hl : ∀ ok junk, e ≠ .linkExec ok junk) : (Target.step fx σ e).bin = σ.bin := by
  cases e <;> simp only [Target.Event.progress, Bool.false_eq_true] at he <;>
    simp only [Target.step, Target.inPhase, Target.Sys.put, Target.lookAt,
          Target.pchTask, Target.pchExec, Target.objTask,
      Target.execObj, Target.addObj, Target.linkTask, Target.finishRun, Target.Sys.fail] <;>
    repeat' split
  all_goals first
    | rfl
    | exact absurd rfl (hl _ _)

theorem fail_target {fx : Fixed} {σ : Target.Sys} :
    ∃ σ', (Comp.target fx σ).fail = .target fx σ' ∧ σ'.bin = σ.bin := by
  refine ⟨_, rfl, ?_⟩
  simp only [Target.step]
  split <;> rfl

theorem holds_idle {A p : Str} {w w' : World} (h : Holds A p w) (hf : w'.files = w.files)
    (hc : w'.content = w.content)
    (hb : ∀ fx σ, w.comps A = .target fx σ → ∃ σ', w'.comps A = .target fx σ' ∧ σ'.bin = σ.bin) :
    Holds A p w' := by
  obtain ⟨fx, σ, h1, h2, h3, h4⟩ := h
  obtain ⟨σ', g1, g2⟩ := hb fx σ h1
  refine ⟨fx, σ', g1, h2, ?_, ?_⟩
  · rw [hf, g2]; exact h3
  · rw [hf, hc, g2]; exact h4

theorem holds_write {A p q : Str} {x : Option Nat} {w : World} (h : Holds A p w) (hq : q ≠ p) :
    Holds A p (w.write q x) := by
  obtain ⟨fx, σ, h1, h2, h3, h4⟩ := h
  obtain ⟨σ', g1, g2⟩ := writes_target [(q, x)] w h1
  have hf : (w.write q x).files p = w.files p := by
    simp only [World.write, upd, if_neg (Ne.symm hq)]
  refine ⟨fx, σ', g1, h2, ?_, ?_⟩
  · rw [hf, g2]; exact h3
  · rw [hf, g2]; exact h4

theorem mem_keys {p : Str} {x : Option Nat} {ws : Writes} (h : (p, x) ∈ ws) :
    p ∈ ws.map (·.1) := List.mem_map.2 ⟨_, h, rfl⟩

theorem record_other {id : Str} {e : Ev} {ws : Writes} {w : World} {p : Str} {t : Nat}
    (hp : p ∉ ws.map (·.1)) : (w.stepped id e ws).content p t = w.content p t := by
  simp only [World.stepped]
  generalize (w.comps id).step e = c
  cases c with
  | gen σ => cases e <;> rfl
  | target fx σ =>
    cases e with
    | g e => rfl
    | t e =>
      cases e <;> try rfl
      simp only [record]
      rw [if_neg]
      rintro ⟨-, hm⟩
      exact hp (mem_keys hm)

theorem holds_task {A p id : Str} {e : Ev} {ws : Writes} {w : World} (h : Holds A p w)
    (he : e.isTask = true) (hl : legal (w.comps id) e w.used ws = true)
    (hk : p ∈ ws.map (·.1) → id = A ∧ ∃ ok junk, e = .t (.linkExec ok junk)) :
    Holds A p (w.task id e ws) := by
  obtain ⟨fx, σ, h1, h2, h3, h4⟩ := h
  obtain ⟨hnd, -⟩ := legal_spec hl
  rw [task_eq]
  have hcont : ((w.stepped id e ws).writes ws).content = (w.stepped id e ws).content :=
    (writes_frame ws _).2.2.2.2.2.2.1
  obtain ⟨hat1, hat2⟩ := writes_at ws (w.stepped id e ws) p hnd
  -- the file is not written
  have key : ∀ σ', (w.stepped id e ws).comps A = .target fx σ' → σ'.bin = σ.bin →
      p ∉ ws.map (·.1) → Holds A p ((w.stepped id e ws).writes ws) := by
    intro σ' hc hb hp
    obtain ⟨σ2, g1, g2⟩ := writes_target ws _ hc
    refine ⟨fx, σ2, g1, h2, ?_, ?_⟩
    · rw [hat1 hp, g2, hb]; exact h3
    · rw [hat1 hp, g2, hb, hcont]
      intro t ht
      obtain ⟨h5, h6⟩ := h4 t ht
      refine ⟨h5, ?_⟩
      rw [← h6]
      exact record_other hp
  by_cases hid : id = A
  · subst hid
    cases e with
    | g e =>
      refine key σ ?_ rfl fun hp => ?_
      · simp only [World.stepped, if_true, h1, Comp.step]
      · obtain ⟨-, ok, junk, he⟩ := hk hp; simp at he
    | t e =>
      have hstep : (w.stepped id (.t e) ws).comps id = .target fx (Target.step fx σ e) := by
        simp only [World.stepped, if_true, h1, Comp.step]
      by_cases hle : ∃ ok junk, e = .linkExec ok junk
      · obtain ⟨ok, junk, rfl⟩ := hle
        cases hr : σ.run with
        | none =>
          have hb : (Target.step fx σ (.linkExec ok junk)).bin = σ.bin := by
            simp [Target.step, Target.inPhase, hr]
          refine key _ hstep hb fun hp => ?_
          obtain ⟨x, hx, rfl⟩ := List.mem_map.1 hp
          have := ((legal_spec hl).2 x hx).1
          rw [h1] at this
          simp [mayWrite, hr] at this
        | some r =>
          by_cases hph : r.phase = .linkRun
          · have hlw : linkWrites fx σ ok junk ws = true := by
              rw [h1] at hl
              simp only [legal, Bool.and_eq_true] at hl
              exact hl.2
            simp only [linkWrites, hr, hph, if_true, h2] at hlw
            -- a new version of the file
            have written : ∀ b, (Target.step fx σ (.linkExec ok junk)).bin = some b →
                (ws.any fun x => x.1 = p && x.2.isSome) = true →
                Holds id p ((w.stepped id (.t (.linkExec ok junk)) ws).writes ws) := by
              intro b hb hw
              simp only [List.any_eq_true, Bool.and_eq_true, decide_eq_true_eq] at hw
              obtain ⟨⟨q, x⟩, hx, rfl, hsome⟩ := hw
              obtain ⟨t, rfl⟩ := Option.isSome_iff_exists.1 hsome
              obtain ⟨σ2, g1, g2⟩ := writes_target ws _ hstep
              have hf := hat2 _ hx
              refine ⟨fx, σ2, g1, h2, ?_, ?_⟩
              · rw [hf]; simp
              · rw [hf, g2, hb, hcont]
                intro t' ht'
                simp only [Option.some.injEq] at ht'
                subst ht'
                refine ⟨rfl, ?_⟩
                simp only [World.stepped, h1, Comp.step, record, h2, true_and, hx, if_true, hb]
            have hstep' : Target.step fx σ (.linkExec ok junk)
                = Target.linkExec fx σ r ok junk := by
              simp only [Target.step, Target.inPhase, hr, hph, if_true]
            cases ok with
            | true =>
              refine written (Target.makeBin fx σ r.cfg r.order) ?_ hlw
              rw [hstep']
              simp only [Target.linkExec, if_true]
            | false =>
              cases junk with
              | none =>
                refine key _ hstep ?_ ?_
                · rw [hstep']; rfl
                · simp only [List.all_eq_true, decide_eq_true_eq] at hlw
                  intro hp
                  obtain ⟨x, hx, e1⟩ := List.mem_map.1 hp
                  have := hlw x hx
                  simp [e1] at this
              | some junk =>
                cases junk with
                | some b =>
                  refine written b ?_ hlw
                  rw [hstep']
                  rfl
                | none =>
                  simp only [List.any_eq_true, Bool.and_eq_true, decide_eq_true_eq] at hlw
                  obtain ⟨⟨q, x⟩, hx, rfl, hnone⟩ := hlw
                  simp only [Option.isNone_iff_eq_none] at hnone
                  subst hnone
                  obtain ⟨σ2, g1, g2⟩ := writes_target ws _ hstep
                  have hf := hat2 _ hx
                  refine ⟨fx, σ2, g1, h2, fun _ => ?_, ?_⟩
                  · rw [g2, hstep']; rfl
                  · rw [hf]; simp
          · have hb : (Target.step fx σ (.linkExec ok junk)).bin = σ.bin := by
              simp [Target.step, Target.inPhase, hr, hph]
            refine key _ hstep hb fun hp => ?_
            obtain ⟨x, hx, rfl⟩ := List.mem_map.1 hp
            have := ((legal_spec hl).2 x hx).1
            rw [h1] at this
            simp [mayWrite, hr, hph] at this
      · refine key _ hstep (step_bin fx σ e he fun ok junk h => hle ⟨ok, junk, h⟩) fun hp => ?_
        obtain ⟨-, ok, junk, he⟩ := hk hp
        simp only [Ev.t.injEq] at he
        exact hle ⟨ok, junk, he⟩
  · have hp : p ∉ ws.map (·.1) := fun hp => hid (hk hp).1
    have hA : A ≠ id := fun h => hid h.symm
    by_cases hfail : (w.ok && !((w.comps id).step e).ok) = true
    · obtain ⟨σ', g1, g2⟩ := fail_target (fx := fx) (σ := σ)
      refine key σ' ?_ g2 hp
      simp only [World.stepped, if_neg hA, hfail, if_true, h1, g1]
    · refine key σ ?_ rfl hp
      simp only [World.stepped, if_neg hA, hfail, Bool.false_eq_true, if_false, h1]

theorem start_target {fx : Fixed} {σ : Target.Sys} {s : Setup} :
    ∃ σ', (Comp.target fx σ).start s = .target fx σ' ∧ σ'.bin = σ.bin := by
  cases s with
  | gen c => exact ⟨σ, rfl, rfl⟩
  | target c o =>
    refine ⟨_, rfl, ?_⟩
    simp only [Target.step, Target.startRun]
    repeat' split
    all_goals rfl

theorem kill_target {fx : Fixed} {σ : Target.Sys} {o : List Str} {n : Option Nat} :
    ∃ σ', (Comp.target fx σ).kill o n = .target fx σ' ∧ σ'.bin = σ.bin := by
  refine ⟨_, rfl, ?_⟩
  simp only [Target.step, Target.crashRun]
  repeat' split
  all_goals rfl

theorem holds_step {A p : Str} {w : World} (h : Holds A p w) {e : WEvent} (hk : Keeps A p w e) :
    Holds A p (w.step e) := by
  cases e with
  | edit q t =>
    · exact holds_idle (holds_write (x := some t) h hk) rfl rfl fun fx σ hc => ⟨σ, hc, rfl⟩
  | delete q => exact holds_idle (holds_write (x := none) h hk) rfl rfl fun fx σ hc => ⟨σ, hc, rfl⟩
  | dropState id =>
    simp only [World.step]
    split
    · exact h
    · refine holds_idle h rfl rfl fun fx σ hc => ?_
      simp only [upd]
      split
      · rename_i e; subst e
        rw [hc]
        refine ⟨_, rfl, ?_⟩
        simp only [Target.step]
        split <;> rfl
      · exact ⟨σ, hc, rfl⟩
  | launch g s =>
    simp only [World.step]
    split
    · refine holds_idle h rfl rfl fun fx σ hc => ?_
      simp only
      split
      · rw [hc]; exact start_target
      · exact ⟨σ, hc, rfl⟩
    · exact h
  | «begin» id =>
    simp only [World.step]
    split
    · exact holds_idle h rfl rfl fun fx σ hc => ⟨σ, hc, rfl⟩
    · exact h
  | task id e ws =>
    by_cases hs : w.step (.task id e ws) = w
    · rw [hs]; exact h
    · have hk' := hk hs
      revert hs
      simp only [World.step]
      split
      · rename_i hg
        simp only [Bool.and_eq_true, decide_eq_true_eq] at hg
        obtain ⟨⟨-, he⟩, hl⟩ := hg
        intro _
        exact holds_task h he hl hk'
      · intro _; exact h
  | look id e =>
    simp only [World.step]
    split
    · rename_i hg
      simp only [Bool.and_eq_true, decide_eq_true_eq] at hg
      refine holds_idle h rfl rfl fun fx σ hc => ?_
      simp only [upd]
      split
      · rename_i e'; subst e'
        rw [hc]
        rcases look_cases (.target fx σ) hg.2 with he | ⟨fx', σ', v, h1, he⟩ | ⟨σ', v, h1, he⟩
        · exact ⟨σ, he, rfl⟩
        · simp only [Comp.target.injEq] at h1
          obtain ⟨rfl, rfl⟩ := h1
          exact ⟨_, he, rfl⟩
        · simp at h1
      · exact ⟨σ, hc, rfl⟩
    · exact h
  | join =>
    simp only [World.step]
    split
    · refine holds_idle h rfl rfl fun fx σ hc => ?_
      simp only
      split
      · rw [hc]; exact kill_target
      · exact ⟨σ, hc, rfl⟩
    · exact h
  | kill order written =>
    simp only [World.step]
    split
    · refine holds_idle h rfl rfl fun fx σ hc => ?_
      simp only
      split
      · rw [hc]; exact kill_target
      · exact ⟨σ, hc, rfl⟩
    · exact h

theorem holds_steps {A p : Str} : ∀ (evs : List WEvent) (w : World), Holds A p w →
    AllKeeps A p w evs → Holds A p (w.steps evs) := by
  intro evs
  induction evs with
  | nil => intro w h _; exact h
  | cons e l ih => intro w h ha; exact ih _ (holds_step h ha.1) ha.2

theorem holds_init {A : Str} {kinds : Str → Kind} {fx : Fixed} (h : kinds A = .target fx) :
    Holds A (outputPath fx) (World.init kinds) :=
  ⟨fx, Target.Sys.init, by simp [World.init, h, Kind.init], rfl, fun _ => rfl, by simp [World.init]⟩

end Verif.Reg
