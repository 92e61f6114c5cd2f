import Verif.Target.EndSteps
import Verif.Target.Local

/-! # Disciplined histories are allowed -/

namespace Verif.Target
open Verif Verif.Command Verif.Schema Verif.Json

/-- The event belongs to the inside of a run, or only changes files. -/
def Event.inner : Event → Bool
  | .dropState | .start _ _ | .finish _ | .crash _ => false
  | _ => true

theorem step_frame (fx : Fixed) (σ : Sys) (e : Event) (h : e.inner = true) :
    (step fx σ e).stateFile = σ.stateFile ∧ (step fx σ e).saved = σ.saved ∧
    (step fx σ e).lost = σ.lost ∧ (step fx σ e).done = σ.done ∧
    (step fx σ e).run.map (·.cfg) = σ.run.map (·.cfg) := by
  cases e <;> simp only [Event.inner, Bool.false_eq_true] at h
  all_goals simp only [step, inPhase, Sys.put, lookAt, pchTask, pchExec, objTask, execObj, addObj, linkTask, linkExec]
  all_goals repeat' split
  all_goals first | exact ⟨rfl, rfl, rfl, rfl, rfl⟩ | skip
  all_goals first
    | (refine ⟨rfl, rfl, rfl, rfl, ?_⟩; simp [*]; done)
    | simp

theorem steps_append (fx : Fixed) (σ : Sys) (a b : List Event) :
    steps fx σ (a ++ b) = steps fx (steps fx σ a) b := by simp [steps]

theorem allAllowed_append (fx : Fixed) (a b : List Event) : ∀ σ,
    AllAllowed fx σ (a ++ b) ↔ AllAllowed fx σ a ∧ AllAllowed fx (steps fx σ a) b := by
  induction a with
  | nil => intro σ; simp [AllAllowed, steps]
  | cons e a ih =>
    intro σ
    simp only [List.cons_append, AllAllowed, ih, and_assoc]
    rfl

structure KInv (fx : Fixed) (K : TargetSchema → Prop) (σ : Sys) : Prop where
  inv : SysInv fx σ
  saved : ∀ s, loadTargetFile σ.stateFile = some s → ∃ k, K k ∧ SameCfg σ.saved k
  lost : ∀ l ∈ σ.lost, K l
  run : ∀ r, σ.run = some r → K r.cfg
  single : (∀ a b, K a → K b → a = b) ∨ σ.lost = []

theorem ChangesObj.congr {s a b : TargetSchema} (h : SameCfg a b) (hc : ChangesObj s a) :
    ChangesObj s b := by
  rcases hc with h1 | ⟨h1, h2⟩
  · exact .inl fun e => h1 (e.trans h.sameObj.symm)
  · exact .inr ⟨fun e => h1 (h.pchs_nil.2 e), fun e => h2 (e.trans h.samePch.symm)⟩

theorem ChangesLink.congr {s a b : TargetSchema} (h : SameCfg a b) (hc : ChangesLink s a) :
    ChangesLink s b := by
  rcases hc with h1 | h1
  · exact .inl (h1.congr h)
  · exact .inr fun e => h1 (e.trans h.sameLink.symm)

theorem startOk_of {fx : Fixed} {K : TargetSchema → Prop} {σ : Sys} (hf : Family fx K)
    (h : KInv fx K σ) {c : TargetSchema} (hc : K c) : StartOk fx σ c where
  nodup := hf.nodup c hc
  inj := hf.inj c c hc hc
  injStored := by
    intro s hs p hp q hq
    obtain ⟨k, hk, hsk⟩ := h.saved s hs
    have hst := h.inv.stored s hs
    refine hf.inj c k hc hk p hp q ?_
    obtain ⟨i, hi, rfl⟩ := mem_paths.1 hq
    rw [← hsk.sources]
    exact mem_paths.2 ⟨i, (hst.sub i hi).1, rfl⟩
  keepPch := by
    intro s hs l hl hn
    rcases h.single with h1 | h1
    · rw [h1 l c (h.lost l hl) hc]; exact id
    · rw [h1] at hl; simp at hl
  keepObj := by
    intro s hs l hl
    rcases h.single with h1 | h1
    · rw [h1 l c (h.lost l hl) hc]; exact id
    · rw [h1] at hl; simp at hl
  keepLink := by
    intro s hs l hl
    rcases h.single with h1 | h1
    · rw [h1 l c (h.lost l hl) hc]; exact id
    · rw [h1] at hl; simp at hl
  pchKept := by
    intro s hs hn hcn
    obtain ⟨k, hk, hsk⟩ := h.saved s hs
    have hst := h.inv.stored s hs
    have hkn : k.pchs ≠ [] := by
      rcases hst.pchOr with h1 | h1
      · exact fun e => h1.2.2 (hsk.pchs_nil.2 e)
      · exact absurd h1.2 hn
    intro hso
    exact hf.pchKept k c hk hc hkn hcn (hsk.sameObj.symm.trans (hst.sameObj.symm.trans hso))
  pchLang := by
    intro s hs hn hcn hsp
    obtain ⟨k, hk, hsk⟩ := h.saved s hs
    have hst := h.inv.stored s hs
    rcases hst.pchOr with h1 | h1
    · have hkn : k.pchs ≠ [] := fun e => h1.2.2 (hsk.pchs_nil.2 e)
      have h2 : SamePch s σ.saved := by
        have e := hst.agree
        refine ⟨?_, ?_, ?_, ?_, ?_, ?_, ?_, ?_⟩ <;> first | (rw [h1.2.1]) | (rw [e]; rfl)
      rw [hsk.containsCpp fx]
      exact hf.pchLang k c hk hc hkn hcn (hsk.samePch.symm.trans (h2.symm.trans hsp))
    · exact absurd h1.2 hn

theorem KInv.inner {fx : Fixed} {K : TargetSchema → Prop} {σ : Sys} {e : Event} (h : KInv fx K σ)
    (he : e.inner = true) (hi : SysInv fx (step fx σ e)) : KInv fx K (step fx σ e) := by
  obtain ⟨h1, h2, h3, _, h5⟩ := step_frame fx σ e he
  refine ⟨hi, ?_, ?_, ?_, ?_⟩
  · rw [h1, h2]; exact h.saved
  · rw [h3]; exact h.lost
  · intro r hr
    rw [hr] at h5
    simp only [Option.map_some] at h5
    obtain ⟨r0, hr0, e0⟩ := Option.map_eq_some_iff.1 h5.symm
    rw [← e0]; exact h.run r0 hr0
  · rw [h3]; exact h.single

theorem KInv.finish {fx : Fixed} {K : TargetSchema → Prop} {σ : Sys} {b : Bool} (h : KInv fx K σ)
    (hi : SysInv fx (step fx σ (.finish b)))
    (hl : (∀ a b, K a → K b → a = b) ∨ Entry.storeFailed ∉ (step fx σ (.finish b)).log) :
    KInv fx K (step fx σ (.finish b)) := by
  revert hi hl
  simp only [step, inPhase]
  split
  · rename_i r hr
    split
    · have hk := h.run r hr
      have hs := (h.inv.run r hr).same
      simp only [finishRun]
      split
      · cases htx : targetText r.toStore with
        | none =>
          simp only [storeText, Sys.fail]
          intro hi hl
          have hone : ∀ a b, K a → K b → a = b := hl.elim id fun e => absurd (by simp) e
          exact ⟨hi, h.saved, by simpa [or_imp, forall_and] using ⟨h.lost, hk⟩, by simp, .inl hone⟩
        | some t =>
          cases b with
          | false =>
            simp only [storeText, Sys.fail, Bool.false_eq_true, if_false]
            intro hi hl
            have hone : ∀ a b, K a → K b → a = b := hl.elim id fun e => absurd (by simp) e
            exact ⟨hi, h.saved, by simpa [or_imp, forall_and] using ⟨h.lost, hk⟩, by simp, .inl hone⟩
          | true =>
            simp only [storeText, if_true]
            intro hi _
            exact ⟨hi, fun _ _ => ⟨_, hk, hs⟩, by simp, by simp, .inr rfl⟩
      · intro hi _
        exact ⟨hi, h.saved, h.lost, by simp, h.single⟩
    · intro _ _; exact h
  · intro _ _; exact h

theorem KInv.crash {fx : Fixed} {K : TargetSchema → Prop} {σ : Sys} {w : Option Nat} (h : KInv fx K σ)
    (hi : SysInv fx (step fx σ (.crash w))) (hone : ∀ a b, K a → K b → a = b) :
    KInv fx K (step fx σ (.crash w)) := by
  revert hi
  simp only [step]
  split
  · rename_i r hr
    have hk := h.run r hr
    have hs := (h.inv.run r hr).same
    have hlost : ∀ l ∈ (if r.dirty then σ.lost ++ [r.cfg] else σ.lost), K l := by
      intro l hl
      split at hl
      · rcases List.mem_append.1 hl with hl | hl
        · exact h.lost l hl
        · simp only [List.mem_singleton] at hl; rw [hl]; exact hk
      · exact h.lost l hl
    simp only [crashRun]
    split
    · intro hi; exact ⟨hi, h.saved, hlost, by simp, .inl hone⟩
    · split
      · rename_i htx
        split
        · rename_i n _ _ _ text hph hdirty hn
          intro hi
          refine ⟨hi, ?_, by simpa [hdirty] using hlost, by simp, .inl hone⟩
          intro s hs2
          have hnone : loadTargetFile (some (text.take n)) = none := by
            simp only [loadTargetFile, loadFile, Option.bind_some]
            refine loadTarget_prefix htx (List.take_append_drop n text).symm ?_
            intro e
            have := congrArg List.length e
            simp at this
            omega
          rw [hnone] at hs2; simp at hs2
        · intro hi
          exact ⟨hi, fun _ _ => ⟨_, hk, hs⟩, by simp, by simp, .inl hone⟩
      · intro hi; exact ⟨hi, h.saved, hlost, by simp, .inl hone⟩
  · intro _; exact h

theorem KInv.step {fx : Fixed} {K : TargetSchema → Prop} {σ : Sys} {e : Event}
    (hlc : CompileLocal fx) (hlp : PchLocal fx) (hf : Family fx K) (h : KInv fx K σ)
    (h1 : ∀ c o, e = .start c o → K c) (h2 : e.tampers = false)
    (h0 : ∀ p t, e = .edit p t → t ∉ σ.used p)
    (h3 : ∀ p t, e = .edit p t → σ.run = none ∨ ∀ c, K c → c.pchs ≠ [] → p ∉ paths c.headers)
    (h4 : (∀ a b, K a → K b → a = b) ∨ ((∀ w, e ≠ .crash w) ∧ ∀ b, e = .finish b →
      Entry.storeFailed ∉ (Target.step fx σ (.finish b)).log)) :
    Allowed fx σ e ∧ KInv fx K (Target.step fx σ e) := by
  have ha : Allowed fx σ e := by
    cases e <;> simp only [Event.tampers, Bool.true_eq_false] at h2 <;> try exact trivial
    · rename_i p t
      refine ⟨h0 p t rfl, fun r hr hp _ => ?_⟩
      rcases h3 p t rfl with h5 | h5
      · rw [hr] at h5; simp at h5
      · exact h5 _ (h.run r hr) hp
    · rename_i c o
      exact fun _ => startOk_of hf h (h1 c o rfl)
  have hi := inv_step hlc hlp h.inv e ha
  refine ⟨ha, ?_⟩
  by_cases hin : e.inner = true
  · exact h.inner hin hi
  · cases e <;> simp only [Event.inner, not_true_eq_false] at hin
    · -- dropState
      revert hi
      simp only [Target.step]
      split
      · intro hi
        exact ⟨hi, by simp [loadTargetFile, loadFile], h.lost, h.run, h.single⟩
      · intro _; exact h
    · rename_i c o
      revert hi
      simp only [Target.step, startRun]
      split
      · intro _; exact h
      · split
        · intro hi
          refine ⟨hi, h.saved, h.lost, ?_, h.single⟩
          intro r hr
          simp only [Option.some.injEq] at hr
          rw [← hr]; exact h1 c o rfl
        · intro _; exact h
    · rename_i b
      exact h.finish hi (h4.imp id fun h5 => h5.2 b rfl)
    · rename_i w
      rcases h4 with h5 | h5
      · exact h.crash hi h5
      · exact absurd rfl (h5.1 w)

theorem KInv.init (fx : Fixed) (K : TargetSchema → Prop) : KInv fx K Sys.init :=
  ⟨inv_init fx, by simp [Sys.init, loadTargetFile, loadFile], by simp [Sys.init], by simp [Sys.init],
    .inr rfl⟩

theorem Disciplined.prefix {fx : Fixed} {K : TargetSchema → Prop} {a b : List Event}
    (h : Disciplined fx K (a ++ b)) : Disciplined fx K a where
  starts := fun c o hm => h.starts c o (List.mem_append_left _ hm)
  untouched := fun e hm => h.untouched e (List.mem_append_left _ hm)
  stamps := fun pre p t post he => h.stamps pre p t (post ++ b) (by rw [he]; simp)
  headers := fun pre p t post he => h.headers pre p t (post ++ b) (by rw [he]; simp)
  losses := by
    rcases h.losses with h1 | ⟨h1, h2⟩
    · exact .inl h1
    · exact .inr ⟨fun w hm => h1 w (List.mem_append_left _ hm),
        fun pre c post he => h2 pre c (post ++ b) (by rw [he]; simp)⟩

theorem used_step (fx : Fixed) (σ : Sys) (e : Event) (p : Str) (t : Nat) :
    t ∈ (Target.step fx σ e).used p ↔ t ∈ σ.used p ∨ e = .edit p t := by
  cases e
  case edit q u =>
    simp only [Target.step, Sys.put, upd]
    by_cases h : p = q
    · subst h
      simp only [if_pos, List.mem_cons, Event.edit.injEq, true_and]
      constructor
      · rintro (h | h)
        · exact .inr h.symm
        · exact .inl h
      · rintro (h | h)
        · exact .inr h
        · exact .inl h.symm
    · simp [if_neg h, Ne.symm h]
  all_goals simp only [Target.step, inPhase, Sys.put, lookAt, pchTask, pchExec, objTask, execObj, addObj, linkTask,
    linkExec, finishRun, crashRun, startRun]
  all_goals repeat' split
  all_goals simp [Sys.fail]

/-- The stamps a file had are those of its edits. -/
theorem used_steps (fx : Fixed) (evs : List Event) {p : Str} {t : Nat} :
    t ∈ (steps fx Sys.init evs).used p ↔ Event.edit p t ∈ evs := by
  suffices h : ∀ σ, t ∈ (steps fx σ evs).used p ↔ t ∈ σ.used p ∨ Event.edit p t ∈ evs by
    rw [h]; simp [Sys.init]
  induction evs with
  | nil => intro σ; simp [steps]
  | cons e l ih =>
    intro σ
    show t ∈ (steps fx (Target.step fx σ e) l).used p ↔ _
    rw [ih, used_step]
    simp only [List.mem_cons, or_assoc, eq_comm]

theorem kInv_steps {fx : Fixed} {K : TargetSchema → Prop} (hlc : CompileLocal fx)
    (hlp : PchLocal fx) (hf : Family fx K) (n : Nat) : ∀ evs : List Event, evs.length = n →
    Disciplined fx K evs → AllAllowed fx Sys.init evs ∧ KInv fx K (steps fx Sys.init evs) := by
  induction n with
  | zero =>
    intro evs hl _
    rw [List.length_eq_zero_iff.1 hl]
    exact ⟨trivial, KInv.init fx K⟩
  | succ n ih =>
    intro evs hl hd
    rcases List.eq_nil_or_concat evs with rfl | ⟨pre, e, rfl⟩
    · simp at hl
    · simp only [List.concat_eq_append] at hl hd ⊢
      obtain ⟨h1, h2⟩ := ih pre (by simpa using hl) hd.prefix
      obtain ⟨h3, h4⟩ := h2.step (e := e) hlc hlp hf (fun c o he => hd.starts c o (by simp [he]))
        (hd.untouched e (by simp))
        (fun p t he hu => hd.stamps pre p t [] (by rw [he]) ((used_steps fx pre).1 hu)) (fun p t he => hd.headers pre p t [] (by rw [he]))
        (hd.losses.imp id fun ⟨h5, h6⟩ => ⟨fun w he => h5 w (by simp [he]), fun b he => by
          have := h6 pre b [] (by rw [he])
          rw [steps_append] at this
          exact this⟩)
      refine ⟨(allAllowed_append fx pre [e] _).2 ⟨h1, h3, trivial⟩, ?_⟩
      rw [steps_append]
      exact h4

theorem Disciplined.inv {fx : Fixed} {K : TargetSchema → Prop} {evs : List Event}
    (h : Disciplined fx K evs) (hsh : Shipped fx) (hf : Family fx K) :
    AllAllowed fx Sys.init evs ∧ KInv fx K (steps fx Sys.init evs) :=
  kInv_steps hsh.compileLocal hsh.pchLocal hf _ evs rfl h

end Verif.Target
