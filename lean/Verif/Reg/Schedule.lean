import Verif.Reg.Halt
import Verif.Reg.Props

/-! # Termination of builds of several builders -/

namespace Verif.Reg
open Verif Verif.Schema
open Verif.Target (Fixed BinArt objPath outputPath upd paths Clean)

/-- Steps that the tasks of a builder can still make at most. -/
def Comp.remaining : Comp → Nat
  | .target _ σ => Target.remaining σ
  | .gen σ => Generator.remaining σ

theorem remaining_step (c : Comp) (e : Ev) (he : e.isTask = true) :
    c.step e = c ∨ (c.step e).remaining < c.remaining := by
  cases c <;> cases e
  · rename_i fx σ e
    rcases Target.progress_step fx σ e he with h | h
    · exact .inl (by simp [Comp.step, h])
    · exact .inr h
  · exact .inl rfl
  · exact .inl rfl
  · rename_i σ e
    rcases Generator.progress_step σ e he with h | h
    · exact .inl (by simp [Comp.step, h])
    · exact .inr h

theorem remaining_fail (c : Comp) : c.fail.remaining = c.remaining := by
  cases c with
  | target fx σ =>
    simp only [Comp.fail, Comp.step, Target.step]
    split <;> rfl
  | gen σ =>
    simp only [Comp.fail, Comp.step, Generator.step]
    split <;> rfl

theorem remaining_write (c : Comp) (p : Str) (x : Option Nat) :
    (c.write p x).remaining = c.remaining := by
  cases x <;> cases c <;> rfl

theorem remaining_look (c : Comp) {e : Ev} (he : e.isLook = true) :
    (c.step e).remaining = c.remaining := by
  rcases look_cases c he with he | ⟨fx, σ, v, rfl, he⟩ | ⟨σ, v, rfl, he⟩ <;> rw [he] <;> rfl

/-- A step that writes files changes the state of the builder. -/
theorem writes_effective (c : Comp) (e : Ev) (he : c.step e = c) : mayWrite c e = [] := by
  cases c with
  | target fx σ =>
    cases e with
    | g e => rfl
    | t e =>
      simp only [Comp.step, Comp.target.injEq, true_and] at he
      cases hr : σ.run with
      | none => cases e <;> simp [mayWrite, hr]
      | some r =>
        have hrun : (Target.step fx σ e).run = some r := by rw [he]; exact hr
        revert hrun
        cases e <;> simp only [mayWrite, hr] <;> try (intro _; trivial)
        · split
          · rename_i hp
            simp only [Target.step, Target.inPhase, hr, hp, if_true, Target.pchExec]
            split
            all_goals (intro h; have := congrArg (Option.map Target.Run.phase) h; simp [hp] at this)
          · intro _; trivial
        · rename_i k ok junk
          split
          · rename_i hp
            split
            · rename_i i hi
              simp only [Target.step, Target.inPhase, hr, hp, if_true, Target.execObj, hi]
              have hlt : k < r.pending.length := by
                rw [List.getElem?_eq_some_iff] at hi; exact hi.1
              split
              all_goals
                intro h
                have := congrArg (Option.map fun r => r.pending.length) h
                simp only [Option.map_some, Option.some.injEq, List.length_eraseIdx, if_pos hlt] at this
                omega
            · intro _; trivial
          · intro _; trivial
        · split
          · rename_i hp
            simp only [Target.step, Target.inPhase, hr, hp, if_true, Target.linkExec]
            split
            all_goals (intro h; have := congrArg (Option.map Target.Run.phase) h; simp [hp] at this)
          · intro _; trivial
  | gen σ =>
    cases e with
    | t e => rfl
    | g e =>
      simp only [Comp.step, Comp.gen.injEq] at he
      cases hr : σ.run with
      | none => cases e <;> simp [mayWrite, hr]
      | some r =>
        have hrun : (Generator.step σ e).run = some r := by rw [he]; exact hr
        revert hrun
        cases e <;> simp only [mayWrite, hr] <;> try (intro _; trivial)
        rename_i id ok
        split
        · rename_i i hf hs
          simp only [Generator.step, Generator.inRun, hr, Generator.callRun, hf, hs]
          split
          all_goals
            intro h
            have := congrArg (Option.map fun r => r.status id) h
            simp [hs, Generator.Run.set, upd] at this
        · intro _; trivial

/-- The executor acts. -/
def WEvent.internal : WEvent → Bool
  | .begin _ | .task _ _ _ | .join => true
  | _ => false

/-- Steps that a build can still make at most. -/
def World.remaining (w : World) : Nat :=
  if w.active then
    (w.graph.ids.map fun j =>
      (w.comps j).remaining + if j ∈ w.begun then 0 else 1).sum + 1
  else 0

theorem sum_le {l : List Str} {f g : Str → Nat} (h : ∀ x, g x ≤ f x) :
    (l.map g).sum ≤ (l.map f).sum := by
  induction l with
  | nil => simp
  | cons x l ih => have := h x; simp only [List.map_cons, List.sum_cons]; omega

theorem writes_remaining : ∀ (ws : Writes) (w : World), (w.writes ws).remaining = w.remaining := by
  intro ws
  induction ws with
  | nil => intro w; rfl
  | cons x l ih =>
    intro w
    simp only [World.writes, List.foldl_cons] at ih ⊢
    rw [ih]
    simp only [World.remaining, World.write, remaining_write]
    rfl

theorem task_same {w : World} (h : BInv w) {id : Str} {e : Ev} (ha : w.active = true)
    (hr : (w.comps id).running = true) (he : (w.comps id).step e = w.comps id) :
    w.task id e [] = w := by
  have hag := h.agree ha id hr
  obtain ⟨files, used, comps, active, graph, setup, begun, ok, result, after, calm, content⟩ := w
  simp only at he hag ha
  simp only [World.task, World.writes, List.foldl_nil, he, hag, Bool.and_not_self, Bool.and_self,
    World.mk.injEq, true_and, Bool.false_eq_true, if_false, and_true]
  refine ⟨?_, ?_⟩
  · funext j
    split
    · rename_i e'; rw [e']
    · rfl
  · unfold record
    split
    · funext p t; simp
    · rfl

theorem remaining_internal {w : World} (h : BInv w) {e : WEvent} (he : e.internal = true) :
    w.step e = w ∨ (w.step e).remaining < w.remaining := by
  cases e <;> simp only [WEvent.internal, Bool.false_eq_true] at he
  · rename_i id
    simp only [World.step]
    split
    · right
      rename_i hg
      simp only [World.ready, Bool.and_eq_true, decide_eq_true_eq] at hg
      obtain ⟨ha, ⟨hi, hb⟩, -⟩ := hg
      simp only [World.remaining, ha, if_true]
      have := Generator.sum_lt (l := w.graph.ids) (a := id)
        (f := fun j => (w.comps j).remaining + if j ∈ w.begun then 0 else 1)
        (g := fun j => (w.comps j).remaining + if j ∈ w.begun ++ [id] then 0 else 1)
        (by
          intro x
          simp only [List.mem_append, List.mem_singleton]
          by_cases hx : x ∈ w.begun
          · simp [hx]
          · simp only [hx, if_false]; split <;> omega) hi
        (by simp [hb])
      omega
    · exact .inl rfl
  · rename_i id e ws
    simp only [World.step]
    split
    · rename_i hg
      simp only [Bool.and_eq_true, decide_eq_true_eq] at hg
      obtain ⟨⟨⟨⟨ha, hb⟩, hr⟩, he⟩, hl⟩ := hg
      rcases remaining_step (w.comps id) e he with hs | hs
      · left
        have hm := writes_effective _ _ hs
        have : ws = [] := by
          cases ws with
          | nil => rfl
          | cons x l =>
            have := ((legal_spec hl).2 x (by simp)).1
            rw [hm] at this
            simp at this
        rw [this]
        exact task_same h ha hr hs
      · right
        rw [task_eq, writes_remaining]
        simp only [World.remaining, ha, World.stepped, if_true]
        have := Generator.sum_lt (l := w.graph.ids) (a := id)
          (f := fun j => (w.comps j).remaining + if j ∈ w.begun then 0 else 1)
          (g := fun j => (if j = id then (w.comps id).step e
              else if w.ok && !((w.comps id).step e).ok then (w.comps j).fail
              else w.comps j).remaining + if j ∈ w.begun then 0 else 1)
          (by
            intro x
            split
            · rename_i e'; subst e'; omega
            · split
              · rw [remaining_fail]; omega
              · omega) (h.sub _ hb)
          (by simp only [if_true]; omega)
        omega
    · exact .inl rfl
  · simp only [World.step]
    split
    · right
      rename_i hg
      simp only [Bool.and_eq_true] at hg
      simp [World.remaining, hg.1]
    · exact .inl rfl

/-- Other events do not prolong a build. -/
theorem remaining_other {w : World} {e : WEvent} (hi : e.internal = false)
    (hl : ∀ g s, e ≠ .launch g s) : (w.step e).remaining ≤ w.remaining := by
  cases e with
  | edit p t =>
    simp only [World.step, World.remaining, World.write, remaining_write]
    exact Nat.le_refl _
  | delete p =>
    simp only [World.step, World.remaining, World.write, remaining_write]
    exact Nat.le_refl _
  | dropState id =>
    simp only [World.step]
    split
    · exact Nat.le_refl _
    · rename_i ha
      simp [World.remaining, ha]
  | launch g s => exact absurd rfl (hl g s)
  | «begin» id => simp [WEvent.internal] at hi
  | task id e ws => simp [WEvent.internal] at hi
  | join => simp [WEvent.internal] at hi
  | look id e =>
    simp only [World.step]
    split
    · rename_i hg
      simp only [Bool.and_eq_true, decide_eq_true_eq] at hg
      have : ∀ j, (upd w.comps id ((w.comps id).step e) j).remaining = (w.comps j).remaining := by
        intro j
        simp only [upd]
        split
        · rename_i e'; subst e'; exact remaining_look _ hg.2
        · rfl
      simp only [World.remaining, this]
      exact Nat.le_refl _
    · exact Nat.le_refl _
  | kill o n =>
    simp only [World.step]
    split
    · simp [World.remaining]
    · exact Nat.le_refl _

theorem fresh (l : List Nat) : ∃ t, t ∉ l := by
  have : ∃ n, ∀ x ∈ l, x < n := by
    induction l with
    | nil => exact ⟨0, by simp⟩
    | cons a l ih =>
      obtain ⟨n, hn⟩ := ih
      refine ⟨n + a + 1, fun x hx => ?_⟩
      rcases List.mem_cons.1 hx with rfl | hx
      · omega
      · have := hn x hx; omega
  obtain ⟨n, hn⟩ := this
  exact ⟨n, fun h => Nat.lt_irrefl _ (hn n h)⟩

/-- A builder that runs can make a step, whatever stamps are used. -/
theorem comp_progress (c : Comp) (used : Str → List Nat) (h : c.running = true) :
    ∃ e ws, e.isTask = true ∧ legal c e used ws = true ∧ (c.step e).remaining < c.remaining := by
  cases c with
  | target fx σ =>
    obtain ⟨r, hr⟩ := Option.isSome_iff_exists.1 h
    have he := Target.next_effective fx σ r hr
    have hp := Target.next_progress r
    have hd := (Target.progress_step fx σ _ hp).resolve_left he
    by_cases hl : ∃ ok junk, Target.nextEvent r = .linkExec ok junk
    · obtain ⟨t, ht⟩ := fresh (used (outputPath fx))
      have hph : r.phase = .linkRun ∧ Target.nextEvent r = .linkExec true none := by
        obtain ⟨ok, junk, hl⟩ := hl
        cases hp : r.phase <;> simp only [Target.nextEvent, hp] at hl ⊢
        case linkRun => exact ⟨trivial, trivial⟩
        case objRun =>
          split at hl
          · cases hl
          · split at hl <;> cases hl
        all_goals cases hl
      refine ⟨.t (Target.nextEvent r), [(outputPath fx, some t)], hp, ?_, hd⟩
      rw [hph.2]
      simp [legal, mayWrite, hr, hph.1, linkFiles, ht, linkWrites]
    · refine ⟨.t (Target.nextEvent r), [], hp, ?_, hd⟩
      unfold legal
      split
      · rename_i heq1 heq2
        simp only [Ev.t.injEq] at heq2
        exact absurd ⟨_, _, heq2⟩ hl
      · simp
  | gen σ =>
    obtain ⟨r, hr⟩ := Option.isSome_iff_exists.1 h
    obtain ⟨e, hp, hd⟩ := Generator.C64_progress hr
    exact ⟨.g e, [], hp, by simp [legal], hd⟩

/-- A build that has not ended can go on. -/
theorem world_progress {w : World} (h : BInv w) (ha : w.active = true) :
    ∃ e, e.internal = true ∧ (w.step e).remaining < w.remaining := by
  have lt : ∀ {e : WEvent}, e.internal = true → w.step e ≠ w → (w.step e).remaining < w.remaining :=
    fun he hne => (remaining_internal h he).resolve_left hne
  cases ho : w.over with
  | true =>
    refine ⟨.join, rfl, lt rfl ?_⟩
    intro he
    have := congrArg World.active he
    simp [World.step, ha, ho] at this
  | false =>
    simp only [World.over, Bool.and_eq_false_iff, List.all_eq_false] at ho
    rcases ho with ⟨id, hid, hf⟩ | ⟨id, hid, hf⟩
    · have hrun : (w.comps id).running = true := by simpa [World.finished, hid] using hf
      obtain ⟨e, ws, h1, h2, h3⟩ := comp_progress (w.comps id) w.used hrun
      refine ⟨.task id e ws, rfl, ?_⟩
      have hne : w.step (.task id e ws) ≠ w := by
        intro he
        have hc := congrArg (fun w => (w.comps id).remaining) he
        simp only [World.step, ha, hid, hrun, h1, h2, decide_true, Bool.and_self, if_true,
          task_eq] at hc
        have hw : ∀ (ws : Writes) (w : World),
            ((w.writes ws).comps id).remaining = (w.comps id).remaining := by
          intro ws
          induction ws with
          | nil => intro w; rfl
          | cons x l ih =>
            intro w
            simp only [World.writes, List.foldl_cons] at ih ⊢
            rw [ih]
            simp only [World.write, remaining_write]
        rw [hw] at hc
        simp only [World.stepped, if_true] at hc
        omega
      exact lt rfl hne
    · refine ⟨.begin id, rfl, lt rfl ?_⟩
      have hr : w.ready id = true := by simpa using hf
      intro he
      have := congrArg (fun w => w.begun.length) he
      simp [World.step, ha, hr] at this

/-- In a graph without cycles everything can be scheduled. -/
theorem over_finished {w : World} (hv : Valid w.graph) (hc : Acyclic w.graph.edges)
    (ho : w.over = true) : ∀ id ∈ w.graph.ids, w.finished id = true := by
  simp only [World.over, Bool.and_eq_true, List.all_eq_true, Bool.not_eq_true'] at ho
  obtain ⟨h1, h2⟩ := ho
  obtain ⟨f, hf⟩ := weights _ hc
  have hlt : ∀ {a b}, (a, b) ∈ w.graph.edges → f b < f a := by
    intro a b hab
    have h3 := hf a
    have h4 : f b ≤ total f (nexts w.graph.edges a) := by
      simp only [total]
      exact le_sum (mem_nexts.2 hab)
    omega
  -- heavier builders first
  suffices h : ∀ n id, id ∈ w.graph.ids → (w.graph.ids.map f).sum - f id ≤ n →
      w.finished id = true from fun id hi => h _ id hi (Nat.le_refl _)
  intro n
  induction n with
  | zero =>
    intro id hi hn
    by_cases hb : id ∈ w.begun
    · exact h1 id hb
    · exfalso
      have := h2 id hi
      simp only [World.ready, Bool.and_eq_false_iff, decide_eq_false_iff_not,
        List.all_eq_false] at this
      rcases this with (h3 | h3) | ⟨d, hd, h3⟩
      · exact h3 hi
      · exact h3 hb
      · have hed := mem_dependents.1 hd
        have h4 := hlt hed
        have h5 : f d ≤ _ := le_sum (w := f) (hv.ends _ hed).1
        omega
  | succ n ih =>
    intro id hi hn
    by_cases hb : id ∈ w.begun
    · exact h1 id hb
    · exfalso
      have := h2 id hi
      simp only [World.ready, Bool.and_eq_false_iff, decide_eq_false_iff_not,
        List.all_eq_false] at this
      rcases this with (h3 | h3) | ⟨d, hd, h3⟩
      · exact h3 hi
      · exact h3 hb
      · have hed := mem_dependents.1 hd
        have h4 := hlt hed
        have h5 : f d ≤ _ := le_sum (w := f) (hv.ends _ hed).1
        have h6 := ih d (hv.ends _ hed).1 (by omega)
        exact h3 h6

end Verif.Reg
