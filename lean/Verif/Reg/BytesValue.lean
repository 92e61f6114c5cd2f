import Verif.Reg.BytesInv

/-! # The products on the disk hold what the builders made -/

namespace Verif.Reg
open Verif Verif.Schema Verif.Json
open Verif.Target (Fixed outputPath upd text paths)

variable {β : Type} {M : Makers β}

/-- What the builder has made last: the target, or the output `p` of the id. -/
def BComp.value (id p : Str) : BComp β → Option β
  | .target _ s => s.bin
  | .gen s => s.outs id p

theorem value_write (j id p q : Str) (c : BComp β) (v : Option (Nat × β)) :
    (c.write M j q v).value id p = c.value id p := by
  cases v <;> cases c <;> rfl

theorem value_fail (j id p : Str) (c : BComp β) : (c.fail M j).value id p = c.value id p := by
  cases c <;> rfl

theorem value_dropState (j id p : Str) (c : BComp β) : (c.dropState M j).value id p = c.value id p := by
  cases c <;> rfl

theorem value_kill (j id p : Str) (c : BComp β) (o : List Str) (w : Option Nat) :
    (c.kill M j o w).value id p = c.value id p := by
  cases c <;> rfl

theorem value_start (j id p : Str) (c : BComp β) (s : Setup) :
    (c.start M j s).value id p = c.value id p := by
  cases c <;> cases s <;> rfl

theorem value_look (j id p : Str) (c : BComp β) (e : BLook) :
    (c.step M j e.ev).value id p = c.value id p := by
  cases c <;> cases e <;> simp only [BLook.ev, BComp.step, BComp.value, Target.bstep, Target.bytesStep,
    Target.BSys.lookAt, Generator.bstep, Generator.bytesStep, Generator.BSys.lookAt]
  all_goals repeat' split
  all_goals rfl

/-- The step ends the command or callback that makes the product. -/
def Makes (id : Str) (e : Ev) : Prop :=
  (∃ ok junk, e = .t (.linkExec ok junk)) ∨ ∃ ok, e = .g (.call id ok)

theorem value_other (j id p : Str) (c : BComp β) (t : BTask β) (ws : Writes) (junk : Str → β)
    (ht : (t.ev ws junk).erase.isTask = true) (h : ¬ Makes id (t.ev ws junk).erase) :
    (c.step M j (t.ev ws junk)).value id p = c.value id p := by
  cases t with
  | t e =>
    cases c with
    | gen s => rfl
    | target fx s =>
      cases e with
      | linkExec ok left => exact absurd (.inl ⟨_, _, rfl⟩) h
      | edit | delete | tamperObj | tamperPch | tamperBin | start | dropState | crash | otherFail | look =>
        simp [BTask.ev, BEv.erase, Ev.isTask, Target.BEvent.erase, Target.Event.progress] at ht
      | _ =>
        simp only [BTask.ev, BComp.step, BComp.value, Target.bstep, Target.bytesStep, Target.BSys.settle]
        repeat' split
        all_goals rfl
  | begin => cases c <;> rfl
  | finish o b => cases c <;> rfl
  | task id' =>
    cases c with
    | target fx s => rfl
    | gen s =>
      simp only [BTask.ev, BComp.step, BComp.value, Generator.bstep, Generator.bytesStep, Generator.BSys.settle]
      repeat' split
      all_goals rfl
  | call id' ok =>
    cases c with
    | target fx s => rfl
    | gen s =>
      have hne : id ≠ id' := by
        rintro rfl
        exact h (.inr ⟨ok, rfl⟩)
      simp only [BTask.ev, BComp.step, BComp.value, Generator.bstep, Generator.bytesStep]
      repeat' split
      all_goals first | rfl | simp only [upd, if_neg hne]

theorem puts_at : ∀ (l : List (Str × Option (Nat × β))) (b : BWorld β) (p : Str), (l.map (·.1)).Nodup →
    (p ∉ l.map (·.1) → (b.puts M l).files p = b.files p) ∧
    ∀ v, (p, v) ∈ l → (b.puts M l).files p = v := by
  intro l
  induction l with
  | nil => intro b p _; exact ⟨fun _ => rfl, by simp⟩
  | cons y l ih =>
    intro b p hn
    simp only [List.map_cons, List.nodup_cons] at hn
    obtain ⟨h1, h2⟩ := ih (b.put M y.1 y.2) p hn.2
    refine ⟨fun hp => ?_, fun x hx => ?_⟩
    · simp only [List.map_cons, List.mem_cons, not_or] at hp
      refine (h1 hp.2).trans ?_
      simp [BWorld.put, upd, hp.1]
    · rcases List.mem_cons.1 hx with hx | hx
      · have : p ∉ l.map (·.1) := by rw [show p = y.1 by rw [← hx]]; exact hn.1
        refine (h1 this).trans ?_
        rw [← hx]
        simp [BWorld.put, upd]
      · exact h2 x hx

theorem puts_value (id p j : Str) : ∀ (l : List (Str × Option (Nat × β))) (b : BWorld β),
    ((b.puts M l).comps j).value id p = (b.comps j).value id p := by
  intro l
  induction l with
  | nil => intro b; rfl
  | cons y l ih => intro b; exact (ih _).trans (value_write j id p y.1 _ y.2)

/-- The file `p` holds what the builder `a` has made last. -/
def Kept (a id p : Str) (b : BWorld β) : Prop := text b.files p = (b.comps a).value id p

/-- When the builder is a target, `p` is its output. -/
def Fitting (p : Str) : Comp → Prop
  | .target fx _ => outputPath fx = p
  | .gen _ => True

/-- Nobody but the maker changes the file. -/
def KeepsB (a id p : Str) (w : World) : WEvent → Prop
  | .edit q _ => q ≠ p
  | .delete q => q ≠ p
  | .task j e ws => w.acts j e ws = true → p ∈ ws.map (·.1) → j = a ∧ Makes id e
  | _ => True

theorem find_none {ws : Writes} {p : Str} (h : ws.find? (fun x => decide (x.1 = p)) = none) :
    p ∉ ws.map (·.1) := by
  intro hp
  obtain ⟨x, hx, e⟩ := List.mem_map.1 hp
  have := List.find?_eq_none.1 h x hx
  simp [e] at this

theorem find_some {ws : Writes} {p : Str} {x : Str × Option Nat}
    (h : ws.find? (fun x => decide (x.1 = p)) = some x) : (p, x.2) ∈ ws := by
  have h1 := List.find?_some h
  have h2 := List.mem_of_find?_eq_some h
  simp only [decide_eq_true_eq] at h1
  rw [← h1]
  exact h2

/-- A step of the maker that writes the file: a pair in `ws` that fits what was made. -/
theorem kept_made {a id p : Str} {b : BWorld β} (hc : CInv M b) (hfit : Fitting p (b.world.comps a))
    (hk : Kept a id p b) {t : BTask β} {ws : Writes} {junk : Str → β}
    (hl : legal (b.world.comps a) (t.ev ws junk).erase b.world.used ws = true)
    (hw : writesAll (b.world.comps a) (t.ev ws junk).erase ws = true)
    (hm : Makes id (t.ev ws junk).erase) :
    let c := (b.comps a).step M a (t.ev ws junk)
    (p ∉ ws.map (·.1) ∧ c.value id p = text b.files p) ∨
    ∃ v, (p, v) ∈ ws ∧ c.value id p = v.map fun _ => contentFor c (t.ev ws junk) junk p := by
  have her := hc.er a
  have hmay := (legal_spec hl).2
  rw [← her] at hl hw hfit hmay
  rw [Kept] at hk
  cases hca : b.comps a with
  | target fx s =>
    rw [hca] at hl hfit hmay hk
    obtain rfl : outputPath fx = p := hfit
    cases t with
    | t e =>
      cases e with
      | linkExec ok left =>
        simp only [BTask.ev, BComp.step]
        cases hr : s.sys.run with
        | none =>
          refine .inl ⟨?_, ?_⟩
          · intro hp
            obtain ⟨x, hx, -⟩ := List.mem_map.1 hp
            have := (hmay x hx).1
            simp [BTask.ev, BEv.erase, Target.BEvent.erase, BComp.erase, mayWrite, hr] at this
          · rw [hk]
            simp only [BComp.value, Target.bstep, Target.bytesStep, hr]
        | some r =>
          by_cases hph : r.phase = .linkRun
          · have hlw : linkWrites fx s.sys ok (left.map fun x => x.map fun _ => Target.junkBin) ws = true := by
              simp only [legal, BTask.ev, BEv.erase, Target.BEvent.erase, BComp.erase, Bool.and_eq_true] at hl
              exact hl.2
            simp only [linkWrites, hr, hph, if_true] at hlw
            have written : ∀ x, (Target.bstep fx M.tools s (.linkExec ok left)).bin = some x →
                (ws.any fun x => x.1 = outputPath fx && x.2.isSome) = true →
                ∃ v, (outputPath fx, v) ∈ ws ∧
                  (BComp.target fx (Target.bstep fx M.tools s (.linkExec ok left))).value id (outputPath fx) =
                    v.map fun _ => contentFor (.target fx (Target.bstep fx M.tools s (.linkExec ok left)))
                      (.t (.linkExec ok left)) junk (outputPath fx) := by
              intro x hx hw
              simp only [List.any_eq_true, Bool.and_eq_true, decide_eq_true_eq] at hw
              obtain ⟨⟨q, y⟩, hy, rfl, hsome⟩ := hw
              obtain ⟨u, rfl⟩ := Option.isSome_iff_exists.1 hsome
              refine ⟨some u, hy, ?_⟩
              simp only [BComp.value, contentFor, if_true, hx, Option.getD_some, Option.map_some]
            cases ok with
            | true =>
              have hb : ∃ x, (Target.bstep fx M.tools s (.linkExec true left)).bin = some x := by
                simp [Target.bstep, Target.bytesStep, hr, hph]
              obtain ⟨x, hx⟩ := hb
              exact .inr (written x hx hlw)
            | false =>
              cases left with
              | none =>
                refine .inl ⟨?_, ?_⟩
                · simp only [Option.map_none, List.all_eq_true, decide_eq_true_eq] at hlw
                  intro hp
                  obtain ⟨x, hx, e1⟩ := List.mem_map.1 hp
                  have := hlw x hx
                  simp [e1] at this
                · rw [hk]
                  simp [BComp.value, Target.bstep, Target.bytesStep, hr, hph]
              | some y =>
                cases y with
                | some x =>
                  refine .inr (written x ?_ hlw)
                  simp [Target.bstep, Target.bytesStep, hr, hph]
                | none =>
                  simp only [Option.map_some, Option.map_none, List.any_eq_true, Bool.and_eq_true,
                    decide_eq_true_eq] at hlw
                  obtain ⟨⟨q, y⟩, hy, rfl, hnone⟩ := hlw
                  simp only [Option.isNone_iff_eq_none] at hnone
                  subst hnone
                  refine .inr ⟨none, hy, ?_⟩
                  simp [BComp.value, Target.bstep, Target.bytesStep, hr, hph]
          · refine .inl ⟨?_, ?_⟩
            · intro hp
              obtain ⟨x, hx, -⟩ := List.mem_map.1 hp
              have := (hmay x hx).1
              simp [BTask.ev, BEv.erase, Target.BEvent.erase, BComp.erase, mayWrite, hr, hph] at this
            · rw [hk]
              simp [BComp.value, Target.bstep, Target.bytesStep, hr, hph]
      | _ =>
        rcases hm with ⟨_, _, h⟩ | ⟨_, h⟩ <;>
          simp [BTask.ev, BEv.erase, Target.BEvent.erase] at h
    | call id' ok =>
      refine .inl ⟨?_, hk.symm⟩
      intro hp
      obtain ⟨x, hx, -⟩ := List.mem_map.1 hp
      have := (hmay x hx).1
      simp [BTask.ev, BEv.erase, BComp.erase, mayWrite] at this
    | _ =>
      rcases hm with ⟨_, _, h⟩ | ⟨_, h⟩ <;>
        simp [BTask.ev, BEv.erase, Generator.BEvent.erase] at h
  | gen s =>
    rw [hca] at hl hmay hk hw
    cases t with
    | t e =>
      refine .inl ⟨?_, hk.symm⟩
      intro hp
      obtain ⟨x, hx, -⟩ := List.mem_map.1 hp
      have := (hmay x hx).1
      simp [BTask.ev, BEv.erase, BComp.erase, mayWrite] at this
    | call id' ok =>
      obtain rfl : id' = id := by
        rcases hm with ⟨_, _, h⟩ | ⟨_, h⟩
        · simp [BTask.ev, BEv.erase] at h
        · simp only [BTask.ev, BEv.erase, Generator.BEvent.erase, Option.getD_some, Ev.g.injEq,
            Generator.Event.call.injEq] at h
          exact h.1
      have idle : mayWrite (.gen s.sys) (.g (.call id' ok)) = [] → p ∉ ws.map (·.1) := by
        intro h hp
        obtain ⟨x, hx, -⟩ := List.mem_map.1 hp
        have := (hmay x hx).1
        simp only [BTask.ev, BEv.erase, Generator.BEvent.erase, Option.getD_some, BComp.erase, h] at this
        simp at this
      simp only [BTask.ev, BComp.step]
      cases hr : s.sys.run with
      | none =>
        refine .inl ⟨idle (by simp [mayWrite, hr]), ?_⟩
        rw [hk]
        simp only [BComp.value, Generator.bstep, Generator.bytesStep, hr]
      | some r =>
        cases hi : Generator.find id' r.cfg with
        | none =>
          refine .inl ⟨idle (by simp [mayWrite, hr, hi]), ?_⟩
          rw [hk]
          simp only [BComp.value, Generator.bstep, Generator.bytesStep, hr, hi]
        | some i =>
          by_cases hcal : r.status id' = .calling
          · have hmw : mayWrite (.gen s.sys) (.g (.call id' ok)) = i.outputs := by
              simp only [mayWrite, hr, hi, hcal]
            have houts : ∀ left, (Generator.bstep (M.callbacks a) s (.call id' ok left)).outs id' p =
                if p ∈ i.outputs then
                  if ok then some (Generator.made (M.callbacks a) (text (s.view id')) id' i p)
                  else (left p).getD (s.outs id' p)
                else s.outs id' p := by
              intro left
              simp only [Generator.bstep, Generator.bytesStep, hr, hi, hcal, upd, if_true]
            by_cases hp : p ∈ i.outputs
            · simp only [BComp.value, houts, if_pos hp, contentFor]
              cases ok with
              | true =>
                simp only [BTask.ev, BEv.erase, Generator.BEvent.erase, Option.getD_some, BComp.erase,
                  writesAll, hr, hi, List.all_eq_true, List.any_eq_true, Bool.and_eq_true,
                  decide_eq_true_eq] at hw
                obtain ⟨⟨q, y⟩, hy, rfl, hsome⟩ := hw p hp
                obtain ⟨u, rfl⟩ := Option.isSome_iff_exists.1 hsome
                exact .inr ⟨some u, hy, rfl⟩
              | false =>
                simp only [Bool.false_eq_true, if_false]
                cases hf : ws.find? (fun x => decide (x.1 = p)) with
                | none =>
                  refine .inl ⟨find_none hf, ?_⟩
                  simp only [Option.getD_none]
                  exact hk.symm
                | some x =>
                  refine .inr ⟨x.2, find_some hf, ?_⟩
                  simp only [Option.getD_some]
                  cases x.2 <;> rfl
            · refine .inl ⟨?_, ?_⟩
              · intro hp'
                obtain ⟨x, hx, e⟩ := List.mem_map.1 hp'
                have := (hmay x hx).1
                simp only [BTask.ev, BEv.erase, Generator.BEvent.erase, Option.getD_some, BComp.erase, hmw] at this
                exact hp (e ▸ this)
              · simp only [BComp.value, houts, if_neg hp]
                exact hk.symm
          · refine .inl ⟨idle ?_, ?_⟩
            · simp only [mayWrite, hr, hi]
              split
              · rename_i h; exact absurd h hcal
              · rfl
            · rw [hk]
              simp only [BComp.value, Generator.bstep, Generator.bytesStep, hr, hi]
              split
              · rename_i h; exact absurd h hcal
              · rfl
    | _ =>
      rcases hm with ⟨_, _, h⟩ | ⟨_, h⟩ <;>
        simp [BTask.ev, BEv.erase, Generator.BEvent.erase] at h

theorem kept_task {a id p : Str} {b : BWorld β} (hc : CInv M b) (hfit : Fitting p (b.world.comps a))
    (hk : Kept a id p b) {j : Str} {t : BTask β} {ws : Writes} {junk : Str → β}
    (ha : b.world.acts j (t.ev ws junk).erase ws = true)
    (hw : writesAll (b.world.comps j) (t.ev ws junk).erase ws = true)
    (hm : p ∈ ws.map (·.1) → j = a ∧ Makes id (t.ev ws junk).erase) :
    Kept a id p (b.task M j (t.ev ws junk) ws junk) := by
  simp only [World.acts, Bool.and_eq_true] at ha
  obtain ⟨⟨-, htask⟩, hl⟩ := ha
  have hn := (legal_spec hl).1
  show text ((BWorld.puts M (withContents _ _ junk ws) _).files) p = ((BWorld.puts M (withContents _ _ junk ws) _).comps a).value id p
  rw [puts_value]
  obtain ⟨h1, h2⟩ := puts_at (M := M) (withContents ((b.comps j).step M j (t.ev ws junk)) (t.ev ws junk) junk ws)
    { b with
      world := b.world.task j (t.ev ws junk).erase ws
      comps := fun k => if k = j then (b.comps j).step M j (t.ev ws junk) else
        if b.world.ok && !((b.comps j).step M j (t.ev ws junk)).erase.ok then (b.comps k).fail M k else b.comps k }
    p (by rw [withContents_paths]; exact hn)
  rw [withContents_paths] at h1
  by_cases hj : j = a ∧ Makes id (t.ev ws junk).erase
  · obtain ⟨rfl, hmk⟩ := hj
    simp only [if_true]
    rcases kept_made hc hfit hk hl hw hmk with ⟨g1, g2⟩ | ⟨v, g1, g2⟩
    · rw [text, h1 g1, g2]; rfl
    · rw [text, h2 (v.map fun t' => (t', contentFor ((b.comps j).step M j (t.ev ws junk)) (t.ev ws junk) junk p))
        (List.mem_map.2 ⟨_, g1, rfl⟩), g2, Option.map_map]
      rfl
  · have hp : p ∉ ws.map (·.1) := fun hp => hj (hm hp)
    rw [text, h1 hp]
    refine Eq.trans (show _ = text b.files p from rfl) (hk.trans ?_)
    simp only
    split
    · rename_i e
      subst e
      exact (value_other _ id p _ t ws junk htask fun h => hj ⟨rfl, h⟩).symm
    · split
      · exact (value_fail _ _ _ _).symm
      · rfl

theorem kept_step {a id p : Str} {b : BWorld β} (hc : CInv M b) (hfit : Fitting p (b.world.comps a))
    (hk : Kept a id p b) {e : BWEvent β} (hkeep : KeepsB a id p b.world e.erase) :
    Kept a id p (b.step M e) := by
  have still : ∀ b' : BWorld β, b'.files = b.files →
      (b'.comps a).value id p = (b.comps a).value id p → Kept a id p b' := by
    intro b' h1 h2
    rw [Kept, h1, h2]; exact hk
  cases e with
  | edit q u x =>
    have hq : p ≠ q := fun e => hkeep e.symm
    simp only [Kept, BWorld.step, BWorld.put, text, upd, if_neg hq]
    rw [value_write]
    exact hk
  | delete q =>
    have hq : p ≠ q := fun e => hkeep e.symm
    simp only [Kept, BWorld.step, BWorld.put, text, upd, if_neg hq]
    rw [value_write]
    exact hk
  | dropState j =>
    simp only [BWorld.step]
    split
    · exact hk
    · refine still _ rfl ?_
      simp only [upd]
      split
      · rename_i e; subst e; exact value_dropState _ _ _ _
      · rfl
  | launch g s =>
    simp only [BWorld.step]
    split
    · refine still _ rfl ?_
      simp only
      split
      · exact value_start _ _ _ _ _
      · rfl
    · exact hk
  | «begin» j => exact still _ rfl rfl
  | task j t ws junk =>
    simp only [BWorld.step]
    split
    · rename_i hg
      simp only [Bool.and_eq_true] at hg
      exact kept_task hc hfit hk hg.1 hg.2 (hkeep hg.1)
    · exact hk
  | look j e =>
    simp only [BWorld.step]
    split
    · refine still _ rfl ?_
      simp only [upd]
      split
      · rename_i e'; subst e'; exact value_look _ _ _ _ _
      · rfl
    · exact hk
  | join =>
    simp only [BWorld.step]
    split
    · refine still _ rfl ?_
      simp only
      split
      · exact value_kill _ _ _ _ _ _
      · rfl
    · exact hk
  | kill o w =>
    simp only [BWorld.step]
    split
    · refine still _ rfl ?_
      simp only
      split
      · exact value_kill _ _ _ _ _ _
      · rfl
    · exact hk

theorem kept_init {a id p : Str} (kinds : Str → Kind) : Kept a id p (BWorld.init kinds : BWorld β) := by
  simp only [Kept, BWorld.init, text]
  cases kinds a <;> rfl

end Verif.Reg
