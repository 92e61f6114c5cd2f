import Verif.Reg.Bytes
import Verif.Reg.OneScript
import Verif.Generator.BytesProps

/-! # Contents of files and the time stamps that the build system sees -/

namespace Verif.Reg
open Verif Verif.Schema Verif.Json
open Verif.Target (Fixed outputPath upd text paths)

variable {β : Type} {M : Makers β}

/-! ## Without contents the steps are those of `World` -/

theorem step_erase (j : Str) (c : BComp β) (e : BEv β) (h : ∀ id p x, e ≠ .g (.tamper id p x)) :
    (c.step M j e).erase = c.erase.step e.erase := by
  cases c <;> cases e with
  | t e => rfl
  | g e =>
    first
      | rfl
      | (cases e <;> first | rfl | exact absurd rfl (h _ _ _))

theorem write_erase (j : Str) (c : BComp β) (p : Str) (v : Option (Nat × β)) :
    (c.write M j p v).erase = c.erase.write p (v.map (·.1)) := by
  cases v <;> cases c <;> rfl

theorem fail_erase (j : Str) (c : BComp β) : (c.fail M j).erase = c.erase.fail := by cases c <;> rfl

theorem dropState_erase (j : Str) (c : BComp β) : (c.dropState M j).erase = c.erase.dropState := by
  cases c <;> rfl

theorem kill_erase (j : Str) (c : BComp β) (o : List Str) (w : Option Nat) :
    (c.kill M j o w).erase = c.erase.kill o w := by cases c <;> rfl

theorem start_erase (j : Str) (c : BComp β) (s : Setup) : (c.start M j s).erase = c.erase.start s := by
  cases c <;> cases s <;> rfl

theorem ev_not_tamper (e : BTask β) (ws : Writes) (junk : Str → β) :
    ∀ id p x, e.ev ws junk ≠ .g (.tamper id p x) := by
  intro id p x
  cases e <;> simp [BTask.ev]

theorem look_not_tamper (e : BLook) : ∀ id p x, e.ev (β := β) ≠ .g (.tamper id p x) := by
  intro id p x
  cases e <;> simp [BLook.ev]

/-! ## Contents and descriptions of one builder -/

/-- The contents of the builder are those that the descriptions say. -/
def BRel (M : Makers β) (j : Str) (content : Str → Str → β) : BComp β → Prop
  | .target _ s => Target.Rel M.tools content s
  | .gen s => Generator.Rel (M.callbacks j) content s

def BEv.fits (content : Str → Str → β) : BEv β → Prop
  | .t e => e.fits content
  | .g e => e.fits content

theorem BRel.step {content : Str → Str → β} {j : Str} {c : BComp β} (h : BRel M j content c) (e : BEv β)
    (he : e.fits content) : BRel M j content (c.step M j e) := by
  cases c <;> cases e
  · exact Target.rel_step _ h _ he
  · exact h
  · exact h
  · exact Generator.rel_step h _ he

theorem BRel.write {content : Str → Str → β} {j : Str} {c : BComp β} (h : BRel M j content c) (p : Str)
    (v : Option (Nat × β)) (hv : ∀ y, v = some y → y.2 = content p (digits y.1)) :
    BRel M j content (c.write M j p v) := by
  cases v with
  | none => exact (h.step (.t (.delete p)) trivial).step (.g (.delete p)) trivial
  | some y =>
    obtain ⟨t, x⟩ := y
    have := hv _ rfl
    exact (h.step (.t (.edit p t x)) this).step (.g (.edit p t x)) this

theorem BRel.fail {content : Str → Str → β} {j : Str} {c : BComp β} (h : BRel M j content c) :
    BRel M j content (c.fail M j) := (h.step (.t .otherFail) trivial).step (.g .otherFail) trivial

theorem BRel.dropState {content : Str → Str → β} {j : Str} {c : BComp β} (h : BRel M j content c) :
    BRel M j content (c.dropState M j) := (h.step (.t .dropState) trivial).step (.g .dropState) trivial

theorem BRel.kill {content : Str → Str → β} {j : Str} {c : BComp β} (h : BRel M j content c)
    (o : List Str) (w : Option Nat) : BRel M j content (c.kill M j o w) :=
  (h.step (.t (.crash w)) trivial).step (.g (.crash o w)) trivial

theorem BRel.start {content : Str → Str → β} {j : Str} {c : BComp β} (h : BRel M j content c) (s : Setup) :
    BRel M j content (c.start M j s) := by
  cases s
  · exact h.step (.t (.start _ _)) trivial
  · exact h.step (.g (.start _)) trivial

theorem task_fits (content : Str → Str → β) (e : BTask β) (ws : Writes) (junk : Str → β)
    (h : (e.ev ws junk).erase.isTask = true) : (e.ev ws junk).fits content := by
  cases e with
  | t e => cases e <;> simp_all [BTask.ev, BEv.erase, Ev.isTask, Target.BEvent.erase, Target.Event.progress, BEv.fits, Target.BEvent.fits]
  | _ => trivial

/-! ## The whole -/

/-- Contents, stamps and history agree. -/
structure CInv (M : Makers β) (b : BWorld β) : Prop where
  er : ∀ j, (b.comps j).erase = b.world.comps j
  fl : ∀ p, b.world.files p = (b.files p).map (·.1)
  fh : ∀ p y, b.files p = some y → (p, y.1, y.2) ∈ b.hist
  hu : ∀ p t x, (p, t, x) ∈ b.hist → t ∈ b.world.used p
  hp : b.hist.Pairwise (fun x y => ¬ (x.1 = y.1 ∧ x.2.1 = y.2.1))
  rel : ∀ content : Str → Str → β, (∀ p t x, (p, t, x) ∈ b.hist → x = content p (digits t)) →
    ∀ j, BRel M j content (b.comps j)

theorem cInv_init (kinds : Str → Kind) : CInv M (BWorld.init kinds) where
  er j := by simp only [BWorld.init, World.init]; cases kinds j <;> rfl
  fl _ := rfl
  fh := by simp [BWorld.init]
  hu := by simp [BWorld.init]
  hp := List.Pairwise.nil
  rel content _ j := by
    simp only [BWorld.init]
    cases kinds j
    · exact Target.rel_init _ _
    · exact Generator.rel_init _ _

/-- Nothing is written. -/
theorem CInv.still {b b' : BWorld β} (h : CInv M b) (h1 : b'.files = b.files) (h2 : b'.hist = b.hist)
    (h3 : b'.world.files = b.world.files) (h4 : b'.world.used = b.world.used)
    (h5 : ∀ j, (b'.comps j).erase = b'.world.comps j)
    (h6 : ∀ content j, BRel M j content (b.comps j) → BRel M j content (b'.comps j)) : CInv M b' where
  er := h5
  fl := by rw [h1, h3]; exact h.fl
  fh := by rw [h1, h2]; exact h.fh
  hu := by rw [h2, h4]; exact h.hu
  hp := by rw [h2]; exact h.hp
  rel content hc j := h6 content j (h.rel content (by rw [← h2]; exact hc) j)

/-- A write with a new stamp; the build system sees the same write. -/
theorem CInv.put {b : BWorld β} (h : CInv M b) (p : Str) (v : Option (Nat × β))
    (hnew : ∀ y, v = some y → y.1 ∉ b.world.used p) :
    CInv M { b.put M p v with world := b.world.write p (v.map (·.1)) } where
  er j := by
    show ((b.comps j).write M j p v).erase = (b.world.comps j).write p (v.map (·.1))
    rw [write_erase, h.er]
  fl q := by
    show upd b.world.files p (v.map (·.1)) q = (upd b.files p v q).map (·.1)
    by_cases e : q = p
    · simp [upd, e]
    · simp [upd, e, h.fl]
  fh q y hy := by
    have hy : upd b.files p v q = some y := hy
    by_cases e : q = p
    · subst e
      obtain rfl : v = some y := by simpa [upd] using hy
      exact List.mem_cons_self
    · have : (q, y.1, y.2) ∈ b.hist := h.fh q y (by simpa [upd, e] using hy)
      show _ ∈ (match v with | some (t, x) => (p, t, x) :: b.hist | none => b.hist)
      split
      · exact List.mem_cons_of_mem _ this
      · exact this
  hu q t x hm := by
    have hm : (q, t, x) ∈ (match v with | some (t, x) => (p, t, x) :: b.hist | none => b.hist) := hm
    show t ∈ addUsed b.world.used p (v.map (·.1)) q
    cases v with
    | none => exact h.hu q t x hm
    | some y =>
      obtain ⟨u, z⟩ := y
      simp only [Option.map_some, addUsed, upd]
      rcases List.mem_cons.1 hm with hm | hm
      · cases hm; simp
      · have := h.hu q t x hm
        split
        · rename_i e; subst e; exact List.mem_cons_of_mem _ this
        · exact this
  hp := by
    show List.Pairwise _ (match v with | some (t, x) => (p, t, x) :: b.hist | none => b.hist)
    cases v with
    | none => exact h.hp
    | some y =>
      obtain ⟨u, z⟩ := y
      refine List.pairwise_cons.2 ⟨?_, h.hp⟩
      rintro ⟨q, t, x⟩ hm ⟨e1, e2⟩
      simp only at e1 e2
      subst e1 e2
      exact hnew _ rfl (h.hu _ _ _ hm)
  rel content hc j := by
    have hc : ∀ q t x, (q, t, x) ∈ (match v with | some (t, x) => (p, t, x) :: b.hist | none => b.hist) →
      x = content q (digits t) := hc
    refine BRel.write (h.rel content (fun q t x hm => hc q t x ?_) j) p v ?_
    · split
      · exact List.mem_cons_of_mem _ hm
      · exact hm
    · rintro ⟨t, x⟩ rfl
      exact hc p t x List.mem_cons_self

/-- The same contents beside another state of the build system. -/
def BWorld.on (b : BWorld β) (w : World) : BWorld β := { b with world := w }

/-- Several writes. -/
def BWorld.puts (M : Makers β) (l : List (Str × Option (Nat × β))) (b : BWorld β) : BWorld β :=
  l.foldl (fun b x => b.put M x.1 x.2) b

theorem puts_on : ∀ (l : List (Str × Option (Nat × β))) (b : BWorld β) (w : World),
    (b.on w).puts M l = (b.puts M l).on w := by
  intro l
  induction l with
  | nil => intro b w; rfl
  | cons a l ih => intro b w; exact ih (b.put M a.1 a.2) w

theorem puts_world : ∀ (l : List (Str × Option (Nat × β))) (b : BWorld β),
    (b.puts M l).world = b.world := by
  intro l
  induction l with
  | nil => intro b; rfl
  | cons a l ih => intro b; exact ih (b.put M a.1 a.2)

/-- Writes at different paths. -/
theorem CInv.puts : ∀ (l : List (Str × Option (Nat × β))) {b : BWorld β}, CInv M b →
    (l.map (·.1)).Nodup → (∀ x ∈ l, ∀ y, x.2 = some y → y.1 ∉ b.world.used x.1) →
    CInv M ((b.puts M l).on (b.world.writes (l.map fun x => (x.1, x.2.map (·.1))))) := by
  intro l
  induction l with
  | nil => intro b h _ _; exact h
  | cons a l ih =>
    intro b h hn hf
    simp only [List.map_cons, List.nodup_cons] at hn
    have h1 := h.put a.1 a.2 (hf a List.mem_cons_self)
    have h2 := ih h1 hn.2 (by
      intro x hx y hy
      have h3 := hf x (List.mem_cons_of_mem _ hx) y hy
      have hne : x.1 ≠ a.1 := fun e => hn.1 (e ▸ List.mem_map_of_mem hx)
      simpa only [World.write, addUsed_ne hne] using h3)
    have h3 := puts_on (M := M) l (b.put M a.1 a.2) (b.world.write a.1 (a.2.map (·.1)))
    have h4 : (BWorld.puts M l { b.put M a.1 a.2 with world := b.world.write a.1 (a.2.map (·.1)) }).on
        ((b.world.write a.1 (a.2.map (·.1))).writes (l.map fun x => (x.1, x.2.map (·.1)))) =
        (b.puts M (a :: l)).on (b.world.writes ((a :: l).map fun x => (x.1, x.2.map (·.1)))) := by
      rw [show ({ b.put M a.1 a.2 with world := b.world.write a.1 (a.2.map (·.1)) } : BWorld β) =
        (b.put M a.1 a.2).on (b.world.write a.1 (a.2.map (·.1))) from rfl, h3]
      rfl
    rw [← h4]
    exact h2

theorem withContents_stamps (c : BComp β) (e : BEv β) (junk : Str → β) (ws : Writes) :
    (withContents c e junk ws).map (fun x => (x.1, x.2.map (·.1))) = ws := by
  rw [withContents, List.map_map]
  conv => rhs; rw [← List.map_id ws]
  refine List.map_congr_left fun x _ => ?_
  obtain ⟨p, v⟩ := x
  cases v <;> rfl

theorem withContents_paths (c : BComp β) (e : BEv β) (junk : Str → β) (ws : Writes) :
    (withContents c e junk ws).map (·.1) = ws.map (·.1) := by
  rw [withContents, List.map_map]
  rfl

theorem cInv_task {b : BWorld β} (h : CInv M b) {id : Str} {t : BTask β} {ws : Writes} {junk : Str → β}
    (ha : b.world.acts id (t.ev ws junk).erase ws = true) : CInv M (b.task M id (t.ev ws junk) ws junk) := by
  simp only [World.acts, Bool.and_eq_true] at ha
  obtain ⟨⟨-, htask⟩, hl⟩ := ha
  obtain ⟨hn, hnew⟩ := legal_spec hl
  have hfit : ∀ content, (t.ev ws junk).fits content := fun content => task_fits content t ws junk htask
  have hc := step_erase (M := M) id (b.comps id) _ (ev_not_tamper t ws junk)
  rw [h.er] at hc
  generalize t.ev ws junk = e at *
  -- the builder has made its step, nothing is written
  have h1 : CInv M { b with
      world := b.world.stepped id e.erase ws
      comps := fun j => if j = id then (b.comps id).step M id e
        else if b.world.ok && !((b.comps id).step M id e).erase.ok then (b.comps j).fail M j
        else b.comps j } := by
    refine h.still rfl rfl rfl rfl ?_ ?_
    · intro j
      simp only [World.stepped, ← hc]
      split
      · rfl
      · split
        · rw [fail_erase, h.er]
        · exact h.er j
    · intro content j hj
      simp only
      split
      · rename_i e'; subst e'; exact hj.step e (hfit content)
      · split
        · exact hj.fail
        · exact hj
  have h2 := h1.puts (withContents ((b.comps id).step M id e) e junk ws)
    (by rw [withContents_paths]; exact hn)
    (by
      intro x hx y hy
      obtain ⟨x0, hx0, rfl⟩ := List.mem_map.1 hx
      simp only [Option.map_eq_some_iff] at hy
      obtain ⟨u, hu, rfl⟩ := hy
      exact (hnew x0 hx0).2 u hu)
  rw [withContents_stamps, ← puts_on] at h2
  exact h2

/-- A step that changes contents is one of the build system, and the other way round. -/
theorem world_step (b : BWorld β) (e : BWEvent β) :
    (b.step M e).world = b.world.step e.erase ∨ b.step M e = b := by
  cases e with
  | edit p t x => exact .inl rfl
  | delete p => exact .inl rfl
  | dropState id => simp only [BWorld.step]; split <;> first | exact .inr rfl | exact .inl rfl
  | launch g s => simp only [BWorld.step]; split <;> first | exact .inr rfl | exact .inl rfl
  | «begin» id => exact .inl rfl
  | task id t ws junk =>
    simp only [BWorld.step]
    split
    · rename_i hg
      simp only [Bool.and_eq_true] at hg
      refine .inl ?_
      refine (puts_world _ _).trans ?_
      have hg1 := hg.1
      rw [World.acts] at hg1
      simp only [BWEvent.erase, World.step]
      rw [if_pos hg1]
    · exact .inr rfl
  | look id e => simp only [BWorld.step]; split <;> first | exact .inr rfl | exact .inl rfl
  | join => simp only [BWorld.step]; split <;> first | exact .inr rfl | exact .inl rfl
  | kill o w => simp only [BWorld.step]; split <;> first | exact .inr rfl | exact .inl rfl

/-- An edit gives a new stamp. -/
def FreshEdit (w : World) : WEvent → Prop
  | .edit p t => t ∉ w.used p
  | _ => True

theorem cInv_step {b : BWorld β} (h : CInv M b) {e : BWEvent β} (hf : FreshEdit b.world e.erase) :
    CInv M (b.step M e) := by
  cases e with
  | edit p t x =>
    exact (h.put p (some (t, x)) (by rintro y ⟨rfl⟩; exact hf)).still rfl rfl rfl rfl
      (fun j => (h.put p (some (t, x)) (by rintro y ⟨rfl⟩; exact hf)).er j) fun _ _ h => h
  | delete p =>
    exact (h.put p none (by simp)).still rfl rfl rfl rfl
      (fun j => (h.put p none (by simp)).er j) fun _ _ h => h
  | dropState id =>
    simp only [BWorld.step]
    split
    · exact h
    · rename_i ha
      refine h.still rfl rfl ?_ ?_ ?_ ?_
      · simp [World.step, ha]
      · simp [World.step, ha]
      · intro j
        simp only [World.step, if_neg ha, upd]
        split
        · rename_i e; subst e; rw [dropState_erase, h.er]
        · exact h.er j
      · intro content j hj
        simp only [upd]
        split
        · rename_i e; subst e; exact hj.dropState
        · exact hj
  | launch g s =>
    simp only [BWorld.step]
    split
    · rename_i hg
      refine h.still rfl rfl ?_ ?_ ?_ ?_
      · simp only [World.step, if_pos hg]
      · simp only [World.step, if_pos hg]
      · intro j
        simp only [World.step, if_pos hg]
        split
        · rw [start_erase, h.er]
        · exact h.er j
      · intro content j hj
        simp only
        split
        · exact hj.start _
        · exact hj
    · exact h
  | «begin» id =>
    simp only [BWorld.step]
    refine h.still rfl rfl ?_ ?_ ?_ fun _ _ h => h
    · simp only [World.step]; split <;> rfl
    · simp only [World.step]; split <;> rfl
    · intro j
      simp only [World.step]
      split <;> exact h.er j
  | task id t ws junk =>
    simp only [BWorld.step]
    split
    · rename_i hg
      simp only [Bool.and_eq_true] at hg
      exact cInv_task h hg.1
    · exact h
  | look id e =>
    simp only [BWorld.step]
    split
    · rename_i hg
      have hlook : (e.ev (β := β)).erase.isLook = true := by cases e <;> rfl
      have hg' : (b.world.active && decide (id ∈ b.world.begun) && (b.world.comps id).running
          && (e.ev (β := β)).erase.isLook) = true := by rw [hg, hlook]; rfl
      have hfit : ∀ content, (e.ev (β := β)).fits content := by intro content; cases e <;> trivial
      refine h.still rfl rfl ?_ ?_ ?_ ?_
      · simp only [World.step, if_pos hg']
      · simp only [World.step, if_pos hg']
      · intro j
        simp only [World.step, if_pos hg', upd]
        split
        · rename_i e'; subst e'; rw [step_erase _ _ _ (look_not_tamper e), h.er]
        · exact h.er j
      · intro content j hj
        simp only [upd]
        split
        · rename_i e'; subst e'; exact hj.step _ (hfit content)
        · exact hj
    · exact h
  | join =>
    simp only [BWorld.step]
    split
    · rename_i hg
      refine h.still rfl rfl ?_ ?_ ?_ ?_
      · simp only [World.step, if_pos hg]
      · simp only [World.step, if_pos hg]
      · intro j
        simp only [World.step, if_pos hg]
        split
        · rw [kill_erase, h.er]
        · exact h.er j
      · intro content j hj
        simp only
        split
        · exact hj.kill _ _
        · exact hj
    · exact h
  | kill o w =>
    simp only [BWorld.step]
    split
    · rename_i hg
      refine h.still rfl rfl ?_ ?_ ?_ ?_
      · simp only [World.step, if_pos hg]
      · simp only [World.step, if_pos hg]
      · intro j
        simp only [World.step, if_pos hg]
        split
        · rw [kill_erase, h.er]
        · exact h.er j
      · intro content j hj
        simp only
        split
        · exact hj.kill _ _
        · exact hj
    · exact h

end Verif.Reg
