import Verif.Reg.Halt
import Verif.Reg.WorldSpec
import Verif.Target.Shadow
import Verif.Generator.SoundProps

/-! # What a build of several builders leaves behind -/

namespace Verif.Reg
open Verif Verif.Schema
open Verif.Target (Fixed BinArt objPath outputPath upd paths Clean Shadow)

/-! ## The end of a run -/

theorem t_ended {fx : Fixed} {σ : Target.Sys} {e : Target.Event} {r : Target.Run}
    (he : e.progress = true) (h1 : σ.run = some r) (h2 : (Target.step fx σ e).run = none) :
    ∃ d, (Target.step fx σ e).done = some d ∧ d.ok = (Target.step fx σ e).ok ∧ d.cfg = r.cfg := by
  revert h2
  cases e <;> simp only [Target.Event.progress, Bool.false_eq_true] at he <;>
    simp only [Target.step, Target.inPhase, h1, Target.Sys.put, Target.lookAt,
          Target.pchTask, Target.pchExec, Target.objTask,
      Target.execObj, Target.addObj, Target.linkTask, Target.linkExec, Target.finishRun] <;>
    repeat' split
  all_goals first
    | (intro h; rw [h1] at h; simp at h; done)
    | (intro h; simp at h; done)
    | (intro _; exact ⟨_, rfl, rfl, rfl⟩)

theorem g_ended {σ : Generator.Sys} {e : Generator.Event} {r : Generator.Run}
    (he : e.progress = true) (h1 : σ.run = some r) (h2 : (Generator.step σ e).run = none) :
    ∃ d, (Generator.step σ e).done = some d ∧ d.ok = (Generator.step σ e).ok := by
  revert h2
  cases e <;> simp only [Generator.Event.progress, Bool.false_eq_true] at he <;>
    simp only [Generator.step, Generator.inRun, h1, Generator.beginRun, Generator.taskRun,
      Generator.callRun, Generator.finishRun] <;> repeat' split
  all_goals first
    | (intro h; rw [h1] at h; simp at h; done)
    | (intro h; simp at h; done)
    | (intro _; exact ⟨_, rfl, rfl⟩)
    | (rename_i hok; intro _; exact ⟨_, rfl, by simpa using hok⟩)

theorem g_cfg {σ : Generator.Sys} {e : Generator.Event} {r r' : Generator.Run}
    (he : e.progress = true) (h1 : σ.run = some r) (h2 : (Generator.step σ e).run = some r') :
    r'.cfg = r.cfg := by
  revert h2
  cases e <;> simp only [Generator.Event.progress, Bool.false_eq_true] at he <;>
    simp only [Generator.step, Generator.inRun, h1, Generator.beginRun, Generator.taskRun,
      Generator.callRun, Generator.finishRun] <;> repeat' split
  all_goals first
    | (intro h; rw [h1] at h; simp only [Option.some.injEq] at h; rw [h]; done)
    | (intro h; simp at h; done)
    | (intro h; simp only [Option.some.injEq] at h; rw [← h]; done)
    | (intro h; simp only [Option.some.injEq] at h; rw [← h]; rfl)

/-! ## Single builders -/

/-- The invariants of the single builders. -/
def Good (r : Rules) (j : Str) : Comp → Prop
  | .target fx σ => Target.CompileLocal fx ∧ Target.PchLocal fx ∧ Target.SysInv fx σ ∧
      Target.RunPaths σ
  | .gen σ => Generator.SInv (r.means j) (r.configs j) σ

theorem good_step {r : Rules} {j : Str} {c : Comp} {e : Ev} (hs : r.Sound) (h : Good r j c)
    (ha : r.allowed j c e) : Good r j (c.step e) := by
  cases c <;> cases e
  · obtain ⟨h1, h2, h3, h4⟩ := h
    exact ⟨h1, h2, Target.inv_step h1 h2 h3 _ ha, Target.runPaths_step h4 _⟩
  · exact h
  · exact h
  · exact Generator.sinv_step (hs j) h ha

theorem allowed_task {r : Rules} {j : Str} {c : Comp} {e : Ev} (he : e.isTask = true) :
    r.allowed j c e := by
  cases c <;> cases e <;> try trivial
  · rename_i e
    cases e <;> simp only [Ev.isTask, Target.Event.progress, Bool.false_eq_true] at he <;> trivial
  · rename_i e
    cases e <;> simp only [Ev.isTask, Generator.Event.progress, Bool.false_eq_true] at he <;> trivial

theorem allowed_look {r : Rules} {j : Str} {c : Comp} {e : Ev} (he : e.isLook = true) :
    r.allowed j c e := by
  cases c <;> cases e <;> try trivial
  · rename_i e
    cases e <;> simp only [Ev.isLook, Bool.false_eq_true] at he <;> trivial
  · rename_i e
    cases e <;> simp only [Ev.isLook, Bool.false_eq_true] at he <;> trivial

theorem good_fail {r : Rules} {j : Str} {c : Comp} (hs : r.Sound) (h : Good r j c) :
    Good r j c.fail := by
  refine good_step hs (good_step hs h ?_) ?_
  · cases c <;> trivial
  · cases c <;> trivial

theorem good_dropState {r : Rules} {j : Str} {c : Comp} (hs : r.Sound) (h : Good r j c) :
    Good r j c.dropState := by
  refine good_step hs (good_step hs h ?_) ?_
  · cases c <;> trivial
  · cases c <;> trivial

theorem good_kill {r : Rules} {j : Str} {c : Comp} {o : List Str} {w : Option Nat} (hs : r.Sound)
    (h : Good r j c) : Good r j (c.kill o w) := by
  refine good_step hs (good_step hs h ?_) ?_
  · cases c <;> trivial
  · cases c <;> trivial

/-- What the rules say about a change of a file. -/
def WriteOk (r : Rules) (j : Str) (c : Comp) (p : Str) : Option Nat → Prop
  | some t => r.allowed j c (.t (.edit p t)) ∧ r.allowed j c (.g (.edit p t))
  | none => r.allowed j c (.g (.delete p))

theorem good_write {r : Rules} {j : Str} {c : Comp} {p : Str} {x : Option Nat} (hs : r.Sound)
    (h : Good r j c) (ha : WriteOk r j c p x) : Good r j (c.write p x) := by
  cases x with
  | none =>
    refine good_step hs (good_step hs h ?_) ?_
    · cases c <;> trivial
    · cases c
      · trivial
      · exact ha
  | some t =>
    refine good_step hs (good_step hs h ?_) ?_
    · cases c
      · exact ha.1
      · trivial
    · cases c
      · trivial
      · exact ha.2

theorem writeOk_idle {r : Rules} {j : Str} {c : Comp} {p : Str} {x : Option Nat}
    (h : c.running = false) (hu : ∀ t, x = some t → t ∉ c.used p) : WriteOk r j c p x := by
  cases c with
  | target fx σ =>
    simp only [Comp.running, Option.isSome_eq_false_iff, Option.isNone_iff_eq_none] at h
    cases x with
    | none => trivial
    | some t => exact ⟨⟨hu t rfl, fun r hr => by rw [h] at hr; simp at hr⟩, trivial⟩
  | gen σ =>
    simp only [Comp.running, Option.isSome_eq_false_iff, Option.isNone_iff_eq_none] at h
    cases x with
    | none => exact fun ⟨_, _, _, hr, _⟩ => by rw [h] at hr; simp at hr
    | some t => exact ⟨trivial, hu t rfl, fun ⟨_, _, _, hr, _⟩ => by rw [h] at hr; simp at hr⟩

theorem writeOk_initial {r : Rules} {j : Str} {c : Comp} {p : Str} {x : Option Nat}
    (h : Initial c) (hu : ∀ t, x = some t → t ∉ c.used p) : WriteOk r j c p x := by
  cases c with
  | target fx σ =>
    obtain ⟨-, r, hr, -, hp⟩ := h
    cases x with
    | none => trivial
    | some t =>
      refine ⟨⟨hu t rfl, fun r' hr' hn hph => ?_⟩, trivial⟩
      rw [hr] at hr'
      simp only [Option.some.injEq] at hr'
      subst hr'
      rw [if_pos hn] at hp
      rw [hp] at hph
      simp at hph
  | gen σ =>
    obtain ⟨-, r, hr, -, hw⟩ := h
    have : ¬ Generator.Relied σ p := by
      rintro ⟨r', id, i, hr', hi, hp, hs⟩
      rw [hr] at hr'
      simp only [Option.some.injEq] at hr'
      subst hr'
      rw [hw id] at hs
      simp [Generator.Status.good] at hs
    cases x with
    | none => exact this
    | some t => exact ⟨trivial, hu t rfl, this⟩

/-- How far a builder of the running process has come: it has the configuration the process
gave it; if it has ended, nothing was changed from outside and nothing failed, it is up to
date. -/
def Tracked (r : Rules) (j : Str) (calm ok begun : Bool) : Setup → Comp → Prop
  | .target c o, .target fx σ =>
    (∀ x, σ.run = some x → x.cfg = c ∧ (calm = true → Shadow fx c o begun σ)) ∧
    (σ.run = none → begun = true ∧ (calm = true → ok = true → Clean fx σ c))
  | .gen c, .gen σ =>
    (∀ x, σ.run = some x → x.cfg = c) ∧
    (σ.run = none → begun = true ∧ (calm = true → ok = true →
      ∀ id i, Generator.find id c = some i → Generator.Current (r.means j) σ id i))
  | _, _ => False

theorem Tracked.upToDate {r : Rules} {j : Str} {b : Bool} {s : Setup} {c : Comp}
    (h : Tracked r j true true b s c) (hr : c.running = false) : UpToDate r j s c := by
  cases s <;> cases c <;> try exact h.elim
  all_goals
    simp only [Comp.running, Option.isSome_eq_false_iff, Option.isNone_iff_eq_none] at hr
    exact (h.2 hr).2 rfl rfl

theorem good_start {r : Rules} {j : Str} {c : Comp} {s : Setup} (hs : r.Sound) (hg : Good r j c)
    (ha : StartRule r j c s) : Good r j (c.start s) := by
  cases s
  · exact good_step hs hg ha
  · exact good_step hs hg ha

theorem tracked_start {r : Rules} {j : Str} {c : Comp} {s : Setup} (hg : Good r j c)
    (h : c.running = false) (h1 : (c.start s).running = true) (ha : StartRule r j c s) :
    Tracked r j true true false s (c.start s) := by
  cases c with
  | target fx σ =>
    simp only [Comp.running, Option.isSome_eq_false_iff, Option.isNone_iff_eq_none] at h
    cases s with
    | gen c => simp [Comp.start, Comp.step, Comp.running, h] at h1
    | target c o =>
      obtain ⟨-, -, g3, -⟩ := hg
      have h1' : (Target.step fx σ (.start c o)).run.isSome = true := h1
      refine ⟨fun x hx => ⟨(Target.start_cfgIs h).1 x hx, fun _ => ?_⟩, fun hn => ?_⟩
      · exact Shadow.start h g3 (ha h) h1
      · rw [hn] at h1'; simp at h1'
  | gen σ =>
    simp only [Comp.running, Option.isSome_eq_false_iff, Option.isNone_iff_eq_none] at h
    cases s with
    | target c o => simp [Comp.start, Comp.step, Comp.running, h] at h1
    | gen c =>
      have h1' : (Generator.step σ (.start c)).run.isSome = true := h1
      refine ⟨fun x hx => ?_, fun hn => ?_⟩
      · revert hx
        simp only [Generator.step, Generator.startRun, h]
        split
        · intro hx; simp only [Option.some.injEq] at hx; rw [← hx]
        · rw [h]; intro hx; simp at hx
      · rw [hn] at h1'; simp at h1'

theorem Tracked.begin {r : Rules} {j : Str} {calm ok b : Bool} {s : Setup} {c : Comp}
    (h : Tracked r j calm ok b s c) : Tracked r j calm ok true s c := by
  cases s <;> cases c <;> try exact h.elim
  · exact ⟨fun x hx => ⟨(h.1 x hx).1, fun hc => ((h.1 x hx).2 hc).begin⟩,
      fun hn => ⟨rfl, (h.2 hn).2⟩⟩
  · exact ⟨h.1, fun hn => ⟨rfl, (h.2 hn).2⟩⟩

theorem Tracked.task {r : Rules} {j : Str} {calm ok : Bool} {s : Setup} {c : Comp} {e : Ev}
    (hg : Good r j c) (h : Tracked r j calm ok true s c) (hr : c.running = true)
    (he : e.isTask = true) : Tracked r j calm (ok && (c.step e).ok) true s (c.step e) := by
  cases s <;> cases c <;> try exact h.elim
  · rename_i c o fx σ
    obtain ⟨r, hr⟩ := Option.isSome_iff_exists.1 hr
    cases e with
    | g e =>
      exact ⟨h.1, fun hn => absurd (hr.symm.trans hn) (by simp)⟩
    | t e =>
      have he' : e.outside = false ∧ e.isStart = false := by
        cases e <;> simp only [Ev.isTask, Target.Event.progress, Bool.false_eq_true] at he <;>
          exact ⟨rfl, rfl⟩
      obtain ⟨g1, g2, g3, g4⟩ := hg
      obtain ⟨hcfg, hsh⟩ := h.1 r hr
      refine ⟨fun x hx => ⟨?_, fun hc => (hsh hc).task he'.1 he'.2 (.inl rfl)⟩,
        fun hn => ⟨rfl, fun hc hok => ?_⟩⟩
      · exact Target.cfgIs_step (fun x hx => (h.1 x hx).1) he'.2 x hx
      · obtain ⟨d, hd, hdo, hdc⟩ := t_ended he hr hn
        simp only [Bool.and_eq_true] at hok
        have := ((hsh hc).task (e := e) he'.1 he'.2 (.inl rfl)).clean g1 g2 hd
          (hdo.trans hok.2)
        rw [hdc, hcfg] at this
        exact this
  · rename_i c σ
    obtain ⟨r, hr⟩ := Option.isSome_iff_exists.1 hr
    cases e with
    | t e =>
      exact ⟨h.1, fun hn => absurd (hr.symm.trans hn) (by simp)⟩
    | g e =>
      have hcfg := h.1 r hr
      refine ⟨fun x hx => (g_cfg he hr hx).trans hcfg, fun hn => ⟨rfl, fun hc hok => ?_⟩⟩
      obtain ⟨d, hd, hdo⟩ := g_ended he hr hn
      simp only [Bool.and_eq_true] at hok
      have := (Generator.SInv.ended hg hr hd (hdo.trans hok.2)).2
      rw [hcfg] at this
      exact this

theorem Tracked.look {r : Rules} {j : Str} {calm ok : Bool} {s : Setup} {c : Comp} {e : Ev}
    (h : Tracked r j calm ok true s c) (he : e.isLook = true) :
    Tracked r j calm ok true s (c.step e) := by
  cases s <;> cases c <;> try exact h.elim
  · rename_i c o fx σ
    cases e with
    | g e => exact h
    | t e =>
      cases e <;> simp only [Ev.isLook, Bool.false_eq_true] at he
      rename_i p v
      have hrun : (Target.step fx σ (.look p v)).run = σ.run := by
        simp only [Target.step, Target.lookAt]; split <;> rfl
      refine ⟨fun x hx => ?_, fun hn => ?_⟩
      · have hx : (Target.step fx σ (.look p v)).run = some x := hx
        rw [hrun] at hx
        exact ⟨(h.1 x hx).1, fun hc => ((h.1 x hx).2 hc).task rfl rfl (.inl rfl)⟩
      · have hn : (Target.step fx σ (.look p v)).run = none := hn
        rw [hrun] at hn
        refine ⟨rfl, fun hc hok => ?_⟩
        have := (h.2 hn).2 hc hok
        refine this.congr ?_ ?_ ?_ fun q _ => ?_ <;>
          (simp only [Target.step, Target.lookAt]; split <;> rfl)
  · rename_i c σ
    rcases look_cases (.gen σ) he with he | ⟨fx, σ', v, hc, he⟩ | ⟨σ', v, hc, he⟩
    · rw [he]; exact h
    · simp at hc
    · rw [he]
      simp only [Comp.gen.injEq] at hc
      subst hc
      exact ⟨h.1, h.2⟩

theorem Tracked.fail {r : Rules} {j : Str} {calm ok b : Bool} {s : Setup} {c : Comp}
    (h : Tracked r j calm ok b s c) : Tracked r j calm false b s c.fail := by
  cases s <;> cases c <;> try exact h.elim
  · rename_i c o fx σ
    have hstep : ∀ x, (Target.step fx σ .otherFail).run = some x → σ.run = some x := by
      intro x; simp only [Target.step]; split <;> exact fun h => h
    have hstep' : (Target.step fx σ .otherFail).run = none → σ.run = none := by
      simp only [Target.step]; split <;> exact fun h => h
    exact ⟨fun x hx => ⟨(h.1 x (hstep x hx)).1, fun hc =>
        ((h.1 x (hstep x hx)).2 hc).task rfl rfl (.inr rfl)⟩,
      fun hn => ⟨(h.2 (hstep' hn)).1, by simp⟩⟩
  · rename_i c σ
    have hstep : ∀ x, (Generator.step σ .otherFail).run = some x → σ.run = some x := by
      intro x; simp only [Generator.step]; split <;> exact fun h => h
    have hstep' : (Generator.step σ .otherFail).run = none → σ.run = none := by
      simp only [Generator.step]; split <;> exact fun h => h
    exact ⟨fun x hx => h.1 x (hstep x hx), fun hn => ⟨(h.2 (hstep' hn)).1, by simp⟩⟩

theorem t_write_parts (fx : Fixed) (σ : Target.Sys) (p : Str) (e : Target.Event)
    (he : (∃ t, e = .edit p t) ∨ e = .delete p) :
    (Target.step fx σ e).run = σ.run ∧ (Target.step fx σ e).objs = σ.objs ∧
    (Target.step fx σ e).pch = σ.pch ∧ (Target.step fx σ e).bin = σ.bin ∧
    ∀ q, q ≠ p → (Target.step fx σ e).files q = σ.files q := by
  rcases he with ⟨t, rfl⟩ | rfl
  · exact ⟨rfl, rfl, rfl, rfl, fun q hq => by simp [Target.step, Target.Sys.put, upd, hq]⟩
  · exact ⟨rfl, rfl, rfl, rfl, fun q hq => by simp [Target.step, Target.Sys.put, upd, hq]⟩

theorem g_write_parts (σ : Generator.Sys) (p : Str) (e : Generator.Event)
    (he : (∃ t, e = .edit p t) ∨ e = .delete p) :
    (Generator.step σ e).run = σ.run ∧ (Generator.step σ e).last = σ.last ∧
    ∀ q, q ≠ p → (Generator.step σ e).files q = σ.files q := by
  rcases he with ⟨t, rfl⟩ | rfl
  · exact ⟨rfl, rfl, fun q hq => by simp [Generator.step, Generator.Sys.put, upd, hq]⟩
  · exact ⟨rfl, rfl, fun q hq => by simp [Generator.step, Generator.Sys.put, upd, hq]⟩

/-- A change as an event of a target and of a generator. -/
theorem write_cases (c : Comp) (p : Str) (x : Option Nat) :
    (∃ fx σ e, c = .target fx σ ∧ c.write p x = .target fx (Target.step fx σ e) ∧
      ((∃ t, e = .edit p t ∧ x = some t) ∨ e = .delete p)) ∨
    ∃ σ e, c = .gen σ ∧ c.write p x = .gen (Generator.step σ e) ∧
      ((∃ t, e = .edit p t) ∨ e = .delete p) := by
  cases c with
  | target fx σ =>
    cases x with
    | none => exact .inl ⟨fx, σ, .delete p, rfl, rfl, .inr rfl⟩
    | some t => exact .inl ⟨fx, σ, .edit p t, rfl, rfl, .inl ⟨t, rfl, rfl⟩⟩
  | gen σ =>
    cases x with
    | none => exact .inr ⟨σ, .delete p, rfl, rfl, .inr rfl⟩
    | some t => exact .inr ⟨σ, .edit p t, rfl, rfl, .inl ⟨t, rfl⟩⟩

/-- Changes of files that the builder does not read, and changes before its tasks begin. -/
theorem Tracked.write {r : Rules} {j : Str} {calm ok b : Bool} {s : Setup} {c : Comp} {p : Str}
    {x : Option Nat} (hg : Good r j c) (h : Tracked r j calm ok b s c)
    (hu : ∀ t, x = some t → t ∉ c.used p)
    (hp : b = false ∨ p ∉ s.inputs) : Tracked r j calm ok b s (c.write p x) := by
  rcases write_cases c p x with ⟨fx, σ, e, rfl, hw, he⟩ | ⟨σ, e, rfl, hw, he⟩
  · rw [hw]
    cases s with
    | gen cfg => exact h.elim
    | target cfg o =>
      obtain ⟨g1, g2, g3, g4⟩ := hg
      obtain ⟨k1, k2, k3, k4, k5⟩ := t_write_parts fx σ p e (he.imp (fun ⟨t, h, _⟩ => ⟨t, h⟩) id)
      refine ⟨fun x hx => ?_, fun hn => ?_⟩
      · rw [k1] at hx
        exact ⟨(h.1 x hx).1, fun hc => ((h.1 x hx).2 hc).write g1 g2
          (he.imp (fun ⟨t, h1, h2⟩ => ⟨t, h1, hu t h2⟩) id) hp⟩
      · rw [k1] at hn
        obtain ⟨hb, hcl⟩ := h.2 hn
        refine ⟨hb, fun hc hok => (hcl hc hok).congr k2 k3 k4 fun q hq => k5 q ?_⟩
        rintro rfl
        rcases hp with hp | hp
        · rw [hb] at hp; simp at hp
        · exact hp hq
  · rw [hw]
    cases s with
    | target cfg o => exact h.elim
    | gen cfg =>
      obtain ⟨k1, k2, k3⟩ := g_write_parts σ p e he
      refine ⟨fun x hx => ?_, fun hn => ?_⟩
      · rw [k1] at hx; exact h.1 x hx
      · rw [k1] at hn
        obtain ⟨hb, hcl⟩ := h.2 hn
        refine ⟨hb, fun hc hok id i hi => (hcl hc hok id i hi).congr (by rw [k2]) fun q hq => k3 q ?_⟩
        rintro rfl
        rcases hp with hp | hp
        · rw [hb] at hp; simp at hp
        · refine hp ?_
          simp only [Setup.inputs, List.mem_flatMap]
          exact ⟨(id, i), Generator.find_mem hi, hq⟩

/-- Changes from outside. -/
theorem Tracked.outside {r : Rules} {j : Str} {calm ok b : Bool} {s : Setup} {c : Comp} {p : Str}
    {x : Option Nat} (h : Tracked r j calm ok b s c) : Tracked r j false ok b s (c.write p x) := by
  rcases write_cases c p x with ⟨fx, σ, e, rfl, hw, he⟩ | ⟨σ, e, rfl, hw, he⟩
  · rw [hw]
    cases s with
    | gen cfg => exact h.elim
    | target cfg o =>
      obtain ⟨k1, -⟩ := t_write_parts fx σ p e (he.imp (fun ⟨t, h, _⟩ => ⟨t, h⟩) id)
      refine ⟨fun x hx => ?_, fun hn => ?_⟩
      · rw [k1] at hx
        exact ⟨(h.1 x hx).1, by simp⟩
      · rw [k1] at hn
        exact ⟨(h.2 hn).1, by simp⟩
  · rw [hw]
    cases s with
    | target cfg o => exact h.elim
    | gen cfg =>
      obtain ⟨k1, -⟩ := g_write_parts σ p e he
      refine ⟨fun x hx => ?_, fun hn => ?_⟩
      · rw [k1] at hx; exact h.1 x hx
      · rw [k1] at hn; exact ⟨(h.2 hn).1, by simp⟩

/-- A begun builder that is told the truth about its inputs may see other files change. -/
theorem writeOk_tracked {r : Rules} {j : Str} {calm ok b : Bool} {s : Setup} {c : Comp} {p : Str}
    {x : Option Nat} (h : Tracked r j calm ok b s c) (hu : ∀ t, x = some t → t ∉ c.used p)
    (hp : p ∉ s.inputs) : WriteOk r j c p x := by
  cases s <;> cases c <;> try exact h.elim
  · rename_i c o fx σ
    cases x with
    | none => trivial
    | some t =>
      refine ⟨⟨hu t rfl, fun x hx _ _ hh => hp ?_⟩, trivial⟩
      rw [(h.1 x hx).1] at hh
      simp [Setup.inputs, hh]
  · rename_i c σ
    have : ¬ Generator.Relied σ p := by
      rintro ⟨x, id, i, hx, hi, hin, -⟩
      have hh := Generator.inputs_mem hi hin
      rw [h.1 x hx] at hh
      exact hp hh
    cases x with
    | none => exact this
    | some t => exact ⟨trivial, hu t rfl, this⟩

/-! ## Outputs -/

theorem outputs_step (c : Comp) (e : Ev) (s : Setup) : outputs (c.step e) s = outputs c s := by
  cases c <;> cases e <;> cases s <;> rfl

theorem outputs_write (c : Comp) (p : Str) (x : Option Nat) (s : Setup) :
    outputs (c.write p x) s = outputs c s := by
  cases x <;> exact (outputs_step _ _ _).trans (outputs_step _ _ _)

theorem outputs_fail (c : Comp) (s : Setup) : outputs c.fail s = outputs c s :=
  (outputs_step _ _ _).trans (outputs_step _ _ _)

theorem outputs_start (c : Comp) (s' s : Setup) : outputs (c.start s') s = outputs c s := by
  cases s' <;> exact outputs_step _ _ _

/-- A builder writes its outputs only. -/
theorem mayWrite_outputs {r : Rules} {j : Str} {calm ok b : Bool} {s : Setup} {c : Comp} {e : Ev}
    (hg : Good r j c) (h : Tracked r j calm ok b s c) {p : Str} (hp : p ∈ mayWrite c e) :
    p ∈ outputs c s := by
  cases s <;> cases c <;> try exact h.elim
  · rename_i c o fx σ
    obtain ⟨-, -, -, g4⟩ := hg
    cases e with
    | g e => simp [mayWrite] at hp
    | t e =>
      cases hr : σ.run with
      | none => cases e <;> simp [mayWrite, hr] at hp
      | some x =>
        cases e <;> simp only [mayWrite, hr, List.not_mem_nil] at hp
        · split at hp
          · simp [outputs, hp]
          · simp at hp
        · split at hp
          · split at hp
            · rename_i i hi
              simp only [List.mem_singleton] at hp
              have := (g4 x hr).2 i (List.mem_of_getElem? hi)
              rw [(h.1 x hr).1] at this
              simp only [outputs, List.mem_append, List.mem_map]
              exact .inl (.inr ⟨_, this, hp.symm⟩)
            · simp at hp
          · simp at hp
        · split at hp
          · simp [outputs, hp]
          · simp at hp
  · rename_i c σ
    cases e with
    | t e => simp [mayWrite] at hp
    | g e =>
      cases hr : σ.run with
      | none => cases e <;> simp [mayWrite, hr] at hp
      | some x =>
        cases e <;> simp only [mayWrite, hr, List.not_mem_nil] at hp
        split at hp
        · rename_i i hi _
          rw [h.1 x hr] at hi
          simp only [outputs, List.mem_flatMap]
          exact ⟨_, Generator.find_mem hi, hp⟩
        · simp at hp

/-! ## The world -/

structure WInv (r : Rules) (w : World) : Prop where
  base : BInv w
  good : ∀ j, Good r j (w.comps j)
  plan : w.active = true → Valid w.graph ∧ Acyclic w.graph.edges ∧ Declared w w.graph w.setup
  track : w.active = true → ∀ j ∈ w.graph.ids,
    Tracked r j w.calm w.ok (decide (j ∈ w.begun)) (w.setup j) (w.comps j)

theorem wInv_init {r : Rules} {kinds : Str → Kind} (hk : ShippedAll kinds) :
    WInv r (World.init kinds) where
  base := bInv_init kinds
  good := by
    intro j
    simp only [World.init]
    cases h : kinds j with
    | target fx =>
      have := hk j fx h
      exact ⟨this.compileLocal, this.pchLocal, Target.inv_init fx, by
        intro r hr; simp [Target.Sys.init] at hr⟩
    | gen => exact Generator.sinv_init
  plan := by simp [World.init]
  track := by simp [World.init]

/-- A builder of the running process writes one of its outputs. -/
theorem write_wInv {r : Rules} {w : World} {p : Str} {x : Option Nat} {a : Str} (hs : r.Sound)
    (h : WInv r w) (ha : w.active = true) (hb : a ∈ w.begun)
    (hnf : ∀ j ∈ w.begun, ¬ Reaches w.graph.edges a j)
    (hp : p ∈ outputs (w.comps a) (w.setup a)) (hx : ∀ t, x = some t → t ∉ w.used p) :
    WInv r (w.write p x) := by
  obtain ⟨hv, hc, hd⟩ := h.plan ha
  have hai := h.base.sub a hb
  have hin : ∀ j ∈ w.graph.ids, j ∉ w.begun ∨ p ∉ (w.setup j).inputs := by
    intro j hj
    by_cases hjb : j ∈ w.begun
    · exact .inr fun hpi => hnf j hjb (hd a hai j hj p hp hpi)
    · exact .inl hjb
  have hu : ∀ j t, x = some t → t ∉ (w.comps j).used p := by
    intro j t ht; rw [(h.base.views j).2]; exact hx t ht
  refine ⟨write_bInv h.base, fun j => ?_, fun _ => ⟨hv, hc, ?_⟩, fun _ j hj => ?_⟩
  · refine good_write hs (h.good j) ?_
    by_cases hj : j ∈ w.graph.ids
    · rcases hin j hj with h1 | h1
      · exact writeOk_initial (h.base.waiting ha j hj h1) (hu j)
      · exact writeOk_tracked (h.track ha j hj) (hu j) h1
    · exact writeOk_idle (h.base.out j hj) (hu j)
  · intro a ha b hb q hq hq'
    simp only [World.write, outputs_write] at hq
    exact hd a ha b hb q hq hq'
  · refine (h.track ha j hj).write (h.good j) (hu j) ?_
    rcases hin j hj with h1 | h1
    · exact .inl (decide_eq_false h1)
    · exact .inr h1

theorem outside_wInv {r : Rules} {w : World} {p : Str} {x : Option Nat} (hs : r.Sound)
    (h : WInv r w) (ha : ∀ j, WriteOk r j (w.comps j) p x) :
    WInv r { w.write p x with calm := false } := by
  have hb := write_bInv (p := p) (x := x) h.base
  refine ⟨⟨hb.views, hb.idle, hb.out, hb.sub, hb.nodup, hb.order, hb.agree, hb.waiting⟩,
    fun j => good_write hs (h.good j) (ha j), fun hact => ?_, fun hact j hj => ?_⟩
  · obtain ⟨hv, hc, hd⟩ := h.plan hact
    refine ⟨hv, hc, ?_⟩
    intro a ha b hb q hq hq'
    simp only [World.write, outputs_write] at hq
    exact hd a ha b hb q hq hq'
  · exact (h.track hact j hj).outside

theorem stepped_wInv {r : Rules} {w : World} {id : Str} {e : Ev} {ws : Writes} (hs : r.Sound)
    (h : WInv r w) (ha : w.active = true) (hb : id ∈ w.begun) (hr : (w.comps id).running = true)
    (he : e.isTask = true) : WInv r (w.stepped id e ws) := by
  obtain ⟨hv, hc, hd⟩ := h.plan ha
  refine ⟨stepped_bInv h.base ha hb hr he, fun j => ?_, fun _ => ⟨hv, hc, ?_⟩, fun _ j hj => ?_⟩
  · simp only [World.stepped]
    split
    · rename_i e'; subst e'; exact good_step hs (h.good _) (allowed_task he)
    · split
      · exact good_fail hs (h.good j)
      · exact h.good j
  · intro a ha b hb q hq hq'
    refine hd a ha b hb q ?_ hq'
    revert hq
    simp only [World.stepped]
    split
    · rename_i e'; subst e'; rw [outputs_step]; exact fun h => h
    · split
      · rw [outputs_fail]; exact fun h => h
      · exact fun h => h
  · have ht := h.track ha j hj
    simp only [World.stepped]
    split
    · rename_i e'
      subst e'
      have hd : decide (j ∈ (w.stepped j e ws).begun) = true := decide_eq_true hb
      rw [decide_eq_true hb] at ht
      refine Eq.mp ?_ (ht.task (h.good _) hr he)
      rw [← hd]
      rfl
    · split
      · rename_i hok
        simp only [Bool.and_eq_true, Bool.not_eq_true'] at hok
        rw [hok.2, Bool.and_false]
        exact ht.fail
      · rename_i hok
        have : (w.ok && ((w.comps id).step e).ok) = w.ok := by
          revert hok; cases w.ok <;> simp
        rw [this]
        exact ht

theorem wInv_step {r : Rules} {w : World} (hs : r.Sound) (h : WInv r w) {e : WEvent}
    (hal : WAllowed r w e) : WInv r (w.step e) := by
  have hbase := bInv_step h.base e
  cases e with
  | edit p t =>
    exact outside_wInv (x := some t) hs h hal
  | delete p => exact outside_wInv (x := none) hs h hal
  | dropState id =>
    revert hbase
    simp only [World.step]
    split
    · intro _; exact h
    · rename_i ha
      intro hbase
      refine ⟨hbase, fun j => ?_, fun h' => absurd h' ha, fun h' => absurd h' ha⟩
      simp only [upd]
      split
      · rename_i e; subst e; exact good_dropState hs (h.good _)
      · exact h.good j
  | launch g s =>
    revert hbase
    simp only [World.step]
    split
    · rename_i hl
      simp only [Bool.and_eq_true, Bool.not_eq_true', List.all_eq_true] at hl
      obtain ⟨ha, hl⟩ := hl
      obtain ⟨hv, hc, hd, hst⟩ := hal ha
      intro hbase
      refine ⟨hbase, fun j => ?_, fun _ => ⟨hv, hc, ?_⟩, fun _ j hj => ?_⟩
      · simp only
        split
        · rename_i hj; exact good_start hs (h.good j) (hst j hj)
        · exact h.good j
      · intro a ha b hb q hq hq'
        refine hd a ha b hb q ?_ hq'
        revert hq
        simp only
        rw [if_pos ha, outputs_start]
        exact fun h => h
      · simp only [if_pos hj]
        exact tracked_start (h.good j) (h.base.idle ha j) (hl j hj) (hst j hj)
    · intro _; exact h
  | «begin» id =>
    revert hbase
    simp only [World.step]
    split
    · intro hbase
      rename_i hg
      refine ⟨hbase, h.good, h.plan, fun ha j hj => ?_⟩
      have ht := h.track ha j hj
      by_cases hjb : j ∈ w.begun
      · have e1 : decide (j ∈ w.begun ++ [id]) = decide (j ∈ w.begun) := by simp [hjb]
        simp only [e1]
        exact ht
      · by_cases hji : j = id
        · have e1 : decide (j ∈ w.begun ++ [id]) = true := by simp [hji]
          simp only [e1]
          exact ht.begin
        · have e1 : decide (j ∈ w.begun ++ [id]) = decide (j ∈ w.begun) := by simp [hjb, hji]
          simp only [e1]
          exact ht
    · intro _; exact h
  | task id e ws =>
    simp only [World.step]
    split
    · rename_i hg
      simp only [Bool.and_eq_true, decide_eq_true_eq] at hg
      obtain ⟨⟨⟨⟨ha, hb⟩, hr⟩, he⟩, hl⟩ := hg
      obtain ⟨h1, h2⟩ := legal_spec hl
      rw [task_eq]
      have hnf : ∀ j ∈ w.begun, ¬ Reaches w.graph.edges id j := by
        intro j hj hre
        have := h.base.finished_of_reaches ha hre hj
        simp [World.finished, hr] at this
      have hout : ∀ x ∈ ws, x.1 ∈ outputs (w.comps id) (w.setup id) := fun x hx =>
        mayWrite_outputs (h.good id) (h.track ha id (h.base.sub id hb)) (h2 x hx).1
      have key := writes_induction
        (P := fun w' => WInv r w' ∧ w'.active = true ∧ w'.begun = w.begun ∧ w'.graph = w.graph ∧
          w'.setup = w.setup ∧ outputs (w'.comps id) (w.setup id) = outputs (w.comps id) (w.setup id))
        (ok := fun p => p ∈ outputs (w.comps id) (w.setup id))
        (fun w' p x hw hp hx => by
          obtain ⟨k1, k2, k3, k4, k5, k6⟩ := hw
          refine ⟨write_wInv (a := id) hs k1 k2 (by rw [k3]; exact hb) (by rw [k3, k4]; exact hnf)
            (by rw [k5, k6]; exact hp) hx, k2, k3, k4, k5, ?_⟩
          simp only [World.write, outputs_write, k6])
        ws (w.stepped id e ws)
        ⟨stepped_wInv hs h ha hb hr he, ha, rfl, rfl, rfl, by
          simp only [World.stepped, if_true, outputs_step]⟩ h1
        fun x hx => ⟨hout x hx, (h2 x hx).2⟩
      exact key.1
    · exact h
  | look id e =>
    revert hbase
    simp only [World.step]
    split
    · intro hbase
      rename_i hg
      simp only [Bool.and_eq_true, decide_eq_true_eq] at hg
      obtain ⟨⟨⟨ha, hb⟩, -⟩, he⟩ := hg
      obtain ⟨hv, hc, hd⟩ := h.plan ha
      refine ⟨hbase, fun j => ?_, fun _ => ⟨hv, hc, ?_⟩, fun _ j hj => ?_⟩
      · simp only [upd]
        split
        · rename_i e'; subst e'; exact good_step hs (h.good _) (allowed_look he)
        · exact h.good j
      · intro a ha b hb q hq hq'
        refine hd a ha b hb q ?_ hq'
        revert hq
        simp only [upd]
        split
        · rename_i e'; subst e'; rw [outputs_step]; exact fun h => h
        · exact fun h => h
      · have ht := h.track ha j hj
        simp only [upd]
        split
        · rename_i e'; subst e'
          rw [decide_eq_true hb] at ht ⊢
          exact ht.look he
        · exact ht
    · intro _; exact h
  | join =>
    revert hbase
    simp only [World.step]
    split
    · intro hbase
      refine ⟨hbase, fun j => ?_, by simp, by simp⟩
      simp only
      split
      · exact good_kill hs (h.good j)
      · exact h.good j
    · intro _; exact h
  | kill order written =>
    revert hbase
    simp only [World.step]
    split
    · intro hbase
      refine ⟨hbase, fun j => ?_, by simp, by simp⟩
      simp only
      split
      · exact good_kill hs (h.good j)
      · exact h.good j
    · intro _; exact h

theorem wInv_steps {r : Rules} (hs : r.Sound) : ∀ (evs : List WEvent) (w : World), WInv r w →
    AllWAllowed r w evs → WInv r (w.steps evs) := by
  intro evs
  induction evs with
  | nil => intro w h _; exact h
  | cons e l ih => intro w h ha; exact ih _ (wInv_step hs h ha.1) ha.2

end Verif.Reg
