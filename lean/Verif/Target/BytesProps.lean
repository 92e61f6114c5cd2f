import Verif.Target.Bytes
import Verif.Target.SoundProps
import Verif.Target.ExactProps

/-!
# Contents of built files (C97)

The theorems about stale files, in terms of contents: a history that gives no file a stamp twice
leaves what a build from scratch would make of the contents.  Without that condition the new content
is not noticed.
-/

namespace Verif.Target
open Verif Verif.Command Verif.Schema Verif.Json

variable {β : Type}

/-! ## Descriptions and contents -/

/-- The files of the state that commands read or write. -/
def Sys.parts (σ : Sys) : (Str → Option Nat) × (Str → Option Nat) × (Str → List (Option Nat)) ×
    Option PchArt × (Str → Option ObjArt) × Option BinArt :=
  (σ.files, σ.view, σ.seen, σ.pch, σ.objs, σ.bin)

theorem pchTask_parts (σ : Sys) (r : Run) : (pchTask σ r).parts = σ.parts := by
  simp only [pchTask]; repeat' split
  all_goals rfl

theorem objTask_parts (σ : Sys) (r : Run) : (objTask σ r).parts = σ.parts := by
  simp only [objTask]; repeat' split
  all_goals rfl

theorem linkTask_parts (σ : Sys) (r : Run) : (linkTask σ r).parts = σ.parts := by
  simp only [linkTask]; repeat' split
  all_goals rfl

theorem still_parts (fx : Fixed) (σ : Sys) : (∀ c o, (step fx σ (.start c o)).parts = σ.parts) ∧
    (step fx σ .dropState).parts = σ.parts ∧ (step fx σ .otherFail).parts = σ.parts ∧
    (∀ k, (step fx σ (.add k)).parts = σ.parts) ∧ (∀ b, (step fx σ (.finish b)).parts = σ.parts) ∧
    (∀ w, (step fx σ (.crash w)).parts = σ.parts) := by
  refine ⟨fun c o => ?_, ?_, ?_, fun k => ?_, fun b => ?_, fun w => ?_⟩ <;>
    simp only [step, startRun, inPhase, addObj, finishRun, crashRun] <;> repeat' split
  all_goals rfl

/-- What the described contents of files are. -/
def evalReads (content : Str → Str → β) (l : Reads) : List (Str × Option β) :=
  l.map fun x => (x.1, x.2.map (content x.1))

def evalPch (T : Tools β) (content : Str → Str → β) (a : PchArt) : β :=
  T.pch a.cmd (evalReads content a.pchs) (evalReads content a.headers)

def evalObj (T : Tools β) (content : Str → Str → β) (a : ObjArt) : β :=
  T.obj a.cmd (a.src.map (content a.path)) (evalReads content a.headers) (evalReads content a.deps)
    (a.pch.map (evalPch T content))

def evalBin (T : Tools β) (content : Str → Str → β) (a : BinArt) : β :=
  T.bin a.cmd (a.objs.map fun o => o.map (evalObj T content)) (evalReads content a.libs)
    (evalReads content a.linkDeps) (a.pch.map (evalPch T content))

/-- The file was not made by successful commands only. -/
def taintPch (a : PchArt) : Prop := ∃ x ∈ a.pchs, x.2 = some b!"?"
def taintObj (a : ObjArt) : Prop := a.src = some b!"?" ∨ ∃ q, a.pch = some q ∧ taintPch q
def taintBin (a : BinArt) : Prop :=
  (∃ x ∈ a.libs, x.2 = some b!"?") ∨ (∃ o, some o ∈ a.objs ∧ taintObj o) ∨ ∃ q, a.pch = some q ∧ taintPch q

/-- A file described by the first has the content of the second. -/
def Holding {α : Type} (taint : α → Prop) (eval : α → β) : Option α → Option β → Prop
  | none, none => True
  | some a, some b => taint a ∨ b = eval a
  | _, _ => False

theorem Holding.map {α : Type} {taint : α → Prop} {eval : α → β} {a : Option α} {b : Option β}
    (h : Holding taint eval a b) (ht : ∀ x, a = some x → ¬ taint x) : b = a.map eval := by
  cases a <;> cases b <;> simp only [Holding] at h
  · rfl
  · rcases h with h | h
    · exact absurd h (ht _ rfl)
    · rw [h]; rfl

theorem digits_ne_junk (t : Nat) : digits t ≠ b!"?" := by
  intro h
  have := digits_isDigit t c!"?" (by rw [h]; simp)
  revert this
  decide

/-- The contents of the system are those that the descriptions say. -/
structure Rel (T : Tools β) (content : Str → Str → β) (s : BSys β) : Prop where
  files : ∀ p, s.sys.files p = (s.files p).map (·.1)
  view : ∀ p, s.sys.view p = (s.view p).map (·.1)
  seen : ∀ p, s.sys.seen p = (s.seen p).map fun y => y.map (·.1)
  cfiles : ∀ p y, s.files p = some y → y.2 = content p (digits y.1)
  cview : ∀ p y, s.view p = some y → y.2 = content p (digits y.1)
  cseen : ∀ p y, some y ∈ s.seen p → y.2 = content p (digits y.1)
  pch : Holding taintPch (evalPch T content) s.sys.pch s.pch
  objs : ∀ p, Holding taintObj (evalObj T content) (s.sys.objs p) (s.objs p)
  bin : Holding taintBin (evalBin T content) s.sys.bin s.bin

theorem rel_init (T : Tools β) (content : Str → Str → β) : Rel T content BSys.init where
  files _ := rfl
  view _ := rfl
  seen _ := rfl
  cfiles := by simp [BSys.init]
  cview := by simp [BSys.init]
  cseen := by simp [BSys.init]
  pch := trivial
  objs _ := trivial
  bin := trivial

section
variable {T : Tools β} {content : Str → Str → β}

theorem text_eval {f : Str → Option Nat} {g : Str → Option (Nat × β)}
    (h : ∀ p, f p = (g p).map (·.1)) (hc : ∀ p y, g p = some y → y.2 = content p (digits y.1)) (p : Str) :
    text g p = (version f p).map (content p) := by
  rw [text, version, h p]
  cases hg : g p with
  | none => rfl
  | some y => simp only [Option.map_some]; rw [hc p y hg]

theorem texts_eval {f : Str → Option Nat} {g : Str → Option (Nat × β)}
    (h : ∀ p, f p = (g p).map (·.1)) (hc : ∀ p y, g p = some y → y.2 = content p (digits y.1))
    (l : List PathInfo) : texts (text g) l = evalReads content (versions f l) := by
  rw [texts, evalReads, versions, List.map_map]
  refine List.map_congr_left fun i _ => ?_
  simp only [Function.comp]
  rw [text_eval h hc]

/-- Two states with the same files. -/
theorem Rel.of_parts {s s' : BSys β} (h : Rel T content s) (hp : s'.sys.parts = s.sys.parts)
    (h1 : s'.files = s.files) (h2 : s'.seen = s.seen) (h3 : s'.view = s.view) (h4 : s'.objs = s.objs)
    (h5 : s'.pch = s.pch) (h6 : s'.bin = s.bin) : Rel T content s' := by
  simp only [Sys.parts, Prod.mk.injEq] at hp
  obtain ⟨p1, p2, p3, p4, p5, p6⟩ := hp
  constructor
  · rw [p1, h1]; exact h.files
  · rw [p2, h3]; exact h.view
  · rw [p3, h2]; exact h.seen
  · rw [h1]; exact h.cfiles
  · rw [h3]; exact h.cview
  · rw [h2]; exact h.cseen
  · rw [p4, h5]; exact h.pch
  · rw [p5, h4]; exact h.objs
  · rw [p6, h6]; exact h.bin

theorem Rel.put {s : BSys β} (h : Rel T content s) (σ : Sys) (p : Str) (v : Option (Nat × β))
    (hσ : σ.parts = (s.sys.put p (v.map (·.1))).parts)
    (hv : ∀ y, v = some y → y.2 = content p (digits y.1)) :
    Rel T content { s.put p v with sys := σ } := by
  simp only [Sys.parts, Prod.mk.injEq, Sys.put] at hσ
  obtain ⟨p1, p2, p3, p4, p5, p6⟩ := hσ
  constructor
  · intro q
    rw [p1]
    by_cases e : q = p
    · simp [upd, BSys.put, e]
    · simp [upd, BSys.put, e, h.files]
  · intro q
    rw [p2]
    by_cases e : q = p
    · simp [upd, BSys.put, e]
    · simp [upd, BSys.put, e, h.view]
  · intro q
    rw [p3]
    by_cases e : q = p
    · simp [upd, BSys.put, e, h.seen]
    · simp [upd, BSys.put, e, h.seen]
  · intro q y hq
    by_cases e : q = p
    · subst e; exact hv y (by simpa [BSys.put, upd] using hq)
    · exact h.cfiles q y (by simpa [BSys.put, upd, e] using hq)
  · intro q y hq
    by_cases e : q = p
    · subst e; exact hv y (by simpa [BSys.put, upd] using hq)
    · exact h.cview q y (by simpa [BSys.put, upd, e] using hq)
  · intro q y hq
    by_cases e : q = p
    · subst e
      simp only [BSys.put, upd, if_true, List.mem_cons] at hq
      rcases hq with hq | hq
      · exact hv y hq.symm
      · exact h.cseen q y hq
    · exact h.cseen q y (by simpa [BSys.put, upd, e] using hq)
  · show Holding _ _ σ.pch s.pch; rw [p4]; exact h.pch
  · show ∀ p, Holding _ _ (σ.objs p) (s.objs p); rw [p5]; exact h.objs
  · show Holding _ _ σ.bin s.bin; rw [p6]; exact h.bin

theorem Rel.settle {s : BSys β} (h : Rel T content s) (σ : Sys) (hσ : σ.parts = s.sys.settle.parts) :
    Rel T content { s.settle with sys := σ } := by
  simp only [Sys.parts, Prod.mk.injEq, Sys.settle] at hσ
  obtain ⟨p1, p2, p3, p4, p5, p6⟩ := hσ
  constructor
  · intro q; rw [p1]; exact h.files q
  · intro q; rw [p2]; exact h.files q
  · intro q; rw [p3]; simp [BSys.settle, h.files]
  · exact h.cfiles
  · exact h.cfiles
  · intro q y hq
    simp only [BSys.settle, List.mem_singleton] at hq
    exact h.cfiles q y hq.symm
  · show Holding _ _ σ.pch s.pch; rw [p4]; exact h.pch
  · show ∀ p, Holding _ _ (σ.objs p) (s.objs p); rw [p5]; exact h.objs
  · show Holding _ _ σ.bin s.bin; rw [p6]; exact h.bin

theorem Rel.look {s : BSys β} (h : Rel T content s) (p : Str) (v : Option Nat) :
    Rel T content { s.lookAt p v with sys := Verif.Target.lookAt s.sys p v } := by
  rw [BSys.lookAt, Verif.Target.lookAt]
  have hm : v ∈ s.sys.seen p ↔ ((s.seen p).find? fun y => decide (y.map (·.1) = v)).isSome = true := by
    rw [h.seen, List.mem_map, List.find?_isSome]
    simp
  cases hf : (s.seen p).find? (fun y => decide (y.map (·.1) = v)) with
  | none =>
    rw [hf] at hm
    rw [if_neg (by simpa using hm)]
    exact h
  | some y =>
    rw [hf] at hm
    rw [if_pos (by simpa using hm)]
    have hy := List.find?_some hf
    have hy' := List.mem_of_find?_eq_some hf
    simp only [decide_eq_true_eq] at hy
    exact {
      files := h.files
      view := by
        intro q
        by_cases e : q = p
        · simp [upd, e, hy]
        · simp [upd, e, h.view]
      seen := h.seen
      cfiles := h.cfiles
      cview := by
        intro q z hz
        by_cases e : q = p
        · subst e
          have : y = some z := by simpa [upd] using hz
          exact h.cseen q z (this ▸ hy')
        · exact h.cview q z (by simpa [upd, e] using hz)
      cseen := h.cseen
      pch := h.pch
      objs := h.objs
      bin := h.bin }

/-- An event writes a file with the stamp and the content that belong together. -/
def BEvent.fits (content : Str → Str → β) : BEvent β → Prop
  | .edit p t x => x = content p (digits t)
  | _ => True

theorem junk_holding {α : Type} {taint : α → Prop} {eval : α → β} {junk : α} (hj : taint junk)
    (x : Option β) : Holding taint eval (x.map fun _ => junk) x := by
  cases x
  · trivial
  · exact .inl hj

theorem rel_step (fx : Fixed) {s : BSys β} (h : Rel T content s) (e : BEvent β) (he : e.fits content) :
    Rel T content (bstep fx T s e) := by
  have tP : taintPch junkPch := ⟨_, List.mem_cons_self, rfl⟩
  have tO : taintObj junkObj := .inl rfl
  have tB : taintBin junkBin := .inl ⟨_, List.mem_cons_self, rfl⟩
  have hst := still_parts fx s.sys
  have same : ∀ e' : BEvent β, bytesStep fx T s e' = s → (step fx s.sys e'.erase).parts = s.sys.parts →
      Rel T content (bstep fx T s e') := by
    intro e' h1 h2
    rw [bstep, h1]
    exact h.of_parts h2 rfl rfl rfl rfl rfl rfl
  cases e with
  | edit p t x =>
    exact h.put _ p (some (t, x)) rfl (by rintro y ⟨rfl⟩; exact he)
  | delete p => exact h.put _ p none rfl (by simp)
  | tamperObj p x =>
    refine { h with objs := ?_ }
    intro q
    by_cases e : q = p
    · simpa [bstep, bytesStep, BEvent.erase, step, upd, e] using junk_holding tO x
    · simpa [bstep, bytesStep, BEvent.erase, step, upd, e] using h.objs q
  | tamperPch x => exact { h with pch := junk_holding tP x }
  | tamperBin x => exact { h with bin := junk_holding tB x }
  | dropState => exact same _ rfl hst.2.1
  | otherFail => exact same _ rfl hst.2.2.1
  | look p v => exact h.look p v
  | start c o => exact same _ rfl (hst.1 c o)
  | add k => exact same _ rfl (hst.2.2.2.1 k)
  | finish b => exact same _ rfl (hst.2.2.2.2.1 b)
  | crash w => exact same _ rfl (hst.2.2.2.2.2 w)
  | pchTask =>
    cases hr : s.sys.run with
    | none => exact same _ (by simp [bytesStep, hr]) (by simp [BEvent.erase, step, inPhase, hr])
    | some r =>
      by_cases hph : r.phase = .pch
      · rw [bstep, show bytesStep fx T s .pchTask = s.settle by simp [bytesStep, hr, hph]]
        exact h.settle _ (by simp only [BEvent.erase, step, inPhase, hr, if_pos hph]; exact pchTask_parts _ r)
      · exact same _ (by simp [bytesStep, hr, hph]) (by simp [BEvent.erase, step, inPhase, hr, hph])
  | objTask =>
    cases hr : s.sys.run with
    | none => exact same _ (by simp [bytesStep, hr]) (by simp [BEvent.erase, step, inPhase, hr])
    | some r =>
      by_cases hph : r.phase = .obj
      · rw [bstep, show bytesStep fx T s .objTask = s.settle by simp [bytesStep, hr, hph]]
        exact h.settle _ (by simp only [BEvent.erase, step, inPhase, hr, if_pos hph]; exact objTask_parts _ r)
      · exact same _ (by simp [bytesStep, hr, hph]) (by simp [BEvent.erase, step, inPhase, hr, hph])
  | linkTask =>
    cases hr : s.sys.run with
    | none => exact same _ (by simp [bytesStep, hr]) (by simp [BEvent.erase, step, hr])
    | some r =>
      by_cases hph : r.phase = .link ∨ (r.phase = .objRun ∧ r.pending = [] ∧ r.executed = [])
      · rw [bstep, show bytesStep fx T s .linkTask = s.settle by simp only [bytesStep, hr, if_pos hph]]
        exact h.settle _ (by simp only [BEvent.erase, step, hr, if_pos hph]; exact linkTask_parts _ r)
      · exact same _ (by simp only [bytesStep, hr, if_neg hph]) (by simp only [BEvent.erase, step, hr, if_neg hph])
  | pchExec ok left =>
    cases hr : s.sys.run with
    | none => exact same _ (by simp [bytesStep, hr]) (by simp [BEvent.erase, step, inPhase, hr])
    | some r =>
      by_cases hph : r.phase = .pchRun
      · cases ok with
        | true =>
          have e1 : bstep fx T s (.pchExec true left) = { s with
              sys := pchExec fx s.sys r true (left.map fun x => x.map fun _ => junkPch)
              pch := some (T.pch (cmdText (pchCommand fx r.cfg)) (texts (text s.view) r.cfg.pchs)
                            (texts (text s.view) r.cfg.headers)) } := by
            simp [bstep, bytesStep, BEvent.erase, step, inPhase, hr, hph]
          rw [e1]
          refine { h with pch := .inr ?_ }
          show T.pch _ _ _ = evalPch T content (makePch fx s.sys r.cfg)
          rw [texts_eval h.view h.cview, texts_eval h.view h.cview]
          rfl
        | false =>
          have e1 : bstep fx T s (.pchExec false left) = { s with
              sys := pchExec fx s.sys r false (left.map fun x => x.map fun _ => junkPch)
              pch := left.getD s.pch } := by
            simp [bstep, bytesStep, BEvent.erase, step, inPhase, hr, hph]
          rw [e1]
          refine { h with pch := ?_ }
          cases left with
          | none => exact h.pch
          | some x => exact junk_holding tP x
      · exact same _ (by simp [bytesStep, hr, hph]) (by simp [BEvent.erase, step, inPhase, hr, hph])
  | exec k ok left =>
    cases hr : s.sys.run with
    | none => exact same _ (by simp [bytesStep, hr]) (by simp [BEvent.erase, step, inPhase, hr])
    | some r =>
      by_cases hph : r.phase = .objRun
      · cases hk : r.pending[k]? with
        | none => exact same _ (by simp [bytesStep, hr, hph, hk]) (by simp [BEvent.erase, step, inPhase, hr, hph, execObj, hk])
        | some i =>
          cases ok with
          | true =>
            have e1 : (bstep fx T s (.exec k true left)).objs = upd s.objs (objPath fx i.path)
                (some (T.obj (cmdText (compileCommand fx r.cfg i.path)) (text s.view i.path)
                  (texts (text s.view) r.cfg.headers) (texts (text s.view) r.cfg.compileDeps)
                  (if r.cfg.pchs ≠ [] then s.pch else none))) := by
              simp [bstep, bytesStep, hr, hph, hk]
            have e2 : (bstep fx T s (.exec k true left)).sys.objs =
                upd s.sys.objs (objPath fx i.path) (some (makeObj fx s.sys r.cfg i.path)) := by
              simp [bstep, BEvent.erase, step, inPhase, hr, hph, execObj, hk]
            have e3 : ((bstep fx T s (.exec k true left)).sys.parts) =
                ({ s.sys with objs := (bstep fx T s (.exec k true left)).sys.objs }).parts := by
              simp [bstep, BEvent.erase, step, inPhase, hr, hph, execObj, hk, Sys.parts]
            have e4 : bstep fx T s (.exec k true left) = { s with
                sys := (bstep fx T s (.exec k true left)).sys
                objs := (bstep fx T s (.exec k true left)).objs } := by
              simp [bstep, bytesStep, hr, hph, hk]
            have key : Rel T content { s with
                sys := { s.sys with objs := (bstep fx T s (.exec k true left)).sys.objs }
                objs := (bstep fx T s (.exec k true left)).objs } := by
              refine { h with objs := ?_ }
              intro q
              rw [e1, e2]
              by_cases e : q = objPath fx i.path
              · simp only [upd, if_pos e, Holding]
                by_cases ht : ∃ a, (if r.cfg.pchs ≠ [] then s.sys.pch else none) = some a ∧ taintPch a
                · exact .inl (.inr ht)
                · refine .inr ?_
                  rw [text_eval h.view h.cview, texts_eval h.view h.cview, texts_eval h.view h.cview]
                  have hp : (if r.cfg.pchs ≠ [] then s.pch else none) =
                      (if r.cfg.pchs ≠ [] then s.sys.pch else none).map (evalPch T content) := by
                    by_cases hc : r.cfg.pchs ≠ []
                    · simp only [if_pos hc] at ht ⊢
                      exact h.pch.map fun x hx hx' => ht ⟨x, hx, hx'⟩
                    · simp only [if_neg hc]; rfl
                  rw [hp]
                  rfl
              · simp only [upd, if_neg e]; exact h.objs q
            rw [e4]
            exact key.of_parts e3 rfl rfl rfl rfl rfl rfl
          | false =>
            clear he
            have e4 : bstep fx T s (.exec k false left) = { s with
                sys := execObj fx s.sys r k false (left.map fun x => x.map fun _ => junkObj)
                objs := match left with
                  | none => s.objs
                  | some x => upd s.objs (objPath fx i.path) x } := by
              cases left <;> simp [bstep, bytesStep, BEvent.erase, step, inPhase, hr, hph, hk]
            have e5 : (execObj fx s.sys r k false (left.map fun x => x.map fun _ => junkObj)).parts =
                ({ s.sys with objs := match left with
                    | none => s.sys.objs
                    | some x => upd s.sys.objs (objPath fx i.path) (x.map fun _ => junkObj) }).parts := by
              cases left <;> simp [execObj, hk, Sys.parts, Sys.fail]
            rw [e4]
            cases left with
            | none => exact h.of_parts e5 rfl rfl rfl rfl rfl rfl
            | some x =>
              refine Rel.of_parts (s := { s with
                sys := { s.sys with objs := upd s.sys.objs (objPath fx i.path) (x.map fun _ => junkObj) }
                objs := upd s.objs (objPath fx i.path) x }) ?_ e5 rfl rfl rfl rfl rfl rfl
              refine { h with objs := ?_ }
              intro q
              by_cases e : q = objPath fx i.path
              · simpa only [upd, if_pos e] using junk_holding tO x
              · simpa only [upd, if_neg e] using h.objs q
      · exact same _ (by simp [bytesStep, hr, hph]) (by simp [BEvent.erase, step, inPhase, hr, hph])
  | linkExec ok left =>
    cases hr : s.sys.run with
    | none => exact same _ (by simp [bytesStep, hr]) (by simp [BEvent.erase, step, inPhase, hr])
    | some r =>
      by_cases hph : r.phase = .linkRun
      · cases ok with
        | true =>
          have e1 : bstep fx T s (.linkExec true left) = { s with
              sys := linkExec fx s.sys r true (left.map fun x => x.map fun _ => junkBin)
              bin := some (T.bin (cmdText (linkCommand fx r.cfg r.order))
                (r.order.map fun p => s.objs (objPath fx p)) (texts (text s.view) r.cfg.libs)
                (texts (text s.view) r.cfg.linkDeps) (if r.cfg.pchs ≠ [] then s.pch else none)) } := by
            simp [bstep, bytesStep, BEvent.erase, step, inPhase, hr, hph]
          rw [e1]
          refine { h with bin := ?_ }
          show taintBin (makeBin fx s.sys r.cfg r.order) ∨ T.bin _ _ _ _ _ = evalBin T content (makeBin fx s.sys r.cfg r.order)
          by_cases ht : taintBin (makeBin fx s.sys r.cfg r.order)
          · exact .inl ht
          · refine .inr ?_
            have hp : (if r.cfg.pchs ≠ [] then s.pch else none) =
                (if r.cfg.pchs ≠ [] then s.sys.pch else none).map (evalPch T content) := by
              by_cases hc : r.cfg.pchs ≠ []
              · simp only [if_pos hc]
                refine h.pch.map fun x hx hx' => ht (.inr (.inr ⟨x, ?_, hx'⟩))
                simp only [makeBin, if_pos hc, hx]
              · simp only [if_neg hc]; rfl
            have ho : (r.order.map fun p => s.objs (objPath fx p)) =
                (r.order.map fun p => s.sys.objs (objPath fx p)).map fun o => o.map (evalObj T content) := by
              rw [List.map_map]
              refine List.map_congr_left fun p hp => ?_
              refine (h.objs _).map fun x hx hx' => ht (.inr (.inl ⟨x, ?_, hx'⟩))
              exact List.mem_map.2 ⟨p, hp, hx⟩
            rw [texts_eval h.view h.cview, texts_eval h.view h.cview, hp, ho]
            rfl
        | false =>
          have e1 : bstep fx T s (.linkExec false left) = { s with
              sys := linkExec fx s.sys r false (left.map fun x => x.map fun _ => junkBin)
              bin := left.getD s.bin } := by
            simp [bstep, bytesStep, BEvent.erase, step, inPhase, hr, hph]
          rw [e1]
          refine { h with bin := ?_ }
          cases left with
          | none => exact h.bin
          | some x => exact junk_holding tB x
      · exact same _ (by simp [bytesStep, hr, hph]) (by simp [BEvent.erase, step, inPhase, hr, hph])

theorem rel_steps (fx : Fixed) (evs : List (BEvent β)) : ∀ {s : BSys β}, Rel T content s →
    (∀ e ∈ evs, e.fits content) → Rel T content (bsteps fx T s evs) := by
  induction evs with
  | nil => intro s h _; exact h
  | cons e l ih =>
    intro s h he
    exact ih (rel_step fx h e (he e List.mem_cons_self)) fun x hx => he x (List.mem_cons_of_mem _ hx)

/-- The build system sees the stamps only. -/
theorem bsteps_sys (fx : Fixed) (evs : List (BEvent β)) : ∀ s : BSys β,
    (bsteps fx T s evs).sys = steps fx s.sys (evs.map (·.erase)) := by
  induction evs with
  | nil => intro s; rfl
  | cons e l ih => intro s; exact ih (bstep fx T s e)

/-- What is clean by descriptions is clean by contents. -/
theorem Rel.clean {fx : Fixed} {s : BSys β} (h : Rel T content s) {c : TargetSchema}
    (hc : Clean fx s.sys c) : CleanBytes fx T s c := by
  have hv : ∀ l, ∀ x ∈ versions s.sys.files l, x.2 ≠ some b!"?" := by
    intro l x hx e
    obtain ⟨i, -, rfl⟩ := List.mem_map.1 hx
    simp only [version] at e
    obtain ⟨t, -, ht⟩ := Option.map_eq_some_iff.1 e
    exact digits_ne_junk t ht
  have nP : ¬ taintPch (cleanPch fx s.sys.files c) := by
    rintro ⟨x, hx, e⟩
    exact hv _ x hx e
  have nP? : ∀ q, cleanPch? fx s.sys.files c = some q → ¬ taintPch q := by
    intro q hq
    rw [cleanPch?] at hq
    split at hq
    · cases hq
    · cases hq; exact nP
  have nO : ∀ p, ¬ taintObj (cleanObj fx s.sys.files c p) := by
    rintro p (e | ⟨q, hq, ht⟩)
    · simp only [cleanObj, version] at e
      obtain ⟨t, -, ht⟩ := Option.map_eq_some_iff.1 e
      exact digits_ne_junk t ht
    · exact nP? q hq ht
  have nB : ∀ o, ¬ taintBin (cleanBin fx s.sys.files c o) := by
    rintro o (⟨x, hx, e⟩ | ⟨a, ha, ht⟩ | ⟨q, hq, ht⟩)
    · exact hv _ x hx e
    · obtain ⟨p, -, e⟩ := List.mem_map.1 ha
      cases e
      exact nO p ht
    · exact nP? q hq ht
  have eP : evalPch T content (cleanPch fx s.sys.files c) = scratchPch fx T (text s.files) c := by
    rw [scratchPch, texts_eval h.files h.cfiles, texts_eval h.files h.cfiles]
    rfl
  have eP? : (cleanPch? fx s.sys.files c).map (evalPch T content) = scratchPch? fx T (text s.files) c := by
    rw [cleanPch?, scratchPch?]
    split
    · rfl
    · rw [← eP]; rfl
  have eO : ∀ p, evalObj T content (cleanObj fx s.sys.files c p) = scratchObj fx T (text s.files) c p := by
    intro p
    rw [scratchObj, text_eval h.files h.cfiles, texts_eval h.files h.cfiles, texts_eval h.files h.cfiles,
      ← eP?]
    rfl
  refine ⟨fun hp => ?_, fun p hp => ?_, ?_⟩
  · have h1 := hc.pch hp
    rw [h.pch.map (fun x hx => by rw [h1] at hx; cases hx; exact nP), h1, Option.map_some, eP]
  · have h1 := hc.obj p hp
    rw [(h.objs _).map (fun x hx => by rw [h1] at hx; cases hx; exact nO p), h1, Option.map_some, eO]
  · obtain ⟨order, ho, h1⟩ := hc.bin
    refine ⟨order, ho, ?_⟩
    rw [h.bin.map (fun x hx => by rw [h1] at hx; cases hx; exact nB order), h1, Option.map_some]
    congr 1
    rw [scratchBin, texts_eval h.files h.cfiles, texts_eval h.files h.cfiles, ← eP?]
    simp only [evalBin, cleanBin, List.map_map]
    congr 1
    refine List.map_congr_left fun p _ => ?_
    simp only [Function.comp, Option.map_some, eO]

end

/-! ## A content for every version -/

/-- The content of the first version of the file with this stamp. -/
def contentIn (junk : β) : List (BEvent β) → Str → Str → β
  | [], _, _ => junk
  | .edit q t x :: l, p, h => if q = p ∧ digits t = h then x else contentIn junk l p h
  | _ :: l, p, h => contentIn junk l p h

theorem contentIn_fits (junk : β) : ∀ evs : List (BEvent β),
    (∀ pre p t post, evs.map (·.erase) = pre ++ .edit p t :: post → Event.edit p t ∉ pre) →
    ∀ e ∈ evs, e.fits (contentIn junk evs) := by
  intro evs
  induction evs with
  | nil => intro _ e he; simp at he
  | cons a l ih =>
    intro hs e he
    have hl : ∀ pre p t post, l.map (·.erase) = pre ++ .edit p t :: post →
        Event.edit p t ∉ pre ∧ a.erase ≠ Event.edit p t := by
      intro pre p t post h
      have := hs (a.erase :: pre) p t post (by rw [List.map_cons, h]; rfl)
      rw [List.mem_cons, not_or] at this
      exact ⟨this.2, fun h => this.1 h.symm⟩
    have hl' := ih fun pre p t post h => (hl pre p t post h).1
    rcases List.mem_cons.1 he with rfl | he'
    · cases e <;> simp [BEvent.fits, contentIn]
    · have h1 := hl' e he'
      cases e with
      | edit p t x =>
        simp only [BEvent.fits] at h1 ⊢
        cases a with
        | edit q u y =>
          have hne : ¬ (q = p ∧ digits u = digits t) := by
            rintro ⟨rfl, hd⟩
            obtain rfl := digits_inj hd
            obtain ⟨l₁, l₂, e⟩ := List.append_of_mem he'
            exact (hl (l₁.map (·.erase)) q u (l₂.map (·.erase)) (by rw [e]; simp [BEvent.erase])).2 rfl
          rw [contentIn, if_neg hne]
          exact h1
        | _ => exact h1
      | _ => trivial

/-! ## The theorems -/

/-- C97: under the conditions of C01 to C03, the precompiled header, the objects and the target hold
what a build from scratch makes of the contents of the files, whatever the tools compute, and whatever
failed commands left.

Missing: contents that change while the time stamp stays, or goes back to an earlier one, for which it
is false (`C97_same_stamp_false`, `C12_old_stamp_false`), and the other conditions of C01. -/
theorem C97_contents_partial (fx : Fixed) (T : Tools β) (K : TargetSchema → Prop) (hsh : Shipped fx)
    (hf : Family fx K) (pre mid : List (BEvent β)) (c : TargetSchema) (order : List Str) (s : BSys β)
    (hd : Disciplined fx K (pre.map (·.erase) ++ [.start c order]))
    (hb : SuccessfulBuild fx (bsteps fx T BSys.init pre).sys c order (mid.map (·.erase)) s.sys)
    (hs : s = bsteps fx T BSys.init (pre ++ .start c order :: mid)) : CleanBytes fx T s c := by
  have hquiet : ∀ e ∈ mid, ∀ content, e.fits (content : Str → Str → β) := by
    intro e he content
    cases e with
    | edit p t x =>
      have := (hb.quiet (.edit p t) (List.mem_map.2 ⟨_, he, rfl⟩)).1
      simp [Event.outside] at this
    | _ => trivial
  by_cases hn : Nonempty β
  · obtain ⟨junk⟩ := hn
    have hfit := contentIn_fits junk pre fun pre' p t post h =>
      hd.stamps pre' p t (post ++ [.start c order]) (by rw [h]; simp)
    have hrel : Rel T (contentIn junk pre) s := by
      rw [hs]
      refine rel_steps fx _ (rel_init T _) ?_
      intro e he
      rcases List.mem_append.1 he with he | he
      · exact hfit e he
      · rcases List.mem_cons.1 he with rfl | he
        · trivial
        · exact hquiet e he _
    refine hrel.clean ?_
    have hb' := hb
    rw [bsteps_sys] at hb'
    exact (build_clean hsh.compileLocal hsh.pchLocal (hd.inv hsh hf).1 hb').1
  · exact absurd ⟨T.pch [] [] []⟩ hn

/-- The command events of a history that logged no command left every built file alone. -/
theorem bytes_same {fx : Fixed} {T : Tools β} {s : BSys β} {e : BEvent β}
    (ho : e.erase.outside = false) (h : commands (bstep fx T s e).sys.log = commands s.sys.log) :
    (bstep fx T s e).objs = s.objs ∧ (bstep fx T s e).pch = s.pch ∧ (bstep fx T s e).bin = s.bin ∧
      (bstep fx T s e).files = s.files := by
  cases e with
  | edit p t x => simp [BEvent.erase, Event.outside] at ho
  | delete p => simp [BEvent.erase, Event.outside] at ho
  | tamperObj p x => simp [BEvent.erase, Event.outside] at ho
  | tamperPch x => simp [BEvent.erase, Event.outside] at ho
  | tamperBin x => simp [BEvent.erase, Event.outside] at ho
  | dropState => simp [BEvent.erase, Event.outside] at ho
  | look p v =>
    simp only [bstep, bytesStep, BSys.lookAt]
    split <;> exact ⟨rfl, rfl, rfl, rfl⟩
  | pchTask | objTask | linkTask =>
    simp only [bstep, bytesStep, BSys.settle]
    repeat' split
    all_goals exact ⟨rfl, rfl, rfl, rfl⟩
  | pchExec ok left =>
    cases hr : s.sys.run with
    | none => simp [bstep, bytesStep, hr]
    | some r =>
      by_cases hph : r.phase = .pchRun
      · exfalso
        cases ok <;>
          simp [bstep, BEvent.erase, step, inPhase, hr, hph, pchExec, Sys.fail, commands_append, commands,
            Entry.isCommand] at h
      · simp [bstep, bytesStep, hr, hph]
  | exec k ok left =>
    cases hr : s.sys.run with
    | none => simp [bstep, bytesStep, hr]
    | some r =>
      by_cases hph : r.phase = .objRun
      · cases hk : r.pending[k]? with
        | none => simp [bstep, bytesStep, hr, hph, hk]
        | some i =>
          exfalso
          cases ok <;>
            simp [bstep, BEvent.erase, step, inPhase, hr, hph, execObj, hk, Sys.fail, commands,
              Entry.isCommand] at h
      · simp [bstep, bytesStep, hr, hph]
  | linkExec ok left =>
    cases hr : s.sys.run with
    | none => simp [bstep, bytesStep, hr]
    | some r =>
      by_cases hph : r.phase = .linkRun
      · exfalso
        cases ok <;>
          simp [bstep, BEvent.erase, step, inPhase, hr, hph, linkExec, Sys.fail, commands,
            Entry.isCommand] at h
      · simp [bstep, bytesStep, hr, hph]
  | _ => exact ⟨rfl, rfl, rfl, rfl⟩

theorem log_prefix (fx : Fixed) (σ : Sys) (e : Event) (h : e.isStart = false) :
    ∃ l, (step fx σ e).log = σ.log ++ l := by
  cases e <;> simp only [Event.isStart, Bool.true_eq_false] at h <;>
    simp only [step, inPhase, Sys.put, lookAt, pchTask, pchExec, objTask, execObj, addObj, linkTask, linkExec,
      finishRun, crashRun] <;> repeat' split
  all_goals first
    | exact ⟨[], (List.append_nil _).symm⟩
    | exact ⟨_, rfl⟩

/-- A run without commands leaves every built file alone. -/
theorem bytes_same_run {fx : Fixed} {T : Tools β} : ∀ (mid : List (BEvent β)) (s : BSys β),
    (∀ e ∈ mid, e.erase.outside = false ∧ e.erase.isStart = false) →
    commands (bsteps fx T s mid).sys.log = [] →
    (bsteps fx T s mid).objs = s.objs ∧ (bsteps fx T s mid).pch = s.pch ∧
      (bsteps fx T s mid).bin = s.bin ∧ (bsteps fx T s mid).files = s.files ∧ commands s.sys.log = [] := by
  intro mid
  induction mid with
  | nil => intro s _ h; exact ⟨rfl, rfl, rfl, rfl, h⟩
  | cons e l ih =>
    intro s hq h
    obtain ⟨h1, h2, h3, h4, h5⟩ := ih (bstep fx T s e) (fun x hx => hq x (List.mem_cons_of_mem _ hx)) h
    obtain ⟨l', hl⟩ := log_prefix fx s.sys e.erase (hq e List.mem_cons_self).2
    have h6 : (bstep fx T s e).sys.log = s.sys.log ++ l' := hl
    have h7 : commands s.sys.log = [] := by
      rw [h6, commands_append, List.append_eq_nil_iff] at h5
      exact h5.1
    obtain ⟨k1, k2, k3, k4⟩ := bytes_same (T := T) (hq e List.mem_cons_self).1 (h5.trans h7.symm)
    exact ⟨h1.trans k1, h2.trans k2, h3.trans k3, h4.trans k4, h7⟩

/-- The event gives a file another content and the stamp that it has. -/
def KeepsStamp (s : BSys β) (e : BEvent β) : Prop :=
  ∃ p t x, e = .edit p t x ∧ s.sys.files p = some t

theorem keepsStamps {fx : Fixed} {T : Tools β} : ∀ (edits : List (BEvent β)) (s : BSys β),
    (∀ e ∈ edits, KeepsStamp s e) →
    (bsteps fx T s edits).sys.files = s.sys.files ∧
    (bsteps fx T s edits).sys.stateFile = s.sys.stateFile ∧
    (bsteps fx T s edits).objs = s.objs ∧ (bsteps fx T s edits).pch = s.pch ∧
      (bsteps fx T s edits).bin = s.bin := by
  intro edits
  induction edits with
  | nil => intro s _; exact ⟨rfl, rfl, rfl, rfl, rfl⟩
  | cons e l ih =>
    intro s h
    obtain ⟨p, t, x, rfl, hp⟩ := h e List.mem_cons_self
    have hf : (bstep fx T s (.edit p t x)).sys.files = s.sys.files := by
      funext q
      by_cases e : q = p
      · simp [bstep, BEvent.erase, step, Sys.put, upd, e, hp]
      · simp [bstep, BEvent.erase, step, Sys.put, upd, e]
    obtain ⟨h1, h2, h3, h4, h5⟩ := ih (bstep fx T s (.edit p t x)) (by
      intro e he
      obtain ⟨q, u, y, rfl, hq⟩ := h e (List.mem_cons_of_mem _ he)
      exact ⟨q, u, y, rfl, by rw [hf]; exact hq⟩)
    exact ⟨h1.trans hf, h2, h3, h4, h5⟩

/-- C97 for every target and every file: after a successful build, whatever files get other contents
without another time stamp, the next build with the same configuration runs no command and leaves the
built files alone, which are those of the old contents. -/
theorem C97_unnoticed {fx : Fixed} {T : Tools β} {σ₀ : Sys} {s₁ s₂ s₃ : BSys β} {c : TargetSchema}
    {o₁ o₂ : List Str} {mid₁ : List Event} {edits mid₂ : List (BEvent β)} (hn : (paths c.sources).Nodup)
    (h₁ : SuccessfulBuild fx σ₀ c o₁ mid₁ s₁.sys) (hk : ∀ e ∈ edits, KeepsStamp s₁ e)
    (he : s₂ = bsteps fx T s₁ edits)
    (h₂ : QuietRun fx s₂.sys c o₂ (mid₂.map (·.erase)) s₃.sys)
    (hs : s₃ = bsteps fx T s₂ (.start c o₂ :: mid₂)) :
    commands s₃.sys.log = [] ∧ s₃.objs = s₁.objs ∧ s₃.pch = s₁.pch ∧ s₃.bin = s₁.bin ∧
      s₃.files = s₂.files := by
  obtain ⟨k1, k2, k3, k4, k5⟩ := keepsStamps (fx := fx) (T := T) edits s₁ hk
  rw [← he] at k1 k2 k3 k4 k5
  have h := C04_null_rebuild (σ₂ := s₂.sys) hn h₁ ⟨k2, fun _ _ _ => by rw [k1]⟩ h₂
  have hc := h.1
  refine ⟨hc, ?_⟩
  rw [hs] at hc ⊢
  have hq : ∀ e ∈ mid₂, e.erase.outside = false ∧ e.erase.isStart = false :=
    fun e he => h₂.quiet _ (List.mem_map.2 ⟨e, he, rfl⟩)
  obtain ⟨e1, e2, e3, e4, -⟩ := bytes_same_run (T := T) mid₂ (bstep fx T s₂ (.start c o₂)) hq hc
  exact ⟨e1.trans k3, e2.trans k4, e3.trans k5, e4⟩

/-! ## Instances -/

/-- A compiler that copies its source, and a linker that puts objects together. -/
def exTools : Tools Str where
  pch _ l _ := (l.map fun x => x.2.getD []).flatten
  obj _ src _ _ _ := src.getD []
  bin _ l _ _ _ := (l.map fun x => x.getD []).flatten

def exBytesFull : List (BEvent Str) :=
  [ .pchTask, .pchExec true none, .objTask, .exec 1 true none, .exec 0 true none, .add 0, .add 0,
    .linkTask, .linkExec true none, .finish true ]

/-- Files appear and are built, a source is edited, the command for it fails and leaves half an
object, and the build is killed. -/
def exBytesPre : List (BEvent Str) :=
  [ .edit b!"/p/src/main.cpp" 1 b!"main", .edit b!"/p/src/util.c" 2 b!"util", .edit b!"/p/include/a.h" 3 b!"a",
    .edit b!"/p/include/pch.h" 4 b!"p", .edit b!"/p/lib/libz.a" 5 b!"z", .edit b!"/p/gen/v.txt" 6 b!"v",
    .start exCfg exOrder ] ++ exBytesFull ++
  [ .edit b!"/p/src/main.cpp" 7 b!"MAIN", .start exCfg exOrder, .pchTask, .objTask,
    .exec 0 false (some (some b!"MA")), .crash none ]

def exBytesAgain : List (BEvent Str) :=
  [ .pchTask, .objTask, .exec 0 true none, .add 0, .linkTask, .linkExec true none, .finish true ]

theorem bsteps_start {fx : Fixed} {T : Tools β} (s : BSys β) (pre mid : List (BEvent β)) (c : TargetSchema)
    (o : List Str) : steps fx (step fx (bsteps fx T s pre).sys (.start c o)) (mid.map (·.erase)) =
      (bsteps fx T s (pre ++ .start c o :: mid)).sys := by
  rw [show bsteps fx T s (pre ++ .start c o :: mid) =
    bsteps fx T (bstep fx T (bsteps fx T s pre) (.start c o)) mid by simp [bsteps], bsteps_sys _ mid]
  rfl

def exBytes : BSys Str := bsteps exFixed exTools BSys.init (exBytesPre ++ .start exCfg exOrder :: exBytesAgain)

theorem exBytes_build : SuccessfulBuild exFixed (bsteps exFixed exTools BSys.init exBytesPre).sys exCfg
    exOrder (exBytesAgain.map (·.erase)) exBytes.sys where
  idle := by decide +kernel
  started := by decide +kernel
  quiet := by decide
  result := bsteps_start _ _ _ _ _
  success := ⟨true, by decide +kernel⟩

example : CleanBytes exFixed exTools exBytes exCfg := by
  refine C97_contents_partial exFixed exTools (· = exCfg) ex_shipped ex_family exBytesPre exBytesAgain exCfg
    exOrder exBytes ?_ exBytes_build rfl
  refine disciplined_single ?_ (by decide) (by decide +kernel)
  intro c o h
  simp [exBytesPre, exBytesFull, BEvent.erase] at h
  exact h.1

example : exBytes.bin = some b!"utilMAIN" := by decide +kernel

/-- C97 is false: the source gets another content and keeps its time stamp, for example because two
edits are within one tick of the clock or a tool restores time stamps.  The next build ends in SUCCESS
and the program is that of the old content. -/
theorem C97_same_stamp_false :
    let s := bsteps exFixed exTools exBytes
      ([.edit b!"/p/src/main.cpp" 7 b!"other", .start exCfg exOrder, .pchTask, .objTask, .linkTask,
        .finish true])
    s.sys.done = some ⟨exCfg, true, false⟩ ∧ text s.files b!"/p/src/main.cpp" = some b!"other" ∧
      s.bin = some b!"utilMAIN" ∧ ¬ CleanBytes exFixed exTools s exCfg := by
  have hobj : (bsteps exFixed exTools exBytes
      ([.edit b!"/p/src/main.cpp" 7 b!"other", .start exCfg exOrder, .pchTask, .objTask, .linkTask,
        .finish true])).objs (objPath exFixed b!"/p/src/main.cpp") = some b!"MAIN" := by decide +kernel
  have hnew : scratchObj exFixed exTools (text (bsteps exFixed exTools exBytes
      ([.edit b!"/p/src/main.cpp" 7 b!"other", .start exCfg exOrder, .pchTask, .objTask, .linkTask,
        .finish true])).files) exCfg b!"/p/src/main.cpp" = b!"other" := by decide +kernel
  refine ⟨by decide +kernel, by decide +kernel, by decide +kernel, fun h => ?_⟩
  have := h.obj b!"/p/src/main.cpp" (by decide)
  rw [hobj, hnew] at this
  exact absurd this (by decide)

/-- The hypotheses of `C97_unnoticed` are met by that history. -/
example (s₂ s₃ : BSys Str) (h₂ : s₂ = bsteps exFixed exTools exBytes [.edit b!"/p/src/main.cpp" 7 b!"other"])
    (h₃ : s₃ = bsteps exFixed exTools s₂ (.start exCfg exOrder :: [.pchTask, .objTask, .linkTask, .finish true])) :
    commands s₃.sys.log = [] ∧ s₃.bin = exBytes.bin := by
  have h := C97_unnoticed (s₁ := exBytes) (edits := [.edit b!"/p/src/main.cpp" 7 b!"other"])
    (by decide +kernel) exBytes_build
    (by
      intro e he
      rw [List.mem_singleton] at he
      exact ⟨_, _, _, he, by decide +kernel⟩) h₂
    { idle := by rw [h₂]; decide +kernel
      started := by rw [h₂]; decide +kernel
      quiet := by decide
      result := by rw [h₃]; exact bsteps_start s₂ [] _ _ _ } h₃
  exact ⟨h.1, h.2.2.2.1⟩

end Verif.Target
