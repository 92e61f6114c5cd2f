import Verif.Generator.Bytes
import Verif.Generator.SoundProps
import Verif.Target.BytesProps

/-!
# Contents of the outputs of a generator (C98)
-/

namespace Verif.Generator
open Verif Verif.Schema Verif.Json
open Verif.Target (Reads fileHash upd text evalReads text_eval)

variable {β : Type}

/-! ## Descriptions and contents -/

/-- The files of the state that callbacks read, and what the last callbacks were given. -/
def Sys.parts (σ : Sys) : (Str → Option Nat) × (Str → Str → Option Nat) ×
    (Str → Str → List (Option Nat)) × (Str → Option Call) :=
  (σ.files, σ.view, σ.seen, σ.last)

theorem still_parts (σ : Sys) : (∀ c, (step σ (.start c)).parts = σ.parts) ∧
    (step σ .dropState).parts = σ.parts ∧ (step σ .otherFail).parts = σ.parts ∧
    (step σ .begin).parts = σ.parts ∧ (∀ o b, (step σ (.finish o b)).parts = σ.parts) ∧
    (∀ o w, (step σ (.crash o w)).parts = σ.parts) := by
  refine ⟨fun c => ?_, ?_, ?_, ?_, fun o b => ?_, fun o w => ?_⟩ <;>
    simp only [step, startRun, inRun, beginRun, finishRun, crashRun] <;> repeat' split
  all_goals rfl

/-- What the last callback of an id was given is what its outputs were made of. -/
def CallFilled (C : Callbacks β) (content : Str → Str → β) (id : Str) (k : Call) (outs : Str → Option β) : Prop :=
  k.ok = true → ∀ p ∈ k.outputs, outs p = some (C id k.blob (evalReads content k.inputs) k.outputs p)

/-- The contents of the system are those that the descriptions say. -/
structure Rel (C : Callbacks β) (content : Str → Str → β) (s : BSys β) : Prop where
  files : ∀ p, s.sys.files p = (s.files p).map (·.1)
  view : ∀ id p, s.sys.view id p = (s.view id p).map (·.1)
  seen : ∀ id p, s.sys.seen id p = (s.seen id p).map fun y => y.map (·.1)
  cfiles : ∀ p y, s.files p = some y → y.2 = content p (digits y.1)
  cview : ∀ id p y, s.view id p = some y → y.2 = content p (digits y.1)
  cseen : ∀ id p y, some y ∈ s.seen id p → y.2 = content p (digits y.1)
  outs : ∀ id k, s.sys.last id = some k → CallFilled C content id k (s.outs id)

theorem rel_init (C : Callbacks β) (content : Str → Str → β) : Rel C content BSys.init where
  files _ := rfl
  view _ _ := rfl
  seen _ _ := rfl
  cfiles := by simp [BSys.init]
  cview := by simp [BSys.init]
  cseen := by simp [BSys.init]
  outs := by simp [BSys.init, Sys.init]

section
variable {C : Callbacks β} {content : Str → Str → β}

/-- Two states with the same files. -/
theorem Rel.of_parts {s s' : BSys β} (h : Rel C content s) (hp : s'.sys.parts = s.sys.parts)
    (h1 : s'.files = s.files) (h2 : s'.seen = s.seen) (h3 : s'.view = s.view) (h4 : s'.outs = s.outs) :
    Rel C content s' := by
  simp only [Sys.parts, Prod.mk.injEq] at hp
  obtain ⟨p1, p2, p3, p4⟩ := hp
  constructor
  · rw [p1, h1]; exact h.files
  · rw [p2, h3]; exact h.view
  · rw [p3, h2]; exact h.seen
  · rw [h1]; exact h.cfiles
  · rw [h3]; exact h.cview
  · rw [h2]; exact h.cseen
  · rw [p4, h4]; exact h.outs

theorem Rel.put {s : BSys β} (h : Rel C content s) (σ : Sys) (p : Str) (v : Option (Nat × β))
    (hσ : σ.parts = (s.sys.put p (v.map (·.1))).parts)
    (hv : ∀ y, v = some y → y.2 = content p (digits y.1)) :
    Rel C content { s.put p v with sys := σ } := by
  simp only [Sys.parts, Prod.mk.injEq, Sys.put] at hσ
  obtain ⟨p1, p2, p3, p4⟩ := hσ
  constructor
  · intro q
    rw [p1]
    by_cases e : q = p
    · simp [upd, BSys.put, e]
    · simp [upd, BSys.put, e, h.files]
  · intro id q
    rw [p2]
    by_cases e : q = p
    · simp [upd, BSys.put, e]
    · simp [upd, BSys.put, e, h.view]
  · intro id q
    rw [p3]
    by_cases e : q = p
    · simp [upd, BSys.put, e, h.seen]
    · simp [upd, BSys.put, e, h.seen]
  · intro q y hq
    by_cases e : q = p
    · subst e; exact hv y (by simpa [BSys.put, upd] using hq)
    · exact h.cfiles q y (by simpa [BSys.put, upd, e] using hq)
  · intro id q y hq
    by_cases e : q = p
    · subst e; exact hv y (by simpa [BSys.put, upd] using hq)
    · exact h.cview id q y (by simpa [BSys.put, upd, e] using hq)
  · intro id q y hq
    by_cases e : q = p
    · subst e
      simp only [BSys.put, upd, if_true, List.mem_cons] at hq
      rcases hq with hq | hq
      · exact hv y hq.symm
      · exact h.cseen id q y hq
    · exact h.cseen id q y (by simpa [BSys.put, upd, e] using hq)
  · show ∀ id k, σ.last id = some k → CallFilled C content id k (s.outs id)
    rw [p4]; exact h.outs

theorem contents_eval {f : Str → Option Nat} {g : Str → Option (Nat × β)}
    (h : ∀ p, f p = (g p).map (·.1)) (hc : ∀ p y, g p = some y → y.2 = content p (digits y.1))
    (l : List Str) : contentsOf (text g) l = evalReads content (versions f l) := by
  rw [contentsOf, evalReads, versions, List.map_map]
  refine List.map_congr_left fun p _ => ?_
  simp only [Function.comp]
  rw [text_eval h hc]
  rfl

theorem Rel.look {s : BSys β} {r : Run} (h : Rel C content s) (id p : Str) (v : Option Nat)
    (hc : r.status id = .calling) :
    Rel C content { s.lookAt id p v with sys := Verif.Generator.lookAt s.sys r id p v } := by
  rw [BSys.lookAt, Verif.Generator.lookAt]
  have hm : v ∈ s.sys.seen id p ↔
      ((s.seen id p).find? fun y => decide (y.map (·.1) = v)).isSome = true := by
    rw [h.seen, List.mem_map, List.find?_isSome]
    simp
  cases hf : (s.seen id p).find? (fun y => decide (y.map (·.1) = v)) with
  | none =>
    rw [hf] at hm
    rw [if_neg (fun h => by simpa using hm.1 h.2)]
    exact h
  | some y =>
    rw [hf] at hm
    rw [if_pos ⟨hc, by simpa using hm⟩]
    have hy := List.find?_some hf
    have hy' := List.mem_of_find?_eq_some hf
    simp only [decide_eq_true_eq] at hy
    exact {
      files := h.files
      view := by
        intro j q
        by_cases e : j = id
        · subst e
          by_cases e : q = p
          · simp [upd, e, hy]
          · simp [upd, e, h.view]
        · simp [upd, e, h.view]
      seen := h.seen
      cfiles := h.cfiles
      cview := by
        intro j q z hz
        by_cases e : j = id
        · subst e
          by_cases e : q = p
          · subst e
            have : y = some z := by simpa [upd] using hz
            exact h.cseen j q z (this ▸ hy')
          · exact h.cview j q z (by simpa [upd, e] using hz)
        · exact h.cview j q z (by simpa [upd, e] using hz)
      cseen := h.cseen
      outs := h.outs }

/-- An event writes a file with the stamp and the content that belong together, and changes no
outputs. -/
def BEvent.fits (content : Str → Str → β) : BEvent β → Prop
  | .edit p t x => x = content p (digits t)
  | .tamper _ _ _ => False
  | _ => True

theorem calls_true {σ : Sys} {r : Run} {id : Str} (h : calls σ r id = true) :
    ∃ i, find id r.cfg = some i ∧ taskRun σ r id =
        { σ with run := some (r.set id .calling)
                 last := upd σ.last id (some (makeCall σ.files i false))
                 seen := upd σ.seen id fun p => [σ.files p]
                 view := upd σ.view id σ.files } := by
  simp only [calls] at h
  split at h
  · rename_i i h1 h2 h3
    simp only [Bool.and_eq_true, decide_eq_true_eq] at h
    refine ⟨i, h1, ?_⟩
    simp [taskRun, h1, h2, h3, h.1, h.2]
  · simp at h

theorem calls_false {σ : Sys} {r : Run} {id : Str} (h : calls σ r id = false) :
    (taskRun σ r id).parts = σ.parts := by
  simp only [calls] at h
  simp only [taskRun]
  split at h
  · rename_i i h1 h2 h3
    simp only [h1, h2, h3]
    split
    · rfl
    · rename_i hok
      simp only [Bool.not_eq_true, Bool.not_eq_false'] at hok
      simp only [hok, Bool.true_and, decide_eq_false_iff_not] at h
      split
      · rfl
      · rename_i hd; exact absurd hd h
      · rfl
  · rename_i hn
    split
    · rename_i i h1 h2 h3
      exact absurd h3 (hn i h1 h2)
    · rfl

theorem rel_step {s : BSys β} (h : Rel C content s) (e : BEvent β) (he : e.fits content) :
    Rel C content (bstep C s e) := by
  have hst := still_parts s.sys
  have same : ∀ (e' : BEvent β) (a : Event), e'.erase = some a → bytesStep C s e' = s →
      (step s.sys a).parts = s.sys.parts → Rel C content (bstep C s e') := by
    intro e' a h0 h1 h2
    rw [bstep, h1, h0]
    exact h.of_parts h2 rfl rfl rfl rfl
  cases e with
  | edit p t x =>
    exact h.put _ p (some (t, x)) rfl (by rintro y ⟨rfl⟩; exact he)
  | delete p => exact h.put _ p none rfl (by simp)
  | tamper id p x => exact he.elim
  | dropState => exact same _ _ rfl rfl hst.2.1
  | otherFail => exact same _ _ rfl rfl hst.2.2.1
  | start c => exact same _ _ rfl rfl (hst.1 c)
  | begin => exact same _ _ rfl rfl hst.2.2.2.1
  | finish o b => exact same _ _ rfl rfl (hst.2.2.2.2.1 o b)
  | crash o w => exact same _ _ rfl rfl (hst.2.2.2.2.2 o w)
  | task id =>
    cases hr : s.sys.run with
    | none => exact same _ _ rfl (by simp [bytesStep, hr]) (by simp [step, inRun, hr])
    | some r =>
      cases hc : calls s.sys r id with
      | false =>
        exact same _ _ rfl (by simp [bytesStep, hr, hc]) (by simp only [step, inRun, hr]; exact calls_false hc)
      | true =>
        obtain ⟨i, hi, ht⟩ := calls_true hc
        have e1 : bstep C s (.task id) = { s.settle id with sys := taskRun s.sys r id } := by
          simp [bstep, bytesStep, BEvent.erase, step, inRun, hr, hc]
        rw [e1, ht]
        constructor
        · exact h.files
        · intro j q
          by_cases e : j = id
          · simp [upd, BSys.settle, e, h.files]
          · simp [upd, BSys.settle, e, h.view]
        · intro j q
          by_cases e : j = id
          · simp [upd, BSys.settle, e, h.files]
          · simp [upd, BSys.settle, e, h.seen]
        · exact h.cfiles
        · intro j q y hq
          by_cases e : j = id
          · exact h.cfiles q y (by simpa [BSys.settle, upd, e] using hq)
          · exact h.cview j q y (by simpa [BSys.settle, upd, e] using hq)
        · intro j q y hq
          by_cases e : j = id
          · simp only [BSys.settle, upd, if_pos e, List.mem_singleton] at hq
            exact h.cfiles q y hq.symm
          · exact h.cseen j q y (by simpa [BSys.settle, upd, e] using hq)
        · intro j k hk
          by_cases e : j = id
          · simp only [upd, if_pos e, Option.some.injEq] at hk
            subst hk
            intro hok
            simp [makeCall] at hok
          · exact h.outs j k (by simpa [upd, e] using hk)
  | look id p v =>
    cases hr : s.sys.run with
    | none => exact same _ _ rfl (by simp [bytesStep, hr]) (by simp [step, inRun, hr])
    | some r =>
      by_cases hc : r.status id = .calling
      · have e1 : bstep C s (.look id p v) = { s.lookAt id p v with sys := lookAt s.sys r id p v } := by
          simp [bstep, bytesStep, BEvent.erase, step, inRun, hr, hc]
        rw [e1]
        exact h.look id p v hc
      · exact same _ _ rfl (by simp [bytesStep, hr, hc]) (by simp [step, inRun, hr, lookAt, hc])
  | call id ok left =>
    cases hr : s.sys.run with
    | none => exact same _ _ rfl (by simp [bytesStep, hr]) (by simp [step, inRun, hr])
    | some r =>
      cases hi : find id r.cfg with
      | none => exact same _ _ rfl (by simp [bytesStep, hr, hi]) (by simp [step, inRun, hr, callRun, hi])
      | some i =>
        by_cases hc : r.status id = .calling
        · have e2 : (bstep C s (.call id ok left)).sys.parts =
              ({ s.sys with last := upd s.sys.last id (some (makeCall (s.sys.view id) i ok)) }).parts := by
            simp only [bstep, BEvent.erase, step, inRun, hr, callRun, hi, hc]
            split <;> rfl
          have e1 : bstep C s (.call id ok left) = { s with
              sys := (bstep C s (.call id ok left)).sys
              outs := upd s.outs id fun p =>
                if p ∈ i.outputs then
                  if ok then some (made C (text (s.view id)) id i p) else (left p).getD (s.outs id p)
                else s.outs id p } := by
            simp only [bstep, bytesStep, hr, hi, hc]
          rw [e1]
          refine Rel.of_parts (s := { s with
              sys := { s.sys with last := upd s.sys.last id (some (makeCall (s.sys.view id) i ok)) }
              outs := upd s.outs id fun p =>
                if p ∈ i.outputs then
                  if ok then some (made C (text (s.view id)) id i p) else (left p).getD (s.outs id p)
                else s.outs id p }) ?_ e2 rfl rfl rfl rfl
          refine { h with outs := ?_ }
          intro j k hk
          by_cases e : j = id
          · simp only [upd, if_pos e, Option.some.injEq] at hk ⊢
            subst hk e
            intro hok p hp
            have hok : ok = true := hok
            subst hok
            have hp : p ∈ i.outputs := hp
            simp only [if_pos hp, if_true, made]
            rw [contents_eval (h.view j) (h.cview j)]
            rfl
          · simp only [upd, if_neg e] at hk ⊢
            exact h.outs j k hk
        · refine same _ _ rfl ?_ ?_
          · simp only [bytesStep, hr, hi]
            split
            · rename_i hcc; exact absurd hcc hc
            · rfl
          · simp only [step, inRun, hr, callRun, hi]
            split
            · rename_i hcc; exact absurd hcc hc
            · rfl

theorem rel_steps (evs : List (BEvent β)) : ∀ {s : BSys β}, Rel C content s →
    (∀ e ∈ evs, e.fits content) → Rel C content (bsteps C s evs) := by
  induction evs with
  | nil => intro s h _; exact h
  | cons e l ih =>
    intro s h he
    exact ih (rel_step h e (he e List.mem_cons_self)) fun x hx => he x (List.mem_cons_of_mem _ hx)

/-- The generator sees the stamps only. -/
theorem bsteps_sys (evs : List (BEvent β)) : ∀ s : BSys β,
    (bsteps C s evs).sys = steps s.sys (evs.filterMap (·.erase)) := by
  induction evs with
  | nil => intro s; rfl
  | cons e l ih =>
    intro s
    have := ih (bstep C s e)
    rw [show bsteps C s (e :: l) = bsteps C (bstep C s e) l from rfl, this, bstep, List.filterMap_cons]
    cases e.erase <;> rfl

/-- What is current by descriptions is current by contents. -/
theorem Rel.current {s : BSys β} (h : Rel C content s) {id : Str} {i : IdCfg}
    (hc : Current (fun _ a b => a = b) s.sys id i) {p : Str} (hp : p ∈ i.outputs) :
    s.outs id p = some (made C (text s.files) id i p) := by
  obtain ⟨k, b, h1, h2, h3, h4, h5, rfl⟩ := hc
  rw [h.outs id k h1 h2 p (h4 ▸ hp), made, h5, contents_eval h.files h.cfiles, ← h3, h4]
  rfl

end

/-! ## A content for every version -/

/-- The content of the first version of the file with this stamp, in a list of versions. -/
def contentOf (junk : β) : List (Str × Nat × β) → Str → Str → β
  | [], _, _ => junk
  | (q, t, x) :: l, p, h => if q = p ∧ digits t = h then x else contentOf junk l p h

theorem contentOf_mem (junk : β) : ∀ {l : List (Str × Nat × β)},
    l.Pairwise (fun a b => ¬ (a.1 = b.1 ∧ a.2.1 = b.2.1)) →
    ∀ {p t x}, (p, t, x) ∈ l → x = contentOf junk l p (digits t) := by
  intro l
  induction l with
  | nil => intro _ p t x h; simp at h
  | cons a l ih =>
    intro hp p t x h
    obtain ⟨h1, h2⟩ := List.pairwise_cons.1 hp
    rcases List.mem_cons.1 h with rfl | h
    · simp [contentOf]
    · rw [contentOf, if_neg]
      · exact ih h2 h
      · rintro ⟨e1, e2⟩
        exact h1 _ h ⟨e1, digits_inj e2⟩

/-- The versions that are made from outside. -/
def editsOf (evs : List (BEvent β)) : List (Str × Nat × β) := evs.filterMap fun
  | .edit p t x => some (p, t, x)
  | _ => none

theorem editsOf_pairwise : ∀ evs : List (BEvent β),
    (∀ pre p t post, evs.filterMap (·.erase) = pre ++ .edit p t :: post → Event.edit p t ∉ pre) →
    (editsOf evs).Pairwise (fun a b => ¬ (a.1 = b.1 ∧ a.2.1 = b.2.1)) := by
  intro evs
  induction evs with
  | nil => intro _; exact List.Pairwise.nil
  | cons e l ih =>
    intro h
    have hl : (editsOf l).Pairwise (fun a b => ¬ (a.1 = b.1 ∧ a.2.1 = b.2.1)) := by
      refine ih fun pre p t post hp hm => ?_
      cases he : e.erase with
      | none => exact h pre p t post (by rw [List.filterMap_cons, he]; exact hp) hm
      | some a =>
        exact h (a :: pre) p t post (by rw [List.filterMap_cons, he, hp]; rfl) (List.mem_cons_of_mem _ hm)
    cases e with
    | edit p t x =>
      refine List.pairwise_cons.2 ⟨?_, hl⟩
      rintro ⟨q, u, y⟩ hm ⟨rfl, rfl⟩
      obtain ⟨a, ha, hb⟩ := List.mem_filterMap.1 hm
      have hin : Event.edit p t ∈ l.filterMap (·.erase) := by
        refine List.mem_filterMap.2 ⟨a, ha, ?_⟩
        cases a <;> simp only [Option.some.injEq, Prod.mk.injEq, reduceCtorEq] at hb
        rw [BEvent.erase, hb.1, hb.2.1]
      obtain ⟨l₁, l₂, e⟩ := List.append_of_mem hin
      exact h (.edit p t :: l₁) p t l₂ (by rw [List.filterMap_cons, BEvent.erase, e]; rfl) List.mem_cons_self
    | _ => exact hl

/-! ## The theorems -/

/-- C98: under the conditions of C29, the outputs of every id hold what its callback makes of its data
and of the present contents of its inputs, whatever the callbacks compute and whatever failed ones
left.

Missing: outputs that are changed by others, for which it is false (`C98_tampered_false`), and the
conditions of C29. -/
theorem C98_contents_partial (C : Callbacks β) {c : Cfg} {evs : List (BEvent β)} {s : BSys β}
    {order : List Str} {canOpen : Bool} {d : Done} (hs : s = bsteps C BSys.init evs)
    (hut : ∀ e ∈ evs, e.untouching) (h : OneConfiguration c (evs.filterMap (·.erase)))
    (hr : s.sys.run ≠ none) (hd : (bstep C s (.finish order canOpen)).sys.done = some d)
    (hok : d.ok = true) :
    ∀ id i, find id c = some i → ∀ p ∈ i.outputs,
      (bstep C s (.finish order canOpen)).outs id p =
        some (made C (text (bstep C s (.finish order canOpen)).files) id i p) := by
  intro id i hi p hp
  have hsys : s.sys = steps Sys.init (evs.filterMap (·.erase)) := by rw [hs, bsteps_sys]; rfl
  obtain ⟨-, h2⟩ := C29_one_configuration_partial (e := .finish order canOpen) hsys h hr hd hok
  obtain ⟨k, k1, k2, k3, k4, k5⟩ := h2 id i hi
  let junk : β := C [] [] [] [] []
  have hrel : Rel C (contentOf junk (editsOf evs)) (bstep C s (.finish order canOpen)) := by
    refine rel_step ?_ _ trivial
    rw [hs]
    refine rel_steps evs (rel_init C _) fun e he => ?_
    have h1 := hut e he
    cases e with
    | edit p t x =>
      exact contentOf_mem junk (editsOf_pairwise evs fun pre p t post hp => (h pre _ post hp).2.2 p t rfl)
        (List.mem_filterMap.2 ⟨_, he, rfl⟩)
    | tamper id p x => exact h1.elim
    | _ => trivial
  exact hrel.current ⟨k, k.blob, k1, k2, k3, k4, k5.symm, rfl⟩ hp

/-! ## Examples -/

/-- Callbacks that put the contents of the inputs, the data and the id together. -/
def exCallbacks : Callbacks Str := fun id blob ins _ _ => (ins.flatMap fun x => x.2.getD []) ++ blob ++ id

/-- A run with a callback that fails and leaves rubbish, an edit, and a second run up to its end. -/
def exBytes : List (BEvent Str) :=
  [ .edit b!"/p/a.in" 1 b!"A", .edit b!"/p/b.in" 2 b!"B", .start (exGen b!"!"), .begin, .task b!"b",
    .task b!"a", .call b!"a" true fun _ => none, .call b!"b" false fun _ => some (some b!"?"),
    .finish [b!"a", b!"b"] true, .edit b!"/p/a.in" 9 b!"X", .start (exGen b!"!"), .begin, .task b!"a",
    .task b!"b", .call b!"b" true fun _ => none, .call b!"a" true fun _ => none ]

/-- The hypotheses of `C98_contents_partial` are met. -/
example : (bstep exCallbacks (bsteps exCallbacks BSys.init exBytes) (.finish [b!"a", b!"b"] true)).outs
    b!"b" b!"/p/b.out" = some b!"BXb" := by
  obtain ⟨d, h1, h2⟩ := outcome_ok
    (σ := (bstep exCallbacks (bsteps exCallbacks BSys.init exBytes) (.finish [b!"a", b!"b"] true)).sys)
    (b := true) (by decide +kernel)
  have := C98_contents_partial exCallbacks (c := exGen b!"!") (evs := exBytes) rfl
    (by simp [exBytes, BEvent.untouching])
    (oneConfiguration_of (by simp [exBytes, BEvent.erase]) (by decide +kernel))
    (fun h => by
      have : (bsteps exCallbacks BSys.init exBytes).sys.run.isSome = true := by decide +kernel
      rw [h] at this; simp at this) h1 h2 b!"b" _ rfl b!"/p/b.out" (by simp)
  rw [this]
  decide +kernel

/-- After the run above, `more` happens and the generator is run again; no callback is called. -/
def exAgain (more : BEvent Str) : BSys Str :=
  bsteps exCallbacks BSys.init (exBytes ++ [.finish [b!"a", b!"b"] true, more, .start (exGen b!"!"), .begin,
    .task b!"a", .task b!"b", .finish [b!"a", b!"b"] true])

/-- C98 is false for outputs that were changed by others: the generator looks at its inputs only, so a
run that succeeds leaves an output as it is, or missing. -/
theorem C98_tampered_false :
    ∃ (more : BEvent Str), outcome (exAgain more).sys = some true ∧ (exAgain more).outs b!"b" b!"/p/b.out" = none ∧
      find b!"b" (exGen b!"!") = some ⟨[b!"/p/b.in", b!"/p/a.in"], [b!"/p/b.out"], none⟩ :=
  ⟨.tamper b!"b" b!"/p/b.out" none, by decide +kernel, by decide +kernel, rfl⟩

/-- An input with another content and its old time stamp is not noticed. -/
theorem C98_same_stamp_false :
    ∃ (more : BEvent Str), outcome (exAgain more).sys = some true ∧
      text (exAgain more).files b!"/p/b.in" = some b!"new" ∧
      (exAgain more).outs b!"b" b!"/p/b.out" = some b!"BXb" :=
  ⟨.edit b!"/p/b.in" 2 b!"new", by decide +kernel, by decide +kernel, by decide +kernel⟩

end Verif.Generator
