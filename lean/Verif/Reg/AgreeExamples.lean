import Verif.Reg.AgreeMain
import Verif.Reg.OutcomeExamples

/-! # Examples for C115

Two generators that do not depend on each other, and a third one that reads what they have made. -/

namespace Verif.Reg
open Verif Verif.Schema
open Verif.Target (Fixed BinArt objPath outputPath upd paths)

/-- `Acts` as a function. -/
def acts (B : Behaviour) (w : World) : WEvent → Bool
  | .task j e ws =>
    match cmdOf (w.comps j) e with
    | none => true
    | some (x, b) => b == B.ok j x && (!b || (ws.all (·.2.isSome) && ws.map (·.1) == B.writes j x))
  | _ => true

def follows (B : Behaviour) : World → List WEvent → Bool
  | _, [] => true
  | w, e :: l => acts B w e && follows B (w.step e) l

theorem acts_sound {B : Behaviour} {w : World} {e : WEvent} (h : acts B w e = true) : Acts B w e := by
  cases e with
  | task j e ws =>
    intro x b _ _ hc
    simp only [acts, hc, Bool.and_eq_true, Bool.or_eq_true, beq_iff_eq, Bool.not_eq_true', List.all_eq_true] at h
    refine ⟨h.1, fun hb => ?_⟩
    rcases h.2 with h | ⟨h1, h2⟩
    · rw [hb] at h; simp at h
    · exact ⟨h1, fun p => by rw [h2]⟩
  | _ => trivial

theorem follows_sound {B : Behaviour} : ∀ {l : List WEvent} {w : World}, follows B w l = true → Follows B w l
  | [], _, _ => trivial
  | e :: l, w, h => by
    simp only [follows, Bool.and_eq_true] at h
    exact ⟨acts_sound h.1, follows_sound h.2⟩

/-- `Carried` as a function, for the callbacks of a generator. -/
def called (c : Comp) (id : Str) (b : Bool) : Bool :=
  match c with
  | .target _ _ => false
  | .gen σ => σ.log.any fun | .called id' b' => id' == id && b' == b | _ => false

theorem called_iff {c : Comp} {id : Str} {b : Bool} : Carried c (.call id) b ↔ called c id b = true := by
  cases c with
  | target fx σ => simp [Carried, called]
  | gen σ =>
    simp only [Carried, called, List.any_eq_true]
    constructor
    · intro h; exact ⟨_, h, by simp⟩
    · rintro ⟨e, he, h⟩
      split at h
      · simp only [Bool.and_eq_true, beq_iff_eq] at h
        rw [← h.1, ← h.2]; exact he
      · simp at h

/-! ## The world -/

def agIn (j : Str) : Str := b!"/p/" ++ j ++ b!".in"
def agOut (j : Str) : Str := b!"/p/" ++ j ++ b!".h"

def agSetup (j : Str) : Setup :=
  if j = b!"c" then .gen [(b!"v", ⟨[agOut b!"a", agOut b!"b"], [agOut b!"c"], none⟩)]
  else .gen [(b!"v", ⟨[agIn j], [agOut j], none⟩)]

def agGraph : Graph := ⟨[b!"a", b!"b", b!"c"], [(b!"a", b!"c"), (b!"b", b!"c")], []⟩

def agFiles : List WEvent := [.edit (agIn b!"a") 1, .edit (agIn b!"b") 1]

def agW : World := (World.init fun _ => .gen).steps agFiles

/-- All callbacks succeed, or the one of `b` fails. -/
def agB (good : Bool) : Behaviour := ⟨fun j _ => good || j != b!"b", fun j _ => [agOut j]⟩

def agTasks (j : Str) (t : Nat) : List WEvent :=
  [ .begin j, .task j (.g .begin) [], .task j (.g (.task b!"v")) [],
    .task j (.g (.call b!"v" true)) [(agOut j, some t)], .task j (.g (.finish [b!"v"] true)) [] ]

/-- One generator after the other. -/
def agOne : List WEvent := agTasks b!"a" 2 ++ agTasks b!"b" 3 ++ agTasks b!"c" 4

/-- The first two at the same time, the second one ahead. -/
def agTwo : List WEvent :=
  [ .begin b!"b", .begin b!"a", .task b!"b" (.g .begin) [], .task b!"a" (.g .begin) [],
    .task b!"b" (.g (.task b!"v")) [], .task b!"b" (.g (.call b!"v" true)) [(agOut b!"b", some 2)],
    .task b!"a" (.g (.task b!"v")) [], .task b!"a" (.g (.call b!"v" true)) [(agOut b!"a", some 3)],
    .task b!"a" (.g (.finish [b!"v"] true)) [], .task b!"b" (.g (.finish [b!"v"] true)) [] ] ++
  agTasks b!"c" 5

theorem agPlan : Plan agW agGraph agSetup where
  valid := ⟨by decide, by decide, by decide, by decide, by decide⟩
  acyclic := C37_acyclic_partial 10
    [ .callBuild true b!"a", .callBuild true b!"b", .callBuild true b!"c",
      .dep ⟨true, true⟩ b!"c" b!"a", .dep ⟨true, true⟩ b!"c" b!"b" ] ⟨agGraph, []⟩
    (by decide +kernel) (by decide)
  declared := by
    have ho : ∀ a ∈ agGraph.ids, outputs (agW.comps a) (agSetup a) = [agOut a] := by decide +kernel
    have hi : ∀ a ∈ agGraph.ids, ∀ b ∈ agGraph.ids, agOut a ∈ (agSetup b).inputs →
        (a, b) ∈ agGraph.edges := by decide +kernel
    intro a ha b hb p hp hp'
    rw [ho a ha, List.mem_singleton] at hp
    subst hp
    exact .edge (hi a ha b hb hp')

theorem agTimeless : ∀ e ∈ agFiles, Timeless e := by
  intro e he
  simp only [agFiles, List.mem_cons, List.not_mem_nil, or_false] at he
  rcases he with rfl | rfl <;> trivial

theorem ag_nodata {j id : Str} {c : Generator.Cfg} {i : Generator.IdCfg} (hc : agSetup j = .gen c)
    (hi : Generator.find id c = some i) : i.handler = none := by
  simp only [agSetup] at hc
  split at hc <;>
  · simp only [Setup.gen.injEq] at hc
    subst hc
    have := Generator.find_mem hi
    simp only [List.mem_cons, Prod.mk.injEq, List.not_mem_nil, or_false] at this
    rw [this.2]

theorem agSetup_gen (j : Str) : ∃ c, agSetup j = .gen c := by
  simp only [agSetup]; split <;> exact ⟨_, rfl⟩

theorem agRegular : ∀ j ∈ agGraph.ids, Regular (agSetup j) := by
  intro j _
  obtain ⟨c, hc⟩ := agSetup_gen j
  rw [hc]
  intro id i h b hi hh
  rw [ag_nodata hc hi] at hh
  simp at hh

theorem agAccepts : ∀ j ∈ agGraph.ids, Accepts (agW.comps j) (agSetup j) := by
  intro j _
  obtain ⟨c, hc⟩ := agSetup_gen j
  rw [hc]
  cases agW.comps j with
  | target fx σ => trivial
  | gen σ =>
    intro id i h hi hh
    rw [ag_nodata hc hi] at hh
    simp at hh

def agEnd (mid : List WEvent) : World := (agW.step (.launch agGraph agSetup)).steps mid

theorem agRuns {mid : List WEvent} (h : mid.all WEvent.inside = true) :
    RunsScript agW agGraph agSetup mid (agEnd mid) :=
  ⟨agPlan, by decide +kernel, by decide +kernel, fun e he => List.all_eq_true.1 h e he, rfl⟩

def unstored : Comp → Bool
  | .target _ σ => σ.log.any fun | .storeFailed => true | _ => false
  | .gen σ => σ.log.any fun | .storeFailed => true | _ => false

theorem Unstored.eq_true {c : Comp} (h : Unstored c) : unstored c = true := by
  cases c with
  | target fx σ => exact List.any_eq_true.2 ⟨_, h, rfl⟩
  | gen σ => exact List.any_eq_true.2 ⟨_, h, rfl⟩

theorem agOne_facts : (follows (agB true) (agW.step (.launch agGraph agSetup)) agOne = true ∧
    ((agEnd agOne).step .join).active = false ∧ ((agEnd agOne).step .join).result = some true) ∧
    ∀ j ∈ agGraph.ids, unstored ((agEnd agOne).comps j) = false := by
  decide +kernel

theorem agTwo_facts : (follows (agB true) (agW.step (.launch agGraph agSetup)) agTwo = true ∧
    ((agEnd agTwo).step .join).active = false ∧ ((agEnd agTwo).step .join).result = some true) ∧
    ∀ j ∈ agGraph.ids, unstored ((agEnd agTwo).comps j) = false := by
  decide +kernel

/-- Some callback is called in both builds. -/
example : Carried ((agEnd agTwo).comps b!"c") (.call b!"v") true :=
  (C115_same (kinds := fun _ => .gen) (hist := agFiles) (B := agB true) rfl agTimeless agRegular
    (agRuns (mid := agOne) (by decide)) (follows_sound agOne_facts.1.1)
    (agRuns (mid := agTwo) (by decide)) (follows_sound agTwo_facts.1.1)
    agOne_facts.1.2.1 agOne_facts.1.2.2 agTwo_facts.1.2.1 agTwo_facts.1.2.2 b!"c" (by decide)
    (.call b!"v") true).1 (called_iff.2 (by decide +kernel))

/-- The files differ in their versions only. -/
example : (agEnd agOne).files (agOut b!"a") = some 2 ∧ (agEnd agTwo).files (agOut b!"a") = some 3 ∧
    ∀ p, Alike agW.used (agEnd agOne).files (agEnd agTwo).files p :=
  ⟨by decide +kernel, by decide +kernel,
    C115_files (kinds := fun _ => .gen) (hist := agFiles) (B := agB true) rfl agTimeless agRegular
      (agRuns (mid := agOne) (by decide)) (follows_sound agOne_facts.1.1)
      (agRuns (mid := agTwo) (by decide)) (follows_sound agTwo_facts.1.1)
      agOne_facts.1.2.1 agOne_facts.1.2.2 agTwo_facts.1.2.1 agTwo_facts.1.2.2⟩

example : ((agEnd agOne).step .join).result = ((agEnd agTwo).step .join).result :=
  C115_result (kinds := fun _ => .gen) (hist := agFiles) (B := agB true) rfl agTimeless agRegular agAccepts
    (agRuns (mid := agOne) (by decide)) (follows_sound agOne_facts.1.1)
    (agRuns (mid := agTwo) (by decide)) (follows_sound agTwo_facts.1.1)
    agOne_facts.1.2.1 agTwo_facts.1.2.1
    (fun j hj h => absurd h.eq_true (by simp [agOne_facts.2 j hj]))
    (fun j hj h => absurd h.eq_true (by simp [agTwo_facts.2 j hj]))

/-- A build that has not come to its end. -/
example : ∀ j ∈ agGraph.ids, ∀ x b, Carried ((agEnd (agTwo.take 6)).comps j) x b →
    b = true ∧ Carried ((agEnd agOne).comps j) x true :=
  C115_commands (kinds := fun _ => .gen) (hist := agFiles) (B := agB true) rfl agTimeless agRegular
    (agRuns (mid := agOne) (by decide)) (follows_sound agOne_facts.1.1)
    (agRuns (mid := agTwo.take 6) (by decide)) (follows_sound (by decide +kernel))
    agOne_facts.1.2.1 agOne_facts.1.2.2

/-! ## Builds that fail -/

/-- What is left of a generator when something has failed before. -/
def agSkip (j : Str) : List WEvent :=
  [ .begin j, .task j (.g .begin) [] ]

def agFailing (j : Str) : List WEvent :=
  [ .begin j, .task j (.g .begin) [], .task j (.g (.task b!"v")) [], .task j (.g (.call b!"v" false)) [],
    .task j (.g (.finish [b!"v"] true)) [] ]

def agBadOne : List WEvent := agTasks b!"a" 2 ++ agFailing b!"b" ++ agSkip b!"c"
def agBadTwo : List WEvent := agFailing b!"b" ++ agSkip b!"a" ++ agSkip b!"c"

theorem agBad_facts : (follows (agB false) (agW.step (.launch agGraph agSetup)) agBadOne = true ∧
    follows (agB false) (agW.step (.launch agGraph agSetup)) agBadTwo = true) ∧
    (((agEnd agBadOne).step .join).active = false ∧ ((agEnd agBadOne).step .join).result = some false) ∧
    (((agEnd agBadTwo).step .join).active = false ∧ ((agEnd agBadTwo).step .join).result = some false) ∧
    called ((agEnd agBadOne).comps b!"a") b!"v" true = true ∧
    ∀ b, called ((agEnd agBadTwo).comps b!"a") b!"v" b = false := by
  decide +kernel

/-- Which commands are executed in a build that fails depends on the schedule: a builder that has begun
before another one fails executes its commands, one that begins after it does not. -/
theorem C115_failed_false : ∃ (kinds : Str → Kind) (hist midA midB : List WEvent) (w wA wB : World) (g : Graph)
    (s : Str → Setup) (B : Behaviour), w = (World.init kinds).steps hist ∧ (∀ e ∈ hist, Timeless e) ∧
    (∀ j ∈ g.ids, Regular (s j)) ∧
    RunsScript w g s midA wA ∧ Follows B (w.step (.launch g s)) midA ∧
    RunsScript w g s midB wB ∧ Follows B (w.step (.launch g s)) midB ∧
    (wA.step .join).result = some false ∧ (wB.step .join).result = some false ∧
    ∃ j ∈ g.ids, ∃ x, Carried (wA.comps j) x true ∧ ∀ b, ¬ Carried (wB.comps j) x b :=
  ⟨fun _ => .gen, agFiles, agBadOne, agBadTwo, agW, agEnd agBadOne, agEnd agBadTwo, agGraph, agSetup, agB false,
    rfl, agTimeless, agRegular, agRuns (by decide), follows_sound agBad_facts.1.1,
    agRuns (by decide), follows_sound agBad_facts.1.2, agBad_facts.2.1.2, agBad_facts.2.2.1.2,
    b!"a", by decide, .call b!"v", called_iff.2 agBad_facts.2.2.2.1,
    fun b h => absurd (called_iff.1 h) (by simp [agBad_facts.2.2.2.2 b])⟩

end Verif.Reg
