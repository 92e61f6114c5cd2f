import Verif.Generator.Exact

/-! # A concrete generator and histories used in examples and refutations -/

namespace Verif.Generator
open Verif Verif.Schema Verif.Json
open Verif.Target (Reads fileHash upd)

/-- A handler that rejects the empty blob and compares bytes. -/
def exH (data : Blob) : Handler where
  verify := fun b => !b.isEmpty
  isEqual := fun a b => some (a == b)
  serialize := some data

/-- Two ids that share an input; one of them has data. -/
def exGen (data : Blob) : Cfg :=
  [ (b!"a", ⟨[b!"/p/a.in"], [b!"/p/a.out"], some (exH data)⟩),
    (b!"b", ⟨[b!"/p/b.in", b!"/p/a.in"], [b!"/p/b.out"], none⟩) ]

def exIn : List Event := [.edit b!"/p/a.in" 1, .edit b!"/p/b.in" 2]

def exFullG : List Event :=
  [ .begin, .task b!"b", .task b!"a", .call b!"a" true, .call b!"b" true,
    .finish [b!"b", b!"a"] true ]

def exNullG : List Event := [.begin, .task b!"a", .task b!"b", .finish [b!"a", b!"b"] true]

/-- The callback of `b` fails after the one of `a` succeeded. -/
def exFailG : List Event :=
  [ .begin, .task b!"b", .task b!"a", .call b!"a" true, .call b!"b" false,
    .finish [b!"a", b!"b"] true ]

def exRetryG : List Event :=
  [.begin, .task b!"a", .task b!"b", .call b!"b" true, .finish [b!"b", b!"a"] true]

/-- Files exist, nothing has run. -/
def exS : Sys := steps Sys.init exIn

theorem exReflexive (data : Blob) : Reflexive (exGen data) := by
  intro id i h b hi hh hb
  have := find_mem hi
  simp only [exGen, List.mem_cons, Prod.mk.injEq, List.not_mem_nil, or_false] at this
  rcases this with ⟨-, rfl⟩ | ⟨-, rfl⟩
  · simp only [Option.some.injEq] at hh; subst hh
    simp [exH]
  · simp at hh

/-- Boolean form of the outcome of a run. -/
def outcome (σ : Sys) : Option Bool := σ.done.map (·.ok)

theorem outcome_ok {σ : Sys} {b : Bool} (h : outcome σ = some b) : ∃ d, σ.done = some d ∧ d.ok = b :=
  Option.map_eq_some_iff.1 h

/-- A run from the state `σ`. -/
def runG (σ : Sys) (c : Cfg) (mid : List Event) : Sys := steps (step σ (.start c)) mid

theorem quietRun {σ : Sys} {c : Cfg} {mid : List Event} (h1 : σ.run.isNone = true)
    (h2 : (keys c).Nodup) (h3 : mid.all (fun e => !e.outside) = true) :
    QuietRun σ c mid (runG σ c mid) :=
  ⟨by simpa using h1, h2, by simpa using h3, rfl⟩

theorem Untouched.rfl' {c : Cfg} {σ : Sys} : Untouched c σ σ := ⟨fun _ _ => rfl, rfl⟩

end Verif.Generator
