import Verif.Str.Basic

/-!
# What a command pattern means

A pattern is a sequence of segments: plain text without braces, an escaped brace,
or a named field.  Its meaning under a binding of names is the concatenation of
the meanings of the segments.
-/

namespace Verif.Command
open Verif

/-- One segment of a pattern. -/
inductive Seg where
  | text (s : Str)
  | openBrace
  | closeBrace
  | field (name : Str)
deriving DecidableEq, Repr

def letters : Str := b!"abcdefghijklmnopqrstuvwxyzABCDEFGHIJKLMNOPQRSTUVWXYZ_"
def numerals : Str := b!"0123456789"

/-- A field name: a letter or underscore, then letters, underscores and digits. -/
def IsIdent (n : Str) : Prop :=
  match n with
  | [] => False
  | b :: r => b ∈ letters ∧ ∀ x ∈ r, x ∈ letters ∨ x ∈ numerals

/-- Well-formed segment. -/
def Seg.Ok : Seg → Prop
  | .text s => c!"{" ∉ s ∧ c!"}" ∉ s
  | .openBrace => True
  | .closeBrace => True
  | .field n => IsIdent n

instance (n : Str) : Decidable (IsIdent n) := by
  cases n <;> simp only [IsIdent] <;> infer_instance
instance (s : Seg) : Decidable s.Ok := by
  cases s <;> simp only [Seg.Ok] <;> infer_instance

/-- How the segment is written in a pattern. -/
def Seg.src : Seg → Str
  | .text s => s
  | .openBrace => b!"{{"
  | .closeBrace => b!"}}"
  | .field n => b!"{" ++ n ++ b!"}"

/-- What the segment stands for. -/
def Seg.val (env : Str → Option Str) : Seg → Option Str
  | .text s => some s
  | .openBrace => some b!"{"
  | .closeBrace => some b!"}"
  | .field n => env n

/-- The text of a pattern. -/
def srcs (l : List Seg) : Str := (l.map Seg.src).flatten

/-- The meaning of a pattern: `none` when some field has no value. -/
def vals (env : Str → Option Str) : List Seg → Option Str
  | [] => some []
  | x :: l =>
    match x.val env, vals env l with
    | some a, some b => some (a ++ b)
    | _, _ => none

end Verif.Command
