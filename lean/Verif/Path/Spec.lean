import Verif.Path.Model

/-!
# Vocabulary for the path properties

Nothing here refers to how the code builds paths; it only speaks about byte
strings, their components between separators, and words of a command line.
-/

namespace Verif.Path
open Verif

/-- `p` is a path below directory `dir`: `dir`, a separator, and then a text
without any `..` component. -/
def Inside (dir p : Str) : Prop :=
  ∃ t, (p = dir ++ slash :: t ∨ (dir.getLast? = some slash ∧ p = dir ++ t)) ∧
    dotdot ∉ splitSlash t

/-- A plain name: not empty, not `.` or `..`, and without a separator. -/
def PlainName (c : Str) : Prop := c ≠ [] ∧ c ≠ dot ∧ c ≠ dotdot ∧ slash ∉ c

instance (c : Str) : Decidable (PlainName c) := by unfold PlainName; infer_instance

/-- How a shell splits a command line when only spaces and double quotes matter.
First argument: inside double quotes.  Second: the word being read, if any. -/
def wordsFrom : Bool → Option Str → Str → List Str
  | _, none, [] => []
  | _, some w, [] => [w]
  | q, cur, b :: r =>
    if b = c!"\"" then wordsFrom (!q) (some (cur.getD [])) r
    else if b = c!" " ∧ q = false then
      match cur with
      | none => wordsFrom q none r
      | some w => w :: wordsFrom q none r
    else wordsFrom q (some (cur.getD [] ++ [b])) r

/-- The words of a command line. -/
def words (s : Str) : List Str := wordsFrom false none s

/-- Every double quote that is opened is closed. -/
def Balanced (s : Str) : Prop := (s.filter (· = c!"\"")).length % 2 = 0

end Verif.Path
