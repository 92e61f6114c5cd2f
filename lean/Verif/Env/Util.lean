import Verif.Str.Basic

/-! # Model of `env/util.h`: `split`, `ltrim`, `rtrim`, `trim` -/

namespace Verif.Env
open Verif

/-- `std::getline(ss, item, delim)` on a `std::stringstream` with the unread text `s`: the
item and the text that remains, or `none` when nothing can be extracted. -/
def getline (delim : UInt8) (s : Str) : Option (Str × Str) :=
  if s = [] then none
  else some (s.takeWhile (· ≠ delim), (s.dropWhile (· ≠ delim)).drop 1)

/-- The loop of `split` (`util.h:117-119`).  Every item takes at least one character, so the
length of the text bounds the number of iterations. -/
def splitLoop (delim : UInt8) : Nat → Str → List Str
  | 0, _ => []
  | n + 1, s =>
    match getline delim s with
    | none => []
    | some (item, rest) => item :: splitLoop delim n rest

/-- `split` (`util.h:113-122`). -/
def split (s : Str) (delim : UInt8) : List Str := splitLoop delim s.length s

/-- `std::isspace(c)` for a `char` that is signed, in the "C" locale.  The argument must be
representable as `unsigned char` or be `EOF`, which is `-1`; otherwise the behaviour is
undefined (`none`). -/
def isspace (c : UInt8) : Option Bool :=
  if c < 128 then some (c = 32 || (9 ≤ c && c ≤ 13))
  else if c = 255 then some false
  else none

/-- `ltrim` (`util.h:125-133`); `none` is undefined behaviour. -/
def ltrim : Str → Option Str
  | [] => some []
  | c :: s =>
    match isspace c with
    | none => none
    | some true => ltrim s
    | some false => some (c :: s)

/-- `rtrim` (`util.h:135-145`): the same search with reverse iterators. -/
def rtrim (s : Str) : Option Str := (ltrim s.reverse).map List.reverse

/-- `trim` (`util.h:150-154`). -/
def trim (s : Str) : Option Str :=
  match ltrim s with
  | none => none
  | some tr => rtrim tr

end Verif.Env
