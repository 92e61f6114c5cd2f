import Verif.Str.Basic

/-!
# Model of `env::Command`

`Construct` hands the pattern to `fmt::vformat` with a store of named arguments.
fmt is not part of /repo; its documented format-string grammar is modelled for
text, `{{`, `}}` and named fields `{name}`.  Automatic and numbered fields
(`{}`, `{0}`) and format specifications (`{name:…}`) are valid for fmt but their
meaning depends on the iteration order of a hash map or on fmt details; they give
the separate outcome `unspecified`, which no positive theorem treats as a value.
-/

namespace Verif.Command
open Verif

/-- Outcome of `Construct`: a string, `assert_fatal`, or a pattern outside the
modelled fragment. -/
inductive Out where
  | value (s : Str)
  | fatal
  | unspecified
deriving DecidableEq, Repr

/-- Put text in front of a result. -/
def Out.pre (t : Str) : Out → Out
  | .value s => .value (t ++ s)
  | .fatal => .fatal
  | .unspecified => .unspecified

/-- First byte of an argument name (fmt `is_name_start`). -/
def nameStart (b : UInt8) : Bool :=
  (c!"a" ≤ b && b ≤ c!"z") || (c!"A" ≤ b && b ≤ c!"Z") || b = c!"_"

/-- Further bytes of an argument name. -/
def nameByte (b : UInt8) : Bool := nameStart b || (c!"0" ≤ b && b ≤ c!"9")

/-- Named arguments of the store, in the order they were pushed. -/
abbrev Args := List (Str × Str)

/-- fmt looks a name up from the first pushed argument on. -/
def lookupArg : Args → Str → Option Str
  | [], _ => none
  | (k, v) :: r, n => if k = n then some v else lookupArg r n

/-- `fmt::vformat`.  The fuel is the length of the pattern plus one, so it never
runs out (`format_fuel` in `Lemmas`). -/
def format (args : Args) : Nat → Str → Out
  | 0, _ => .unspecified
  | _ + 1, [] => .value []
  | f + 1, b :: r =>
    if b = c!"}" then
      match r with
      | b2 :: r2 => if b2 = c!"}" then (format args f r2).pre b!"}" else .fatal
      | [] => .fatal
    else if b = c!"{" then
      match r with
      | [] => .fatal
      | b2 :: r2 =>
        if b2 = c!"{" then (format args f r2).pre b!"{"
        else if b2 = c!"}" ∨ b2 = c!":" ∨ (c!"0" ≤ b2 ∧ b2 ≤ c!"9") then .unspecified
        else if nameStart b2 then
          let name := b2 :: r2.takeWhile nameByte
          match r2.dropWhile nameByte with
          | b3 :: r3 =>
            if b3 = c!"}" then
              match lookupArg args name with
              | some v => (format args f r3).pre v
              | none => .fatal
            else if b3 = c!":" then .unspecified
            else .fatal
          | [] => .fatal
        else .fatal
    else (format args f r).pre [b]

/-- `Command::default_values_` (`command.h:90`): a hash map, here a list with
distinct keys in some iteration order. -/
abbrev Defaults := List (Str × Str)

/-- `Command::AddDefaultArgument` (`command.cpp:29-32`): `emplace` keeps an
existing value.  The new key is put last; iteration order never matters for
distinct keys (`construct_perm`). -/
def addDefault (d : Defaults) (k v : Str) : Defaults :=
  if (lookupArg d k).isSome then d else d ++ [(k, v)]

/-- `Command::AddDefaultArguments` (`command.cpp:34-37`): `insert` of a range. -/
def addDefaults (d : Defaults) (l : List (Str × Str)) : Defaults :=
  l.foldl (fun d p => addDefault d p.1 p.2) d

/-- `Command::GetDefaultValueByKey` (`command.cpp:39-44`); `none` is
`assert_fatal`. -/
def getDefault (d : Defaults) (k : Str) : Option Str := lookupArg d k

/-- `Command::Construct` (`command.cpp:46-72`).  `args` lists the call arguments
in the iteration order of the hash map; null keys are not modelled, and names are
taken without embedded null bytes (`c_str()`). -/
def construct (d : Defaults) (pattern : Str) (args : Args) : Out :=
  format (d ++ args) (pattern.length + 1) pattern

/-! ## Text helpers -/

/-- `fmt::format("{}", fmt::join(list, " "))`: `internal::aggregate`
(`target/common/util.h:28-30`). -/
def aggregate : List Str → Str
  | [] => []
  | [a] => a
  | a :: l => a ++ c!" " :: aggregate l

/-- `internal::aggregate_with_prefix` (`target/common/util.h:32-40`). -/
def aggregateWithPrefix (pre : Str) (l : List Str) : Str := aggregate (l.map (pre ++ ·))

end Verif.Command
