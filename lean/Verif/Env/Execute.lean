import Verif.Str.Basic

/-!
# Model of `Command::Execute`

tiny-process-library is not part of /repo: a process is represented by what it writes, piece
by piece as the library hands it over, and whether it ends with status 0.
-/

namespace Verif.Env
open Verif

/-- What a process writes, and whether it ends with status 0. -/
structure Answer where
  out : List Str
  err : List Str
  ok : Bool
deriving DecidableEq, Repr

/-- How the processes of the host answer, by command and working directory. -/
abbrev Shell := Str → Option Str → Answer

/-- `Command::Execute` (`execute.cpp:44-65`); `none` is the fatal error for an empty command.
Which of the streams are handed to the caller depends on the pointers, see the callers. -/
def execute (sh : Shell) (command : Str) (dir : Option Str) : Option Answer :=
  if command = [] then none else some (sh command dir)

end Verif.Env
