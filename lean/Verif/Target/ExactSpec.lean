import Verif.Target.Spec

/-!
# Specification of what a run has to do

`L` is the state that the run loads (`none` when there is none or it is unreadable),
`f` the files, `c` the configuration.
-/

namespace Verif.Target
open Verif Verif.Command Verif.Schema Verif.Json

/-- Versions as recorded in a state. -/
def recorded (l : List PathInfo) : Reads := l.map fun i => (i.path, some i.hash)

/-- The PCH of the recorded state is up to date. -/
structure PchCurrent (f : Str → Option Nat) (s c : TargetSchema) : Prop where
  preprocessor : s.preprocessorFlags = c.preprocessorFlags
  common : s.commonCompileFlags = c.commonCompileFlags
  pchFlags : s.pchCompileFlags = c.pchCompileFlags
  cFlags : s.cCompileFlags = c.cCompileFlags
  cppFlags : s.cppCompileFlags = c.cppCompileFlags
  includes : s.includeDirs = c.includeDirs
  headers : recorded s.headers = versions f c.headers
  pchs : recorded s.pchs = versions f c.pchs
  compiled : s.pchCompiled = true

/-- Everything that all objects depend on is as recorded. -/
structure SharedCurrent (f : Str → Option Nat) (s c : TargetSchema) : Prop where
  preprocessor : s.preprocessorFlags = c.preprocessorFlags
  common : s.commonCompileFlags = c.commonCompileFlags
  pchFlags : s.pchObjectFlags = c.pchObjectFlags
  asm : s.asmCompileFlags = c.asmCompileFlags
  cFlags : s.cCompileFlags = c.cCompileFlags
  cppFlags : s.cppCompileFlags = c.cppCompileFlags
  includes : s.includeDirs = c.includeDirs
  headers : recorded s.headers = versions f c.headers
  deps : recorded s.compileDeps = versions f c.compileDeps
  pch : c.pchs ≠ [] → PchCurrent f s c

/-- The source was compiled in its present version. -/
def SourceCurrent (f : Str → Option Nat) (s : TargetSchema) (p : Str) : Prop :=
  ∃ i, s.sources.find? (fun i => i.path = p) = some i ∧ version f p = some i.hash

/-- Everything else that the target is linked from is as recorded, and it was linked. -/
structure LinkCurrent (f : Str → Option Nat) (s c : TargetSchema) : Prop where
  flags : s.linkFlags = c.linkFlags
  libDirs : s.libDirs = c.libDirs
  external : s.externalLibs = c.externalLibs
  libs : recorded s.libs = versions f c.libs
  deps : recorded s.linkDeps = versions f c.linkDeps
  linked : s.targetLinked = true

/-- Nothing has to be done. -/
structure AllCurrent (f : Str → Option Nat) (s c : TargetSchema) : Prop where
  shared : SharedCurrent f s c
  sources : ∀ p ∈ paths c.sources, SourceCurrent f s p
  noOther : ∀ p ∈ paths s.sources, p ∈ paths c.sources
  link : LinkCurrent f s c

/-- The PCH has to be compiled. -/
def NeedPch (f : Str → Option Nat) (L : Option TargetSchema) (c : TargetSchema) : Prop :=
  c.pchs ≠ [] ∧ ∀ s, L = some s → ¬ PchCurrent f s c

/-- The source has to be compiled. -/
def NeedObj (f : Str → Option Nat) (L : Option TargetSchema) (c : TargetSchema) (p : Str) : Prop :=
  p ∈ paths c.sources ∧ ∀ s, L = some s → ¬ (SharedCurrent f s c ∧ SourceCurrent f s p)

/-- The target has to be linked. -/
def NeedLink (f : Str → Option Nat) (L : Option TargetSchema) (c : TargetSchema) : Prop :=
  ∀ s, L = some s → ¬ AllCurrent f s c

/-- From the idle state `σ₀` a build of `c` is started and runs without changes from
outside up to `σ`. -/
structure QuietRun (fx : Fixed) (σ₀ : Sys) (c : TargetSchema) (order : List Str)
    (mid : List Event) (σ : Sys) : Prop where
  idle : σ₀.run = none
  started : (step fx σ₀ (.start c order)).run.isSome = true
  quiet : ∀ e ∈ mid, e.outside = false ∧ e.isStart = false
  result : steps fx (step fx σ₀ (.start c order)) mid = σ

/-- Files that a build of `c` looks at. -/
def tracked (c : TargetSchema) : List Str :=
  paths c.sources ++ paths c.headers ++ paths c.pchs ++ paths c.compileDeps ++ paths c.libs ++
    paths c.linkDeps

/-- Sources compiled in a run, in the order in which the commands ended. -/
def compiledSources (log : List Entry) : List Str := log.filterMap fun
  | .obj p _ => some p
  | _ => none

/-- No build runs in `σ'`, and neither the state nor a file that a build of `c` looks at
has changed since `σ`, except for the versions of the files in `ex`. -/
structure SameExcept (ex : List Str) (c : TargetSchema) (σ σ' : Sys) : Prop where
  state : σ'.stateFile = σ.stateFile
  files : ∀ p ∈ tracked c, p ∉ ex → σ'.files p = σ.files p

end Verif.Target
