import Verif.Target.Model

/-!
# Specification of incremental builds

What a build from scratch would produce, which inputs a part of the build depends
on, and the conditions on a history under which the incremental build is right.
Every condition is shown to be necessary in `Refute.lean`.
-/

namespace Verif.Target
open Verif Verif.Command Verif.Schema Verif.Json

/-! ## A build from scratch -/

/-- Version of one file: its hash, or `none` when it is missing. -/
def version (files : Str → Option Nat) (p : Str) : Option Str := (files p).map digits

/-- Versions of the files of a list. -/
def versions (files : Str → Option Nat) (l : List PathInfo) : Reads :=
  l.map fun i => (i.path, version files i.path)

/-- The precompiled header that a build from scratch produces. -/
def cleanPch (fx : Fixed) (files : Str → Option Nat) (c : TargetSchema) : PchArt where
  cmd := cmdText (pchCommand fx c)
  pchs := versions files c.pchs
  headers := versions files c.headers

/-- The PCH an object or the target of a build from scratch uses. -/
def cleanPch? (fx : Fixed) (files : Str → Option Nat) (c : TargetSchema) : Option PchArt :=
  if c.pchs = [] then none else some (cleanPch fx files c)

/-- The object that a build from scratch produces for a source. -/
def cleanObj (fx : Fixed) (files : Str → Option Nat) (c : TargetSchema) (src : Str) : ObjArt where
  cmd := cmdText (compileCommand fx c src)
  path := src
  src := version files src
  headers := versions files c.headers
  deps := versions files c.compileDeps
  pch := cleanPch? fx files c

/-- The target that a build from scratch produces when the hash map of objects is
iterated in the given order. -/
def cleanBin (fx : Fixed) (files : Str → Option Nat) (c : TargetSchema) (order : List Str) :
    BinArt where
  cmd := cmdText (linkCommand fx c order)
  objs := order.map fun s => some (cleanObj fx files c s)
  libs := versions files c.libs
  linkDeps := versions files c.linkDeps
  pch := cleanPch? fx files c

/-- Paths of a list. -/
def paths (l : List PathInfo) : List Str := l.map (·.path)

/-- Everything is as a build from scratch would leave it. -/
structure Clean (fx : Fixed) (σ : Sys) (c : TargetSchema) : Prop where
  pch : c.pchs ≠ [] → σ.pch = some (cleanPch fx σ.files c)
  obj : ∀ p ∈ paths c.sources, σ.objs (objPath fx p) = some (cleanObj fx σ.files c p)
  bin : ∃ order : List Str, order.Perm (paths c.sources) ∧
    σ.bin = some (cleanBin fx σ.files c order)

/-! ## Configurations -/

/-- Two configurations agree on what the PCH is compiled from. -/
structure SamePch (a b : TargetSchema) : Prop where
  preprocessor : a.preprocessorFlags = b.preprocessorFlags
  common : a.commonCompileFlags = b.commonCompileFlags
  pchFlags : a.pchCompileFlags = b.pchCompileFlags
  c : a.cCompileFlags = b.cCompileFlags
  cpp : a.cppCompileFlags = b.cppCompileFlags
  includes : a.includeDirs = b.includeDirs
  headers : paths a.headers = paths b.headers
  pchs : paths a.pchs = paths b.pchs

/-- Two configurations agree on what every object is compiled from, the PCH left
aside. -/
structure SameObj (a b : TargetSchema) : Prop where
  preprocessor : a.preprocessorFlags = b.preprocessorFlags
  common : a.commonCompileFlags = b.commonCompileFlags
  pchFlags : a.pchObjectFlags = b.pchObjectFlags
  asm : a.asmCompileFlags = b.asmCompileFlags
  c : a.cCompileFlags = b.cCompileFlags
  cpp : a.cppCompileFlags = b.cppCompileFlags
  includes : a.includeDirs = b.includeDirs
  headers : paths a.headers = paths b.headers
  deps : paths a.compileDeps = paths b.compileDeps

/-- Two configurations agree on what the target is linked from, compilation left
aside. -/
structure SameLink (a b : TargetSchema) : Prop where
  flags : a.linkFlags = b.linkFlags
  libDirs : a.libDirs = b.libDirs
  external : a.externalLibs = b.externalLibs
  libs : paths a.libs = paths b.libs
  deps : paths a.linkDeps = paths b.linkDeps
  sources : ∀ p, p ∈ paths a.sources ↔ p ∈ paths b.sources

/-- Configuration `c` changes what objects are compiled from, with respect to the
stored state `s`. -/
def ChangesObj (s c : TargetSchema) : Prop := ¬ SameObj s c ∨ (c.pchs ≠ [] ∧ ¬ SamePch s c)

/-- Configuration `c` changes what the target is linked from. -/
def ChangesLink (s c : TargetSchema) : Prop := ChangesObj s c ∨ ¬ SameLink s c

/-! ## Conditions on histories -/

/-- Conditions on a configuration with which a build is started.
`stored` is the state the build loads, if any. -/
structure StartOk (fx : Fixed) (σ : Sys) (c : TargetSchema) : Prop where
  /-- No source is listed twice. -/
  nodup : (paths c.sources).Nodup
  /-- Different sources have different object files. -/
  inj : ∀ p ∈ paths c.sources, ∀ q ∈ paths c.sources, objPath fx p = objPath fx q → p = q
  /-- Also different from those of the sources in the stored state. -/
  injStored : ∀ s, loadTargetFile σ.stateFile = some s →
    ∀ p ∈ paths c.sources, ∀ q ∈ paths s.sources, objPath fx p = objPath fx q → p = q
  /-- A change made by a run that was lost (it crashed, or could not store its state)
  is not undone before a run is stored: PCH. -/
  keepPch : ∀ s, loadTargetFile σ.stateFile = some s → ∀ l ∈ σ.lost,
    c.pchs ≠ [] → ¬ SamePch s l → ¬ SamePch s c
  /-- The same for objects. -/
  keepObj : ∀ s, loadTargetFile σ.stateFile = some s → ∀ l ∈ σ.lost,
    ChangesObj s l → ChangesObj s c
  /-- The same for the linked target. -/
  keepLink : ∀ s, loadTargetFile σ.stateFile = some s → ∀ l ∈ σ.lost,
    ChangesLink s l → ChangesLink s c
  /-- The PCH is not dropped, unless the configuration also changes otherwise. -/
  pchKept : ∀ s, loadTargetFile σ.stateFile = some s → s.pchs ≠ [] → c.pchs = [] → ¬ SameObj s c
  /-- The language of the PCH is not changed, unless what it is compiled from changes
  as well. -/
  pchLang : ∀ s, loadTargetFile σ.stateFile = some s → s.pchs ≠ [] → c.pchs ≠ [] → SamePch s c →
    containsCpp fx σ.saved = containsCpp fx c

/-- Conditions on an event. -/
def Allowed (fx : Fixed) (σ : Sys) : Event → Prop
  | .tamperObj _ _ => False
  | .tamperPch _ => False
  | .tamperBin _ => False
  | .edit p t => t ∉ σ.used p ∧ ∀ r, σ.run = some r → r.cfg.pchs ≠ [] → (r.phase = .pchRun ∨ r.phase = .obj) →
      p ∉ paths r.cfg.headers
  | .start c _ => σ.run = none → StartOk fx σ c
  | _ => True

/-- Every event of a history is allowed when it happens. -/
def AllAllowed (fx : Fixed) (σ : Sys) : List Event → Prop
  | [] => True
  | e :: l => Allowed fx σ e ∧ AllAllowed fx (step fx σ e) l

/-- The event changes a file from outside of the build. -/
def Event.outside : Event → Bool
  | .edit _ _ | .delete _ | .tamperObj _ _ | .tamperPch _ | .tamperBin _ | .dropState => true
  | _ => false

/-- The event starts a build. -/
def Event.isStart : Event → Bool
  | .start _ _ => true
  | _ => false

/-- What a compile command depends on: templates may not use placeholders of other
parts of the configuration. -/
def CompileLocal (fx : Fixed) : Prop :=
  ∀ a b src, SameObj a b → (a.pchs = [] ↔ b.pchs = []) →
    compileCommand fx a src = compileCommand fx b src

/-- The same for the PCH command. -/
def PchLocal (fx : Fixed) : Prop :=
  ∀ a b, SamePch a b → containsCpp fx a = containsCpp fx b → pchCommand fx a = pchCommand fx b

/-- The target uses the templates of a shipped configuration. -/
def Shipped (fx : Fixed) : Prop :=
  fx.tcfg ∈ [defaultConfig, gccExe, gccStatic, gccDynamic, mingwExe, mingwStatic, mingwDynamic,
    msvcExe, msvcStatic, msvcDynamic]

/-! ## Builds and histories -/

/-- From the idle state `σ₀` a build of `c` is started, runs in some schedule without
changes from outside, and ends in `σ` with task state SUCCESS. -/
structure SuccessfulBuild (fx : Fixed) (σ₀ : Sys) (c : TargetSchema) (order : List Str)
    (mid : List Event) (σ : Sys) : Prop where
  idle : σ₀.run = none
  started : (step fx σ₀ (.start c order)).run.isSome = true
  quiet : ∀ e ∈ mid, e.outside = false ∧ e.isStart = false
  result : steps fx (step fx σ₀ (.start c order)) mid = σ
  success : ∃ b, σ.done = some ⟨c, true, b⟩

/-- Configurations that may be used one after the other. -/
structure Family (fx : Fixed) (K : TargetSchema → Prop) : Prop where
  /-- No source is listed twice. -/
  nodup : ∀ c, K c → (paths c.sources).Nodup
  /-- Different sources have different object files. -/
  inj : ∀ a b, K a → K b → ∀ p ∈ paths a.sources, ∀ q ∈ paths b.sources,
    objPath fx p = objPath fx q → p = q
  /-- The PCH is not dropped without another change. -/
  pchKept : ∀ a b, K a → K b → a.pchs ≠ [] → b.pchs = [] → ¬ SameObj a b
  /-- The language of the PCH does not change without another change. -/
  pchLang : ∀ a b, K a → K b → a.pchs ≠ [] → b.pchs ≠ [] → SamePch a b →
    containsCpp fx a = containsCpp fx b

/-- Built files are changed behind the back of the build. -/
def Event.tampers : Event → Bool
  | .tamperObj _ _ | .tamperPch _ | .tamperBin _ => true
  | _ => false

/-- The history, from nothing, uses configurations of `K` and
* leaves built files alone,
* gives no file a stamp it had before,
* edits headers of targets with PCH only between builds,
* if a build is killed or cannot store its state, then there is one configuration. -/
structure Disciplined (fx : Fixed) (K : TargetSchema → Prop) (evs : List Event) : Prop where
  starts : ∀ c order, Event.start c order ∈ evs → K c
  untouched : ∀ e ∈ evs, e.tampers = false
  stamps : ∀ pre p t post, evs = pre ++ .edit p t :: post → Event.edit p t ∉ pre
  headers : ∀ pre p t post, evs = pre ++ .edit p t :: post →
    (steps fx Sys.init pre).run = none ∨ ∀ c, K c → c.pchs ≠ [] → p ∉ paths c.headers
  losses : (∀ a b, K a → K b → a = b) ∨
    ((∀ w, Event.crash w ∉ evs) ∧ ∀ pre b post, evs = pre ++ .finish b :: post →
      Entry.storeFailed ∉ (steps fx Sys.init (pre ++ [.finish b])).log)

end Verif.Target
