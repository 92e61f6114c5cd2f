import Verif.Reg.OneScript
import Verif.Target.SpecialProps
import Verif.Path.Props

/-!
# Vocabulary for build scripts made of targets

What a script with targets declares, and the conditions under which its builds can be trusted.
-/

namespace Verif.Reg
open Verif Verif.Schema Verif.Toolchain
open Verif.Target (Fixed objPath outputPath paths Project Made targetGeneric PlainExt)
open Verif.Path (Inside PlainName)

/-- An absolute path in normal form that ends in a name. -/
def Absolute (p : Str) : Prop :=
  Path.isAbs p = true ∧ Path.toPathString p = p ∧ Path.filename p ≠ []

instance (p : Str) : Decidable (Absolute p) := inferInstanceAs (Decidable (_ ∧ _ ∧ _))

/-- A target of a script: the target, what it was given, and the order in which its objects
are linked. -/
structure ScriptTarget where
  made : Made
  cfg : TargetSchema
  order : List Str

/-- The name under which it is registered. -/
def ScriptTarget.id (d : ScriptTarget) : Str := Path.targetId d.made.toolchain.name d.made.name

/-- Its output. -/
def ScriptTarget.output (d : ScriptTarget) : Str := outputPath d.made.fixed

/-- The builders of the script. -/
def kindsOf (ts : List ScriptTarget) (j : Str) : Kind :=
  match ts.find? (·.id = j) with
  | some d => .target d.made.fixed
  | none => .gen

/-- The configurations of the script. -/
def setupOf (ts : List ScriptTarget) (j : Str) : Setup :=
  match ts.find? (·.id = j) with
  | some d => .target d.cfg d.order
  | none => .gen []

/-- The files that are given to a target, without the outputs of other targets. -/
def given (c : TargetSchema) : List Str :=
  paths c.sources ++ paths c.headers ++ paths c.pchs ++ paths c.compileDeps ++ paths c.linkDeps

/-- The script keeps to these rules; `deps` are the dependencies it declares with `Reg::Dep`. -/
structure PlainScript (p : Project) (ts : List ScriptTarget) (deps : List (Str × Str)) : Prop where
  build : Absolute p.buildDir
  /-- Targets are created with their shipped configuration, in the project's build directory,
  with any root directory. -/
  made : ∀ t ∈ ts, ∃ junk name type tc root,
    targetGeneric junk p name type tc ⟨root, p.buildDir⟩ = some t.made
  names : ∀ t ∈ ts, PlainName t.made.name ∧ PlainName t.made.toolchain.name
  exts : ∀ t ∈ ts, PlainExt t.made.toolchain.config.objExt ∧
    PlainExt t.made.toolchain.config.pchHeaderExt ∧ PlainExt t.made.toolchain.config.pchCompileExt
  /-- Each source is given once, and no two sources of a target have the same object file (C21 says
  when they do; two files below the root directory of the target do not). -/
  sources : ∀ t ∈ ts, (paths t.cfg.sources).Nodup ∧ ∀ a ∈ paths t.cfg.sources,
    ∀ b ∈ paths t.cfg.sources, objPath t.made.fixed a = objPath t.made.fixed b → a = b
  /-- No file that is given is in the build directory. -/
  outside : ∀ t ∈ ts, ∀ q ∈ given t.cfg, ¬ Inside p.buildDir q
  /-- A library that is linked and is in the build directory is the output of a target on which
  this one is declared to depend, directly or through others. -/
  libs : ∀ t ∈ ts, ∀ q ∈ paths t.cfg.libs, Inside p.buildDir q →
    ∃ d ∈ ts, q = d.output ∧ Reaches deps d.id t.id

end Verif.Reg
