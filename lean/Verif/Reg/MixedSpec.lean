import Verif.Reg.ProjectSpec
import Verif.Generator.FileGen

/-!
# Vocabulary for build scripts made of targets and generators
-/

namespace Verif.Reg
open Verif Verif.Schema Verif.Toolchain
open Verif.Target (objPath paths Project targetGeneric PlainExt)
open Verif.Path (Inside PlainName)

/-- A generator of a script: its name, under which it is registered
(`custom_generator.cpp:257`), and what it was given. -/
structure ScriptGen where
  name : Str
  cfg : Generator.Cfg

/-- The files it reads. -/
def ScriptGen.inputs (g : ScriptGen) : List Str := g.cfg.flatMap fun x => x.2.inputs

/-- The files it makes. -/
def ScriptGen.outputs (g : ScriptGen) : List Str := g.cfg.flatMap fun x => x.2.outputs

/-- The configurations of the script; its builders are those of `kindsOf`. -/
def setupWith (ts : List ScriptTarget) (gs : List ScriptGen) (j : Str) : Setup :=
  match ts.find? (·.id = j) with
  | some d => .target d.cfg d.order
  | none =>
    match gs.find? (·.name = j) with
    | some g => .gen g.cfg
    | none => .gen []

/-- The builder `id` may be given the file `q`: when it is in the directory of a target it is the
output of that target, and when it is made by a target or a generator then the builder is declared
to depend on that, directly or through others. -/
def MayRead (ts : List ScriptTarget) (gs : List ScriptGen) (deps : List (Str × Str)) (id q : Str) :
    Prop :=
  (∀ d ∈ ts, Inside d.made.buildDir q → q = d.output ∧ Reaches deps d.id id) ∧
  ∀ g ∈ gs, q ∈ g.outputs → Reaches deps g.name id

/-- The script keeps to these rules; `deps` are the dependencies it declares with `Reg::Dep`. -/
structure PlainProject (p : Project) (ts : List ScriptTarget) (gs : List ScriptGen)
    (deps : List (Str × Str)) : Prop where
  build : Absolute p.buildDir
  /-- Targets are created with their shipped configuration, in the project's build directory,
  with any root directory. -/
  made : ∀ t ∈ ts, ∃ junk name type tc root,
    targetGeneric junk p name type tc ⟨root, p.buildDir⟩ = some t.made
  names : ∀ t ∈ ts, PlainName t.made.name ∧ PlainName t.made.toolchain.name
  gens : ∀ g ∈ gs, PlainName g.name
  exts : ∀ t ∈ ts, PlainExt t.made.toolchain.config.objExt ∧
    PlainExt t.made.toolchain.config.pchHeaderExt ∧ PlainExt t.made.toolchain.config.pchCompileExt
  /-- Each source is given once, and no two sources of a target have the same object file (C21 says
  when they do; two files below the root directory of the target do not). -/
  sources : ∀ t ∈ ts, (paths t.cfg.sources).Nodup ∧ ∀ a ∈ paths t.cfg.sources,
    ∀ b ∈ paths t.cfg.sources, objPath t.made.fixed a = objPath t.made.fixed b → a = b
  /-- Generators do not write into the directories of targets. -/
  apart : ∀ g ∈ gs, ∀ q ∈ g.outputs, ∀ t ∈ ts, ¬ Inside t.made.buildDir q
  /-- Whoever reads what another builder makes depends on it. -/
  targetReads : ∀ t ∈ ts, ∀ q ∈ given t.cfg ++ paths t.cfg.libs, MayRead ts gs deps t.id q
  genReads : ∀ g ∈ gs, ∀ q ∈ g.inputs, MayRead ts gs deps g.name q

/-- The commands of a file generator were last run to the end, with the present versions of its
inputs. -/
def Generated (σ : Generator.Sys) (inputs outputs commands : List Str) : Prop :=
  ∃ k, σ.last b!"Generate" = some k ∧ k.ok = true ∧ k.inputs = Generator.versions σ.files inputs ∧
    k.outputs = outputs ∧ ∀ sys, Generator.fileCb sys k.blob = some (Generator.runCommands sys 0 commands)

end Verif.Reg
