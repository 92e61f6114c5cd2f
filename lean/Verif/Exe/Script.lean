import Verif.Exe.Props
import Verif.Boot.Package

/-!
# `buildexe` in script mode, with the library it builds

In script mode `buildexe` builds `libtpl` and `libbuildcc` from the sources in `BUILDCC_HOME`, and
then the program of the user, which is linked with both.
-/

namespace Verif.Exe
open Verif Verif.Schema Verif.Target Verif.Toolchain Verif.Path
open Verif.Reg (Absolute ScriptTarget Placed Reaches)

/-! ## Model -/

/-- The targets of `buildexe` in script mode. -/
structure Script where
  pkg : Boot.Package
  made : Made
  cfg : TargetSchema
deriving DecidableEq

/-- Where `libtpl` and `libbuildcc` are built (`build_env_setup.cpp:77-82`). -/
def homeBuild (home : Home) : Str := Path.append home.base b!"_build_exe"

/-- `BuildEnvSetup::ConstructUserTargetWithBuildcc` (`build_env_setup.cpp:66-89`, `141-206`): the
targets and their inputs; `none` is fatal.  Directories are listed after the header is written; the
package lists none of those in which it is. -/
def scriptSetup (junk : Nat → TargetSchema) (p : Project) (home : Home) (list : Str → Option (List Str))
    (tc : Toolchain) (a : ExeArgs) : Option Script := do
  let pkg ← Boot.buildBuildCC junk p ⟨home.base, homeBuild home⟩ list tc
  let (made, cfg) ← setup junk p list tc a ⟨outputPath pkg.buildcc.made.fixed, pkg.buildcc.cfg⟩
  return ⟨pkg, made, cfg⟩

/-- What is registered in script mode (`buildexe.cpp:48`, `60`, `build_env_setup.cpp:82`, `208-215`),
with the state `ArgToolchainState(true)`. -/
def scriptCalls (clean : Bool) (tpl buildcc user : Str) : List Reg.Call :=
  [.callFunc clean 0] ++ Boot.packageCalls 1 ⟨true, false⟩ tpl buildcc ++
    [.build ⟨true, false⟩ user, .dep ⟨true, false⟩ user buildcc]

/-! ## Specification -/

/-- The sources of the program: those of the command line and those of its libraries. -/
def programSources (root : Str) (tc : Toolchain) (a : ExeArgs) : List Str :=
  (a.inputs.sources.map (Path.append root) ++
    a.libFiles.filter fun f => decide (IsSource tc.config f)).map toPathString

/-- The headers of its libraries. -/
def programHeaders (tc : Toolchain) (a : ExeArgs) : List Str :=
  (a.libFiles.filter fun f => decide (IsHeader tc.config f)).map toPathString

/-- What `buildexe` needs of the place where it runs. -/
structure Workspace (p : Project) (home : Home) (list : Str → Option (List Str)) (tc : Toolchain)
    (a : ExeArgs) : Prop where
  tree : Boot.Tree home.base list tc
  build : Absolute p.buildDir
  name : PlainName a.name ∧ a.name ≠ b!"buildexe_lib_dirs.h"
  obj : tc.config.objExt ≠ b!".h"
  /-- The build directory of the project has no file of the home. -/
  apart : ∀ d ∈ [b!"buildcc", b!"third_party", b!"_build_exe"], ∀ t,
    ¬ Inside p.buildDir (home.base ++ b!"/" ++ d ++ b!"/" ++ t)
  /-- No file of the command line is in a build directory. -/
  files : ∀ f ∈ programSources (Path.append p.rootDir a.relativeToRoot) tc a ++ programHeaders tc a,
    ¬ Inside p.buildDir f ∧ ¬ Inside (homeBuild home) f
  /-- Sources are given once, and no two have one object file. -/
  once : (programSources (Path.append p.rootDir a.relativeToRoot) tc a).Nodup
  objects : ∀ x ∈ programSources (Path.append p.rootDir a.relativeToRoot) tc a,
    ∀ y ∈ programSources (Path.append p.rootDir a.relativeToRoot) tc a,
    objectPath (Path.append p.rootDir a.relativeToRoot) (targetBuildDir p.buildDir tc.name a.name)
        tc.config.objExt x =
      objectPath (Path.append p.rootDir a.relativeToRoot) (targetBuildDir p.buildDir tc.name a.name)
        tc.config.objExt y → x = y
  /-- Nobody puts other headers next to the generated one. -/
  generated : ∀ names, list (targetBuildDir p.buildDir tc.name a.name) = some names → ∀ f ∈ names,
    IsHeader tc.config (Path.append (targetBuildDir p.buildDir tc.name a.name) f) →
      f = b!"buildexe_lib_dirs.h"

/-- The targets with the orders in which their objects are linked. -/
def Script.targets (s : Script) (o1 o2 o3 : List Str) : List ScriptTarget :=
  Boot.pkgTargets s.pkg o1 o2 ++ [⟨s.made, s.cfg, o3⟩]

/-! ## Lemmas -/

theorem scriptSetup_some {junk : Nat → TargetSchema} {p : Project} {home : Home}
    {list : Str → Option (List Str)} {tc : Toolchain} {a : ExeArgs} {s : Script}
    (h : scriptSetup junk p home list tc a = some s) :
    Boot.buildBuildCC junk p ⟨home.base, homeBuild home⟩ list tc = some s.pkg ∧
      setup junk p list tc a ⟨outputPath s.pkg.buildcc.made.fixed, s.pkg.buildcc.cfg⟩ =
        some (s.made, s.cfg) := by
  simp only [scriptSetup, Option.bind_eq_bind, Option.bind_eq_some_iff, Option.pure_def,
    Option.some.injEq] at h
  obtain ⟨pkg, hp, ⟨m, u⟩, hs, rfl⟩ := h
  exact ⟨hp, hs⟩

/-- The files of the program. -/
theorem program_inputs {junk : Nat → TargetSchema} {p : Project} {home : Home}
    {list : Str → Option (List Str)} {tc : Toolchain} {a : ExeArgs} {s : Script}
    (h : scriptSetup junk p home list tc a = some s) (mode : a.mode = .script) :
    paths s.cfg.sources = programSources (Path.append p.rootDir a.relativeToRoot) tc a ∧
    (∃ names, list (targetBuildDir p.buildDir tc.name a.name) = some names ∧
      paths s.cfg.headers = paths s.pkg.buildcc.cfg.headers ++
        (((names.map (Path.append (targetBuildDir p.buildDir tc.name a.name))).filter fun f =>
          decide (IsHeader tc.config f)).map toPathString) ++ programHeaders tc a) ∧
    paths s.cfg.libs = [toPathString (outputPath s.pkg.buildcc.made.fixed),
      toPathString (outputPath s.pkg.tpl.made.fixed)] ∧
    paths s.cfg.pchs = [] ∧ paths s.cfg.compileDeps = [] ∧ paths s.cfg.linkDeps = [] := by
  obtain ⟨hp, hs⟩ := scriptSetup_some h
  obtain ⟨-, -, -, hr, hb, -, hc⟩ := C78_target hs
  obtain ⟨names, hl, hc⟩ := hc mode
  have hm := (setup_some hs).1
  obtain ⟨-, ⟨-, -, bl⟩, -⟩ := Boot.package_inputs hp
  have tp := fun c => Boot.texts_paths c
  have nk : ∀ o : SyncOption, o ∈ [SyncOption.sources, .headers, .pchs, .libs, .compileDeps,
      .linkDeps] → ∀ k : FlagKind, o ≠ k.option := by
    intro o ho k
    cases k <;> simp only [FlagKind.option] <;> rintro rfl <;> simp at ho
  have e : ∀ o ∈ [SyncOption.sources, .headers, .pchs, .libs, .compileDeps, .linkDeps],
      Boot.texts (entries o s.cfg) = Boot.texts (given s.made.rootDir a.inputs o) ++
        Boot.texts (fromBuildcc ⟨outputPath s.pkg.buildcc.made.fixed, s.pkg.buildcc.cfg⟩ tc.id o) ++
        Boot.texts (fromBuildDir tc.config s.made.buildDir names o) ++
        Boot.texts (fromLibs tc.config a.libFiles o) := by
    intro o ho
    rw [hc o, Boot.made_none hm o (nk o ho)]
    simp only [List.nil_append, Boot.texts_append]
  rw [hb] at hl
  refine ⟨?_, ⟨names, hl, ?_⟩, ?_, ?_, ?_, ?_⟩
  · rw [← (tp _).1, e _ (by simp), hr]
    simp [given, fromBuildcc, fromBuildDir, fromLibs, Boot.texts, programSources, stored,
      Function.comp_def, toPathString]
  · rw [← (tp _).2.1, e _ (by simp), ← (tp s.pkg.buildcc.cfg).2.1, ← hb]
    simp only [given, fromBuildcc, fromBuildDir, fromLibs, Boot.texts_stored, programHeaders]
    simp [Boot.texts]
  · rw [← (tp _).2.2.2.1, e _ (by simp)]
    have hl : Boot.texts (entries .libs s.pkg.buildcc.cfg) =
        [toPathString (outputPath s.pkg.tpl.made.fixed)] := by
      rw [(tp _).2.2.2.1]; exact bl
    simp only [given, fromBuildcc, fromBuildDir, fromLibs, stored]
    simpa [Boot.texts] using hl
  · rw [← (tp _).2.2.1, e _ (by simp)]; rfl
  · rw [← (tp _).2.2.2.2.1, e _ (by simp)]; rfl
  · rw [← (tp _).2.2.2.2.2.1, e _ (by simp)]; rfl

end Verif.Exe
