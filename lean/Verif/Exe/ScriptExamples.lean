import Verif.Exe.ScriptProps
import Verif.Reg.ProjectExamples

/-! # An example of `buildexe` in script mode (C86) -/

namespace Verif.Exe
open Verif Verif.Schema Verif.Target Verif.Toolchain Verif.Path
open Verif.Reg (ScriptTarget notInside)

def exHome : Home := ⟨b!"/h", b!"/h/buildcc", b!"/h/libs", b!"/h/extensions"⟩

/-- `buildexe --mode script --name hello --relative_to_root sub --srcs main.cpp --libs.json …` -/
def exScriptArgs : ExeArgs where
  name := b!"hello"
  type := .executable
  relativeToRoot := b!"sub"
  inputs := { sources := [b!"main.cpp"] }
  mode := .script
  libs := [⟨b!"json", b!"/h/libs/json"⟩]
  libFiles := [b!"/h/libs/json/json.cpp", b!"/h/libs/json/json.h"]

/-- The library has one source and one header. -/
def exHomeList (d : Str) : Option (List Str) :=
  if d = b!"/h/buildcc/buildcc/lib/env/src" then some [b!"command.cpp", b!"CMakeLists.txt"]
  else if d = b!"/h/buildcc/buildcc/lib/env/include/env" then some [b!"command.h"]
  else if d = b!"/r/out/gcc/hello" then some [b!"hello", b!"buildexe_lib_dirs.h"]
  else some []

theorem exWorkspace : Workspace exProject exHome exHomeList exGcc exScriptArgs where
  tree := ⟨by decide, by decide,
    ⟨⟨b!"o", by decide +kernel⟩, ⟨b!"h", by decide +kernel⟩, ⟨b!"gch", by decide +kernel⟩⟩, by
      intro d l h
      simp only [exHomeList] at h
      split at h
      · cases h; decide
      · split at h
        · cases h; decide
        · split at h
          · cases h; decide
          · cases h; simp⟩
  build := by decide
  name := by decide
  obj := by decide +kernel
  apart := by
    intro d hd t
    refine notInside (by decide) ?_
    revert hd d
    simp only [List.mem_cons, List.not_mem_nil, or_false, forall_eq_or_imp, forall_eq]
    refine ⟨?_, ?_, ?_⟩ <;> simp [exProject, exHome, List.isPrefixOf, slash]
  files := by
    have e : programSources (Path.append exProject.rootDir exScriptArgs.relativeToRoot) exGcc exScriptArgs ++
      programHeaders exGcc exScriptArgs = [b!"/r/sub/main.cpp", b!"/h/libs/json/json.cpp",
        b!"/h/libs/json/json.h"] := by decide +kernel
    rw [e]
    have eh : homeBuild exHome = b!"/h/buildcc/_build_exe" := by decide
    rw [eh]
    simp only [List.mem_cons, List.not_mem_nil, or_false, forall_eq_or_imp, forall_eq]
    refine ⟨⟨?_, ?_⟩, ⟨?_, ?_⟩, ?_, ?_⟩ <;> exact notInside (by decide) (by decide)
  once := by decide +kernel
  objects := by decide +kernel
  generated := by
    intro names h
    have e : exHomeList (targetBuildDir exProject.buildDir exGcc.name exScriptArgs.name) =
      some [b!"hello", b!"buildexe_lib_dirs.h"] := by decide +kernel
    rw [e] at h
    cases h
    intro f hf
    simp only [List.mem_cons, List.not_mem_nil, or_false] at hf
    rcases hf with rfl | rfl
    · intro hh
      exact absurd hh (by decide +kernel)
    · exact fun _ => rfl

def exScript : Script :=
  (scriptSetup (fun _ => TargetSchema.empty) exProject exHome exHomeList exGcc exScriptArgs).getD
    ⟨⟨⟨Reg.exNoMade, .empty⟩, ⟨Reg.exNoMade, .empty⟩⟩, Reg.exNoMade, .empty⟩

theorem exScript_setup : scriptSetup (fun _ => TargetSchema.empty) exProject exHome exHomeList exGcc
    exScriptArgs = some exScript := by
  have : (scriptSetup (fun _ => TargetSchema.empty) exProject exHome exHomeList exGcc
    exScriptArgs).isSome = true := by decide +kernel
  obtain ⟨x, hx⟩ := Option.isSome_iff_exists.1 this
  rw [exScript, hx, Option.getD_some]

example : (paths exScript.cfg.sources, paths exScript.cfg.headers, paths exScript.cfg.libs) =
    ([b!"/r/sub/main.cpp", b!"/h/libs/json/json.cpp"],
      [b!"/h/buildcc/buildcc/lib/env/include/env/command.h",
        b!"/h/buildcc/third_party/tiny-process-library/process.hpp",
        b!"/r/out/gcc/hello/buildexe_lib_dirs.h", b!"/h/libs/json/json.h"],
      [b!"/h/buildcc/_build_exe/gcc/libbuildcc/libbuildcc.a",
        b!"/h/buildcc/_build_exe/gcc/libtpl/libtpl.a"]) := by
  decide +kernel

def exScriptBuilt : List ScriptTarget := exScript.targets
  [b!"/h/buildcc/third_party/tiny-process-library/process.cpp",
    b!"/h/buildcc/third_party/tiny-process-library/process_unix.cpp"]
  [b!"/h/buildcc/buildcc/lib/env/src/command.cpp"] [b!"/r/sub/main.cpp", b!"/h/libs/json/json.cpp"]

def exScriptReg : Reg.Script :=
  ⟨⟨[b!"[gcc] libtpl", b!"[gcc] libbuildcc", b!"[gcc] hello"],
    [(b!"[gcc] libtpl", b!"[gcc] libbuildcc"), (b!"[gcc] libbuildcc", b!"[gcc] hello")], []⟩,
    [1, 2, 3, 4, 5, 6, 7]⟩

/-- The tasks of a target with two sources. -/
def exTwoTasks (j out : Str) (t : Nat) : List Reg.WEvent :=
  [.begin j, .task j (.t .objTask) [],
    .task j (.t (.exec 0 true none)) [], .task j (.t (.add 0)) [],
    .task j (.t (.exec 0 true none)) [], .task j (.t (.add 0)) [],
    .task j (.t .linkTask) [], .task j (.t (.linkExec true none)) [(out, some t)],
    .task j (.t (.finish true)) []]

/-- Two runs; the header is written before each, and before the second one the library is changed. -/
def exScriptHistory : List Reg.WEvent :=
  [.edit b!"/h/buildcc/third_party/tiny-process-library/process.cpp" 1,
    .edit b!"/h/buildcc/third_party/tiny-process-library/process_unix.cpp" 1,
    .edit b!"/h/buildcc/third_party/tiny-process-library/process.hpp" 1,
    .edit b!"/h/buildcc/buildcc/lib/env/src/command.cpp" 1,
    .edit b!"/h/buildcc/buildcc/lib/env/include/env/command.h" 1,
    .edit b!"/r/sub/main.cpp" 1, .edit b!"/h/libs/json/json.cpp" 1, .edit b!"/h/libs/json/json.h" 1,
    .edit b!"/r/out/gcc/hello/buildexe_lib_dirs.h" 2,
    .launch exScriptReg.graph (Reg.setupOf exScriptBuilt)] ++
  exTwoTasks b!"[gcc] libtpl" b!"/h/buildcc/_build_exe/gcc/libtpl/libtpl.a" 2 ++
  Reg.exTargetTasks b!"[gcc] libbuildcc" b!"/h/buildcc/_build_exe/gcc/libbuildcc/libbuildcc.a" 3 ++
  exTwoTasks b!"[gcc] hello" b!"/r/out/gcc/hello/hello" 4 ++
  [.join, .edit b!"/h/buildcc/buildcc/lib/env/src/command.cpp" 5,
    .edit b!"/r/out/gcc/hello/buildexe_lib_dirs.h" 5,
    .launch exScriptReg.graph (Reg.setupOf exScriptBuilt),
    .begin b!"[gcc] libtpl", .task b!"[gcc] libtpl" (.t .objTask) [],
    .task b!"[gcc] libtpl" (.t .linkTask) [], .task b!"[gcc] libtpl" (.t (.finish true)) []] ++
  Reg.exTargetTasks b!"[gcc] libbuildcc" b!"/h/buildcc/_build_exe/gcc/libbuildcc/libbuildcc.a" 6 ++
  exTwoTasks b!"[gcc] hello" b!"/r/out/gcc/hello/hello" 7

theorem exScriptHistory_script : Reg.AllOfScript exScriptReg.graph (Reg.setupOf exScriptBuilt)
    (Reg.World.init (Reg.kindsOf exScriptBuilt)) exScriptHistory := by
  refine Reg.allOfScript_of _ ?_ (by decide +kernel)
  intro g' s' hm
  simp only [exScriptHistory, exTwoTasks, Reg.exTargetTasks, List.mem_append,
    List.mem_cons, List.not_mem_nil, reduceCtorEq, false_or, or_false,
    Reg.WEvent.launch.injEq] at hm
  rcases hm with ⟨rfl, rfl⟩ | ⟨rfl, rfl⟩ <;> exact ⟨rfl, fun j _ => Reg.SameSetup.refl _⟩

/-- The second run succeeds, and the program is linked with the new library. -/
example : Reg.LinkedWith
    (((Reg.World.init (Reg.kindsOf exScriptBuilt)).steps exScriptHistory).step .join)
      (targetId b!"gcc" exScript.pkg.buildcc.made.name) (targetId b!"gcc" b!"hello")
      (outputPath exScript.pkg.buildcc.made.fixed) := by
  refine (C86_script exScript_setup rfl exWorkspace _ _ _ (n := 0) (clean := false)
    (r := exScriptReg) (by decide +kernel) rfl exScriptHistory_script
    (by decide +kernel) (by decide +kernel) (by decide +kernel)).2 exScript.pkg.buildcc (by simp) ?_
  have hout : outputPath exScript.pkg.buildcc.made.fixed =
      b!"/h/buildcc/_build_exe/gcc/libbuildcc/libbuildcc.a" := by decide +kernel
  rw [hout]
  intro e he
  refine ⟨fun t h => ?_, fun h => ?_⟩
  · subst h
    simp only [exScriptHistory, exTwoTasks, Reg.exTargetTasks, List.mem_append, List.mem_cons,
      List.not_mem_nil, reduceCtorEq, false_or, or_false, Reg.WEvent.edit.injEq] at he
    rcases he with (hh | hh | hh | hh | hh | hh | hh | hh | hh) | hh | hh <;>
      exact absurd hh.1 (by decide +kernel)
  · subst h
    simp [exScriptHistory, exTwoTasks, Reg.exTargetTasks] at he

/-- The stamps of the libraries in the program: `libtpl` is that of the first run. -/
example : ((((Reg.World.init (Reg.kindsOf exScriptBuilt)).steps exScriptHistory).step .join).comps
    b!"[gcc] hello").bin.map (·.libs) =
      some [(b!"/h/buildcc/_build_exe/gcc/libbuildcc/libbuildcc.a", some b!"6"),
        (b!"/h/buildcc/_build_exe/gcc/libtpl/libtpl.a", some b!"2")] := by decide +kernel

/-- A program with the name of the library is refused. -/
example : Reg.calls 3 ⟨Reg.Graph.empty, []⟩ (scriptCalls true b!"[gcc] libtpl" b!"[gcc] libbuildcc"
    b!"[gcc] libbuildcc") = .fatal := by decide +kernel

def exScriptWorld : World where
  list := exHomeList
  toolchain := some exGcc
  hostOk := true
  buildOk := true
  shell _ _ := ⟨[], [], true⟩

/-- The program is run. -/
example : ExeDid.ran b!"/r/out/gcc/hello/hello " ∈ (exeMain (fun _ => TargetSchema.empty) exScriptWorld
    exProject false exScriptArgs
      ⟨outputPath exScript.pkg.buildcc.made.fixed, exScript.pkg.buildcc.cfg⟩).1 := by decide +kernel

end Verif.Exe
