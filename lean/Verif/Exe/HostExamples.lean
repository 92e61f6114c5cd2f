import Verif.Exe.Host
import Verif.Reg.ProjectExamples

/-! # Examples of the check of the toolchain (C87) -/

namespace Verif.Exe
open Verif Verif.Env Verif.Schema Verif.Target Verif.Toolchain Verif.Path

def exHostMade (p : Project) : Made × TargetSchema :=
  (hostTarget (fun _ => TargetSchema.empty) p (fun _ => none) exGcc).getD
    (Reg.exNoMade, .empty)

theorem exHost_made {p : Project}
    (h : (hostTarget (fun _ => TargetSchema.empty) p (fun _ => none) exGcc).isSome = true) :
    hostTarget (fun _ => TargetSchema.empty) p (fun _ => none) exGcc = some (exHostMade p) := by
  obtain ⟨x, hx⟩ := Option.isSome_iff_exists.1 h
  rw [exHostMade, hx, Option.getD_some]

/-- The tasks of the build of one program from one source. -/
def exHostTasks : List Event :=
  [.objTask, .exec 0 true none, .add 0, .linkTask, .linkExec true none, .finish true]

/-- `buildexe` runs, and is then started again and writes the file again. -/
def exHostBefore (p : Project) : Sys :=
  let x := exHostMade p
  steps x.1.fixed Sys.init
    ([.edit (hostFile p) 1, .start x.2 [hostFile p]] ++ exHostTasks ++ [.edit (hostFile p) 2])

def exHostAfter (p : Project) : Sys :=
  let x := exHostMade p
  steps x.1.fixed (step x.1.fixed (exHostBefore p) (.start x.2 [hostFile p])) exHostTasks

theorem exHost_run (p : Project)
    (h : (exHostBefore p).run = none ∧
      (step (exHostMade p).1.fixed (exHostBefore p) (.start (exHostMade p).2 [hostFile p])).run.isSome) :
    QuietRun (exHostMade p).1.fixed (exHostBefore p) (exHostMade p).2 [hostFile p] exHostTasks
      (exHostAfter p) where
  idle := h.1
  started := h.2
  quiet := by decide
  result := rfl

/-- A shell on which every program is found and ends with status 0. -/
def exShellOk : Shell := fun _ _ => ⟨[], [], true⟩

/-- The second run compiles and links again, although the file has the same text. -/
example : commands (exHostAfter exProject).log =
    [.obj b!"/r/out/verify_host_toolchain/verify_host_toolchain.cpp" true, .link true] := by
  refine (C87_tried (p := exProject) (sh := exShellOk) (by decide) (exHost_made (by decide +kernel)) ?_
    (exHost_run exProject (by decide +kernel)) (by decide +kernel)).1
  intro s hs
  have hv : (loadTargetFile (exHostBefore exProject).stateFile).map
      (fun s => (s.sources.find? (fun i =>
        i.path = b!"/r/out/verify_host_toolchain/verify_host_toolchain.cpp")).map (·.hash)) =
      some (some b!"1") := by decide +kernel
  have hf : version (exHostBefore exProject).files
      b!"/r/out/verify_host_toolchain/verify_host_toolchain.cpp" = some b!"2" := by decide +kernel
  have e : exProject.buildDir ++ b!"/verify_host_toolchain/verify_host_toolchain.cpp" =
    b!"/r/out/verify_host_toolchain/verify_host_toolchain.cpp" := by decide
  rw [e]
  rw [hs] at hv
  rintro ⟨i, hi, h2⟩
  rw [hf] at h2
  simp only [Option.map_some, hi, Option.some.injEq] at hv h2
  rw [← h2] at hv
  exact absurd hv (by decide)

example : hostPasses exShellOk (exHostMade exProject).1 (exHostAfter exProject) = true :=
  C87_runs_partial (d := ⟨(exHostMade exProject).2, true, true⟩) (by decide +kernel) rfl
    (by decide +kernel) (by decide +kernel) (by decide +kernel) fun _ _ => rfl

/-- A project whose directory has a space in its name. -/
def exSpaced : Project := ⟨true, b!"/my project", b!"/my project/out"⟩

/-- A shell with one program, the one that was built. -/
def exShellOne : Shell := fun c _ => ⟨[], [], (words c).head? = some (outputPath (exHostMade exSpaced).1.fixed)⟩

/-- The program is built and can be run, but the check fails. -/
example : ((exHostAfter exSpaced).done.map (·.ok), commands (exHostAfter exSpaced).log,
      (exShellOne (b!"\"" ++ outputPath (exHostMade exSpaced).1.fixed ++ b!"\"") none).ok) =
      (some true, [.obj b!"/my project/out/verify_host_toolchain/verify_host_toolchain.cpp" true,
        .link true], true) ∧
    hostPasses exShellOne (exHostMade exSpaced).1 (exHostAfter exSpaced) = false :=
  ⟨by decide +kernel, C87_space_false (program := (· = outputPath (exHostMade exSpaced).1.fixed))
    (by decide +kernel) (by decide +kernel)
    (fun c d h => ⟨_, by simpa [exShellOne] using h, rfl⟩) fun _ h => h⟩

example : hostPasses exShellOne (exHostMade exSpaced).1 (exHostAfter exSpaced) = true ↔
    c!" " ∉ outputPath (exHostMade exSpaced).1.fixed :=
  C87_exact (d := ⟨(exHostMade exSpaced).2, true, true⟩) (by decide +kernel) rfl (by decide +kernel)
    (by decide +kernel) fun c dir => by simp [exShellOne]

/-- A toolchain that is neither for gcc, MinGW nor MSVC is refused. -/
example : hostTarget (fun _ => TargetSchema.empty) exProject (fun _ => none)
    { Target.exGcc with id := .clang } = none := by decide +kernel

end Verif.Exe
