import Verif.Exe.ProgramProps
import Verif.Exe.ScriptExamples

/-! # Examples of `buildexe` from the command line (C90) -/

namespace Verif.Exe
open Verif Verif.Env Verif.Schema Verif.Target Verif.Toolchain

/-- A machine with gcc in `/bin` and a home in `/h` with one library, in the directory `/`. -/
def exMachine : Machine where
  host := { exHost exFiles with
    getenv := fun v => if v = b!"PATH" then some b!"/none:/bin"
      else if v = b!"BUILDCC_HOME" then some b!"/h" else none }
  present _ := true
  accepts _ := true
  entries d := if d = b!"/h/libs" then some [(b!"json", true), (b!"README", false)] else none
  list := exHomeList
  cwd := b!"/"
  shell c _ :=
    if c = b!"/bin/g++ -dumpversion" then ⟨[b!"13\n"], [], true⟩
    else if c = b!"/bin/g++ -dumpmachine" then ⟨[b!"x86_64-linux-gnu\n"], [], true⟩
    else if c = b!"/r/out/verify_host_toolchain/host/verify/verify" then ⟨[], [], true⟩
    else ⟨[], [], false⟩

theorem exMachine_wf : exMachine.host.WF := exHost_wf (files := exFiles) (by decide)

theorem exMachine_entries : ∀ d l, exMachine.entries d = some l → ∀ e ∈ l, EntryName e.1 := by
  intro d l h
  simp only [exMachine] at h
  split at h
  · cases h; decide
  · cases h

/-- What is given for the toolchain. -/
def exGiven (linker : Option Str) (id : Str) : Cli.Given where
  value o :=
    if o = b!"--id" then some id
    else if o = b!"--name" then some b!"host"
    else if o = b!"--asm_compiler" then some b!"as"
    else if o = b!"--c_compiler" then some b!"gcc"
    else if o = b!"--cpp_compiler" then some b!"g++"
    else if o = b!"--archiver" then some b!"ar"
    else if o = b!"--linker" then linker
    else none
  flag _ := none

/-- `buildexe --clean --root_dir r --build_dir r/out --mode <mode> --name hello … script --configs a.toml` -/
def exLine (mode : Str) (g : Cli.Given) : ExeLine where
  root := some b!"r"
  build := some b!"r/out"
  clean := true
  toolchain := g
  value o :=
    if o = b!"--name" then some b!"hello"
    else if o = b!"--type" then some b!"Executable"
    else if o = b!"--relative_to_root" then some b!"sub"
    else if o = b!"--mode" then some mode
    else none
  values o := if o = b!"--srcs" then [b!"main.cpp"] else []
  configs := [b!"a.toml"]
  libs l := if l = b!"json" then [b!"json.cpp", b!"json.h"] else []

/-- The check of the toolchain is built. -/
def exHostRun (_ : Made) (u : TargetSchema) : Sys := { Sys.init with done := some ⟨u, true, true⟩ }

def exJunk : Nat → TargetSchema := fun _ => TargetSchema.empty

theorem exProgram_script :
    exeProgram exJunk exMachine exHostRun true (exLine b!"Script" (exGiven (some b!"ld") b!"GCC")) =
      ([.cleaned b!"/r/out",
        .header b!"/r/out/host/hello/buildexe_lib_dirs.h" (libDirsText [⟨b!"json", b!"/h/libs/json"⟩]),
        .built b!"/r/out/host/hello/hello", .ran b!"/r/out/host/hello/hello --config a.toml",
        .compileCommands], 0) := by
  decide +kernel

/-- The conditions of `C90_program` are met in script mode. -/
example : ∃ home r tc, HomeAt exMachine home ∧
    Reads exMachine (homeOf home) (exLine b!"Script" (exGiven (some b!"ld") b!"GCC")) r ∧
    Found exMachine r.toolchain tc ∧ r.args.mode = .script ∧
    HostChecked exJunk exMachine r.project exHostRun tc := by
  obtain ⟨-, home, r, tc, m, u, h1, h2, h3, h4⟩ :=
    (C90_program exMachine_wf exMachine_entries rfl).1 exProgram_script
  rcases h4 with ⟨-, -, h5⟩ | ⟨h5, h6, -⟩
  · have := congrArg List.length h5
    revert this
    split <;> simp
  · exact ⟨home, r, tc, h1, h2, h3, h5, h6⟩

/-- In immediate mode the target is built and not run. -/
example : exeProgram exJunk exMachine exHostRun true
    (exLine b!"0" (exGiven (some b!"ld") b!"gcc")) =
    ([.cleaned b!"/r/out", .built b!"/r/out/host/hello/hello", .compileCommands], 0) := by
  decide +kernel

/-- When the build fails nothing is run. -/
example : exeProgram exJunk exMachine exHostRun false
    (exLine b!"script" (exGiven (some b!"ld") b!"gcc")) =
    ([.cleaned b!"/r/out", .header b!"/r/out/host/hello/buildexe_lib_dirs.h"
      (libDirsText [⟨b!"json", b!"/h/libs/json"⟩])], 1) := by
  decide +kernel

/-- Without `--linker`, although `ld` is there. -/
example : (exeProgram exJunk exMachine exHostRun true (exLine b!"immediate" (exGiven none b!"gcc"))).2 ≠ 0 :=
  C90_executables exMachine_wf exMachine_entries rfl ⟨b!"--linker", by simp, by decide⟩

/-- With Clang. -/
example : (exeProgram exJunk exMachine exHostRun true
    (exLine b!"immediate" (exGiven (some b!"ld") b!"clang"))).2 ≠ 0 :=
  C90_kinds exMachine_wf exMachine_entries rfl (text := b!"clang") (id := .clang) (by decide)
    (.clang _ (by decide)) (.inl rfl)

/-- Without `--linker` nothing is built, but the build directory is removed. -/
example : ∃ home r, HomeAt exMachine home ∧
    Reads exMachine (homeOf home) (exLine b!"immediate" (exGiven none b!"gcc")) r ∧
    b!"/r/out" = r.project.buildDir :=
  ((C90_cleaned (junk := exJunk) (hostRun := exHostRun) (buildOk := true) exMachine_entries rfl).1
    (by decide +kernel)).2

/-- A command line that the parser refuses with status 106. -/
example : (∃ home l, HomeAt exMachine home ∧ exMachine.entries (Path.append home b!"libs") = some l) ∧
    exeProgram exJunk exMachine exHostRun true
      { exLine b!"0" (exGiven (some b!"ld") b!"gcc") with ends := some 106 } = ([], 106) := by
  refine ⟨?_, by decide +kernel⟩
  obtain ⟨-, home, r, tc, m, u, h1, h2, h3, h4⟩ :=
    (C90_program exMachine_wf exMachine_entries rfl).1 exProgram_script
  have := h1.set
  cases he : exMachine.entries (Path.append home b!"libs") with
  | some l => exact ⟨home, l, h1, he⟩
  | none =>
    have e : home = b!"/h" := by
      have h5 : exMachine.host.getenv b!"BUILDCC_HOME" = some b!"/h" := by decide +kernel
      rw [h5] at this
      exact (Option.some.inj this).symm
    rw [e] at he
    exact absurd he (by decide +kernel)

end Verif.Exe
