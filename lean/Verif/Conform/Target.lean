import Verif.Target.Examples

/-! # The unit tests of the target, run on the model

Each example transcribes a unit test of the repository: the sessions of the test are
run on the model and the numbers of executed commands, the task state and `IsBuilt`
are compared with what the test expects.  They are no proofs of a property.  They
check that the model behaves like the code does where the authors of the code wrote
down how it behaves.  The mocked command interface of the tests returns the outcomes
listed in `oks` in this order (`CommandExpect_Execute`), `true` when none is listed.
`TargetRunner` runs the tasks of the target with one thread (`mock/expect_target.h`). -/

namespace Verif.Conform
open Verif Verif.Command Verif.Schema Verif.Json Verif.Target

/-- One block of a test: what happens before it, the configured target, outcomes of
the commands, the task state at the start, and whether the state file can be opened. -/
structure Session where
  before : List Event := []
  cfg : TargetSchema
  oks : List Bool := []
  healthy : Bool := true
  canOpen : Bool := true

/-- What a test sees of a run: number of commands, task state, `IsBuilt`. -/
structure Seen where
  commands : Nat
  ok : Bool
  built : Bool
deriving DecidableEq, Repr

/-- Number of commands of the run. -/
def commandsOf (σ : Sys) : Nat :=
  (σ.log.filter fun e => match e with
    | .pch _ | .obj _ _ | .link _ => true
    | _ => false).length

/-- Give the next outcome to a command if there is one to run. -/
def command (fx : Fixed) (s : Sys × List Bool) (e : Bool → Event) : Sys × List Bool :=
  let σ := step fx s.1 (e (s.2.headD true))
  if commandsOf s.1 < commandsOf σ then (σ, s.2.tail) else (σ, s.2)

/-- Compile the selected sources one after the other. -/
def compileAll (fx : Fixed) : Nat → Sys × List Bool → Sys × List Bool
  | 0, s => s
  | n + 1, s =>
    let s' := command fx s fun ok => .exec 0 ok none
    compileAll fx n (step fx s'.1 (.add 0), s'.2)

/-- A session with one thread (`TargetRunner`). -/
def runSession (fx : Fixed) (σ : Sys) (x : Session) : Sys :=
  let σ₁ := steps fx σ (x.before ++ [.start x.cfg (distinct (srcPaths x.cfg))])
  let σ₂ := if x.healthy then σ₁ else step fx σ₁ .otherFail
  let s₃ := command fx (step fx σ₂ .pchTask, x.oks) fun ok => .pchExec ok none
  let s₄ := compileAll fx x.cfg.sources.length (step fx s₃.1 .objTask, s₃.2)
  let s₅ := command fx (step fx s₄.1 .linkTask, s₄.2) fun ok => .linkExec ok none
  step fx s₅.1 (.finish x.canOpen)

def seen (σ : Sys) : Option Seen := σ.done.map fun d => ⟨commandsOf σ, d.ok, d.built⟩

/-- What the tests see of consecutive sessions. -/
def observe (fx : Fixed) : Sys → List Session → List (Option Seen)
  | _, [] => []
  | σ, x :: l =>
    let σ' := runSession fx σ x
    seen σ' :: observe fx σ' l

/-- The states after the sessions. -/
def after (fx : Fixed) (l : List Session) : Sys := l.foldl (runSession fx) Sys.init

/-- The executable of the tests, with the GCC toolchain object of the tests. -/
def fx : Fixed :=
  { name := b!"T.exe", rootDir := b!"/t/data", buildDir := b!"/b/gcc/T.exe", cfg := {},
    exe := ⟨b!"as", b!"gcc", b!"g++", b!"ar", b!"ld"⟩, tcfg := gccExe }

/-- Files without hashes. -/
def infos (l : List Str) : List PathInfo := l.map fun p => ⟨p, []⟩

/-- A target object with these sources. -/
def target (srcs : List Str) : TargetSchema :=
  { TargetSchema.empty with name := b!"T.exe", type := .executable, sources := infos srcs }

def mainC : Str := b!"/t/data/dummy_main.c"
def mainCpp : Str := b!"/t/data/dummy_main.cpp"
def newSource : Str := b!"/t/data/new_source.cpp"
def headerSource : Str := b!"/t/data/include_header.cpp"
def header : Str := b!"/t/data/include/include_header.h"
def emptyAsm : Str := b!"/t/data/asm/empty_asm.s"
def pch1 : Str := b!"/t/data/pch/pch_header_1.h"
def pch2 : Str := b!"/t/data/pch/pch_header_2.h"
def fooLib : Str := b!"/b/gcc/libfoo.a/libfoo.a"
def includeDir : Str := b!"/t/data/include"

/-- The files in `test/target/data`. -/
def data : List Event :=
  [mainC, mainCpp, newSource, headerSource, header, emptyAsm, pch1, pch2].map fun p => .edit p 1

/-- A finished run in SUCCESS that executed `n` commands and was built. -/
def built (n : Nat) : Option Seen := some ⟨n, true, true⟩

/-- A finished run in SUCCESS that did nothing. -/
def idle : Option Seen := some ⟨0, true, false⟩

/-- Number of sources in the stored state. -/
def storedSources (σ : Sys) : Option (List Str) :=
  (loadTargetFile σ.stateFile).map fun t => t.sources.map (·.path)

/-! ## `test/target/test_target_source.cpp` -/

/-- `Target_Build_SourceCompile` (84-117). -/
def sourceCompile : List Session := [{ before := data, cfg := target [mainCpp] }]

example : observe fx Sys.init sourceCompile = [built 2] := by decide +kernel
example : storedSources (after fx sourceCompile) = some [mainCpp] := by decide +kernel

/-- `Target_Build_SourceRecompile` (119-222): two sources; another C++ source in place
of the C source; an updated source. -/
def sourceRecompile : List Session :=
  [ { before := data, cfg := target [mainC, newSource] },
    { cfg := target [mainCpp, newSource] },
    { before := [.edit newSource 2], cfg := target [mainCpp, newSource] } ]

example : observe fx Sys.init sourceRecompile = [built 3, built 2, built 2] := by decide +kernel
example : (storedSources (after fx (sourceRecompile.take 1))).map (·.length) = some 2 := by
  decide +kernel
example : (storedSources (after fx (sourceRecompile.take 2))).map
    (fun l => (l.length, l.contains mainCpp, l.contains newSource)) = some (2, true, true) := by
  decide +kernel
example : (storedSources (after fx sourceRecompile)).map
    (fun l => (l.length, l.contains mainCpp, l.contains newSource)) = some (2, true, true) := by
  decide +kernel

/-! ## `test/target/test_target_failure_states.cpp` -/

/-- `StartTaskEnvFailure` (33-45) and `StartTaskEnvFailure_Rebuild` (137-175). -/
example : observe fx Sys.init
    [ { before := data, cfg := target [mainCpp], healthy := false }, { cfg := target [mainCpp] } ]
    = [some ⟨0, false, false⟩, built 2] := by decide +kernel

def withPch (srcs pchs : List Str) : TargetSchema := { target srcs with pchs := infos pchs }

/-- `CompilePchFailure` (47-60) and `CompilePchFailure_Rebuild` (177-218). -/
example : (observe fx Sys.init
    [ { before := data, cfg := withPch [mainCpp] [header], oks := [false] },
      { cfg := withPch [mainCpp] [header] } ]).map (Option.map fun s => (s.commands, s.ok))
    = [some (1, false), some (3, true)] := by decide +kernel

/-- `CompileObjectFailure` (62-77) and `CompileObjectFailure_Rebuild` (220-269): the
first of two compile commands fails, the second one still runs and is not repeated. -/
example : (observe fx Sys.init
    [ { before := data, cfg := target [mainCpp, mainC], oks := [false, true] },
      { cfg := target [mainCpp, mainC] } ]).map (Option.map fun s => (s.commands, s.ok))
    = [some (2, false), some (2, true)] := by decide +kernel

/-- `CompileObject_FileNotFoundFailure` (79-90). -/
example : (observe fx Sys.init [ { before := data, cfg := target [b!"/t/data/file_not_present.cpp"] } ])
    = [some ⟨0, false, false⟩] := by decide +kernel

/-- `LinkTargetFailure` (92-105) and `LinkTargetFailure_Rebuild` (271-306): only the
link command is repeated. -/
example : (observe fx Sys.init
    [ { before := data, cfg := target [mainCpp], oks := [true, false] },
      { cfg := target [mainCpp] } ]).map (Option.map fun s => (s.commands, s.ok))
    = [some (2, false), some (1, true)] := by decide +kernel

/-- `EndTaskStoreFailure` (107-123): the directory of the state file is gone. -/
example : (observe fx Sys.init [ { before := data, cfg := target [mainCpp], canOpen := false } ])
    = [some ⟨2, false, false⟩] := by decide +kernel

/-! ## `test/target/test_target_flags.cpp` -/

/-- `Target_AddPreprocessorFlag` (43-73), `Target_ChangedPreprocessorFlag` (75-125):
built with a flag, without, with another one. -/
example : observe fx Sys.init
    [ { before := data, cfg := { target [mainCpp] with preprocessorFlags := [b!"-DCOMPILE=1"] } },
      { cfg := target [mainCpp] },
      { cfg := { target [mainCpp] with preprocessorFlags := [b!"-DRANDOM=1"] } } ]
    = [built 2, built 2, built 2] := by decide +kernel

/-- `Target_ChangedCommonCompileFlag` (201-267). -/
example : observe fx Sys.init
    [ { before := data, cfg := { target [mainCpp] with commonCompileFlags := [b!"-O0", b!"-g"] } },
      { cfg := { target [mainCpp] with commonCompileFlags := [b!"-O0", b!"-g"] } },
      { cfg := { target [mainCpp] with commonCompileFlags := [b!"-O0"] } },
      { cfg := { target [mainCpp] with commonCompileFlags := [b!"-O0", b!"-g"] } } ]
    = [built 2, idle, built 2, built 2] := by decide +kernel

/-- The stored flags of `Target_AddCommonCompileFlag` (141-199). -/
example : (loadTargetFile (after fx
    [ { before := data, cfg := { target [mainCpp] with commonCompileFlags := [b!"-O0", b!"-g"] } },
      { cfg := { target [mainCpp] with commonCompileFlags := [b!"-O0"] } } ]).stateFile).map
    (·.commonCompileFlags) = some [b!"-O0"] := by decide +kernel

/-- `TargetTestAsmCompileFlagGroup, Target_ChangedCompileFlag` (316-383). -/
example : observe fx Sys.init
    [ { before := data, cfg := { target [emptyAsm] with asmCompileFlags := [b!"-O0", b!"-g"] } },
      { cfg := { target [emptyAsm] with asmCompileFlags := [b!"-O0", b!"-g"] } },
      { cfg := { target [emptyAsm] with asmCompileFlags := [b!"-O0"] } },
      { cfg := { target [emptyAsm] with asmCompileFlags := [b!"-O0", b!"-g"] } } ]
    = [built 2, idle, built 2, built 2] := by decide +kernel

/-- `TargetTestCCompileFlagsGroup, Target_ChangedCompileFlag` (431-481). -/
example : observe fx Sys.init
    [ { before := data, cfg := { target [mainC] with cCompileFlags := [b!"-std=c11"] } },
      { cfg := target [mainC] },
      { cfg := { target [mainC] with cCompileFlags := [b!"-std=c11"] } } ]
    = [built 2, built 2, built 2] := by decide +kernel

/-- `TargetTestCppCompileFlagsGroup, Target_AddCompileFlag` (497-554) and
`Target_ChangedCompileFlag` (556-606): the C flags of a C++ target count as well. -/
example : observe fx Sys.init
    [ { before := data, cfg := { target [mainCpp] with cppCompileFlags := [b!"-std=c++17"] } },
      { cfg := { target [mainCpp] with cppCompileFlags := [b!"-std=c++20"] } } ]
    = [built 2, built 2] := by decide +kernel

example : observe fx Sys.init
    [ { before := data, cfg := { target [mainCpp] with cCompileFlags := [b!"-std=c++17"] } },
      { cfg := target [mainCpp] },
      { cfg := { target [mainCpp] with cCompileFlags := [b!"-std=c++17"] } } ]
    = [built 2, built 2, built 2] := by decide +kernel

/-- `Target_ChangedLinkFlag` (654-702): only the link command runs again. -/
example : observe fx Sys.init
    [ { before := data, cfg := { target [mainCpp] with linkFlags := [b!"-lm"] } },
      { cfg := target [mainCpp] },
      { cfg := { target [mainCpp] with linkFlags := [b!"-lm"] } } ]
    = [built 2, built 1, built 1] := by decide +kernel

/-! ## `test/target/test_target_include_dir.cpp` -/

/-- `TargetBuildIncludeDir` (84-212): a repeated include directory is kept; an added
and a removed include directory recompile everything. -/
def includeDirs : List Session :=
  [ { before := data, cfg := { target [mainC, headerSource] with
        includeDirs := [includeDir, includeDir] } },
    { cfg := { target [mainC, headerSource] with includeDirs := [includeDir, b!"/t/data"] } },
    { cfg := { target [mainC, headerSource] with includeDirs := [includeDir] } } ]

example : observe fx Sys.init includeDirs = [built 3, built 3, built 3] := by decide +kernel
example : [1, 2, 3].map (fun n => (loadTargetFile (after fx (includeDirs.take n)).stateFile).map
    fun t => (t.sources.length, t.includeDirs.length)) = [some (2, 2), some (2, 2), some (2, 1)] := by
  decide +kernel

/-- `TargetBuildHeaderFile` (214-335): a header is added, updated and removed. -/
def headers : List Session :=
  [ { before := data, cfg := { target [mainC, headerSource] with includeDirs := [includeDir] } },
    { cfg := { target [mainC, headerSource] with
        includeDirs := [includeDir], headers := infos [header] } },
    { before := [.edit header 2], cfg := { target [mainC, headerSource] with
        includeDirs := [includeDir], headers := infos [header] } },
    { cfg := { target [mainC, headerSource] with includeDirs := [includeDir] } } ]

example : observe fx Sys.init headers = [built 3, built 3, built 3, built 3] := by decide +kernel
example : [1, 2, 3, 4].map (fun n => (loadTargetFile (after fx (headers.take n)).stateFile).map
    fun t => (t.sources.length, t.includeDirs.length, t.headers.length))
    = [some (2, 1, 0), some (2, 1, 1), some (2, 1, 1), some (2, 1, 0)] := by decide +kernel

/-! ## `test/target/test_target_external_lib.cpp` -/

/-- `TestAddExternalLibDep_RebuildChanged` (93-142): only the link command runs again. -/
example : observe fx Sys.init
    [ { before := data, cfg := { target [mainCpp] with libDirs := [b!"/b/gcc/T.exe"] } },
      { cfg := { target [mainCpp] with
          libDirs := [b!"/b/gcc/T.exe"], externalLibs := [b!"-lfoo"] } },
      { cfg := { target [mainCpp] with libDirs := [b!"/b/gcc/T.exe"] } } ]
    = [built 2, built 1, built 1] := by decide +kernel

/-! ## `test/target/test_target_lib_dep.cpp` -/

def lib (libs : List Str) : TargetSchema := { target [mainCpp] with libs := infos libs }

/-- `TargetDep_RebuildTest` (66-119), the executable: built, then nothing to do. -/
example : observe fx Sys.init
    [ { before := .edit fooLib 1 :: data, cfg := lib [fooLib] }, { cfg := lib [fooLib] } ]
    = [built 2, idle] := by decide +kernel

/-- `TargetDep_AddRemoveTest` (121-184), the executable: a library is added and
removed; only the link command runs again. -/
example : observe fx Sys.init
    [ { before := .edit fooLib 1 :: data, cfg := lib [] }, { cfg := lib [fooLib] },
      { cfg := lib [] } ]
    = [built 2, built 1, built 1] := by decide +kernel

/-- `TargetDep_UpdateExistingLibraryTest` (186-253), the executable. -/
example : observe fx Sys.init
    [ { before := .edit fooLib 1 :: data, cfg := lib [fooLib] },
      { before := [.edit fooLib 2], cfg := lib [fooLib] } ]
    = [built 2, built 1] := by decide +kernel

/-! ## `test/target/test_target_user_deps.cpp` -/

/-- `Target_Build_CompileDeps_Rebuild` (69-106): everything again. -/
example : observe fx Sys.init
    [ { before := data, cfg := { target [mainCpp] with compileDeps := infos [newSource] } },
      { before := [.edit newSource 2],
        cfg := { target [mainCpp] with compileDeps := infos [newSource] } } ]
    = [built 2, built 2] := by decide +kernel

/-- `Target_Build_LinkDeps_Rebuild` (108-144): only the link command. -/
example : observe fx Sys.init
    [ { before := data, cfg := { target [mainCpp] with linkDeps := infos [newSource] } },
      { before := [.edit newSource 2],
        cfg := { target [mainCpp] with linkDeps := infos [newSource] } } ]
    = [built 2, built 1] := by decide +kernel

/-! ## `test/target/test_target_pch.cpp` -/

/-- `Target_AddPch_Rebuild` (68-152): a PCH and no source; nothing changed, one header
removed, added, updated. -/
example : observe fx Sys.init
    [ { before := data, cfg := withPch [] [pch1, pch2] },
      { cfg := withPch [] [pch1, pch2] },
      { cfg := withPch [] [pch1] },
      { cfg := withPch [] [pch1, pch2] },
      { before := [.edit pch1 2], cfg := withPch [] [pch1, pch2] } ]
    = [built 2, idle, built 2, built 2, built 2] := by decide +kernel

/-- `Target_AddPch_CppRebuild` (154-247): the same with a C++ source. -/
example : observe fx Sys.init
    [ { before := data, cfg := withPch [mainCpp] [pch1, pch2] },
      { cfg := withPch [mainCpp] [pch1, pch2] },
      { cfg := withPch [mainCpp] [pch1] },
      { cfg := withPch [mainCpp] [pch1, pch2] },
      { before := [.edit pch1 2], cfg := withPch [mainCpp] [pch1, pch2] } ]
    = [built 3, idle, built 3, built 3, built 3] := by decide +kernel

/-- `Target_AddPch_IncludeDirsRebuild` (249-311). -/
example : observe fx Sys.init
    [ { before := data, cfg := { withPch [] [pch1] with includeDirs := [b!"/t/data/pch"] } },
      { cfg := { withPch [] [pch1] with includeDirs := [b!"/t/data/pch"] } },
      { cfg := withPch [] [pch1] },
      { cfg := { withPch [] [pch1] with includeDirs := [b!"/t/data/pch"] } } ]
    = [built 2, idle, built 2, built 2] := by decide +kernel

/-- `Target_AddPch_HeadersRebuild` (313-374): the header of the PCH is also a header of
the target. -/
example : observe fx Sys.init
    [ { before := data, cfg := { withPch [] [pch1] with headers := infos [pch1] } },
      { cfg := { withPch [] [pch1] with headers := infos [pch1] } },
      { cfg := withPch [] [pch1] },
      { cfg := { withPch [] [pch1] with headers := infos [pch1] } } ]
    = [built 2, idle, built 2, built 2] := by decide +kernel

/-- `Target_AddPchs_FlagsRebuild` (376-481): every kind of flag rebuilds the PCH. -/
example :
    let t0 := withPch [] [pch1]
    let t1 := { t0 with preprocessorFlags := [b!"-H"] }
    let t2 := { t1 with commonCompileFlags := [b!"-H"] }
    let t3 := { t2 with pchCompileFlags := [b!"-H"] }
    let t4 := { t3 with cCompileFlags := [b!"-H"] }
    let t5 := { t4 with cppCompileFlags := [b!"-H"] }
    observe fx Sys.init [ { before := data, cfg := t0 }, { cfg := t1 }, { cfg := t2 }, { cfg := t3 },
      { cfg := t4 }, { cfg := t5 } ]
    = [built 2, built 2, built 2, built 2, built 2, built 2] := by decide +kernel

/-- `Target_AddPchObjectFlag_Build` (483-501). -/
example : observe fx Sys.init
    [ { before := data, cfg := { withPch [] [pch1, pch2] with pchObjectFlags := [b!"-H"] } } ]
    = [built 2] := by decide +kernel

/-- `Target_BadPch` (503-524): the task state is FAILURE from the start; there is no
PCH. -/
def badPch : List Session := [{ before := data, cfg := withPch [] [pch1, pch2], healthy := false }]

example : observe fx Sys.init badPch = [some ⟨0, false, false⟩] := by decide +kernel
example : (after fx badPch).pch = none := by decide +kernel

/-! ## `test/target/test_base_target.cpp` -/

/-- `TargetConfig_BadCompileCommand` (52-74) and `TargetConfig_BadLinkCommand` (76-98):
`Build` throws, no run starts. -/
example : buildable { fx with tcfg := { gccExe with compileCommand := b!"{invalid_compile_string}" } }
    (target [mainC]) [mainC] = false := by decide +kernel

example : buildable { fx with tcfg := { gccExe with linkCommand := b!"{invalid_link_string}" } }
    (target [mainC]) [mainC] = false := by decide +kernel

example : buildable fx (target [mainC]) [mainC] = true := by decide +kernel

end Verif.Conform
