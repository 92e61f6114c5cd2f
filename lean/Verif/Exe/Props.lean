import Verif.Exe.Model
import Verif.Target.SpecialProps
import Verif.Target.ExactProps

/-!
# What `buildexe` builds and runs (C78–C81)
-/

namespace Verif.Exe
open Verif Verif.Env Verif.Schema Verif.Target Verif.Toolchain

/-! ## Specification -/

/-- What the command line says about each list of inputs of the target. -/
def given (root : Str) (i : Inputs) : SyncOption → List (PathInfo ⊕ Str)
  | .sources => i.sources.map fun s => stored (Path.append root s)
  | .includeDirs => i.includeDirs.map fun d => storedDir (Path.append root d)
  | .libDirs => i.libDirs.map fun d => storedDir (Path.append root d)
  | .externalLibs => i.externalLibs.map .inr
  | .preprocessorFlags => i.preprocessorFlags.map .inr
  | .commonCompileFlags => i.commonCompileFlags.map .inr
  | .asmCompileFlags => i.asmCompileFlags.map .inr
  | .cCompileFlags => i.cCompileFlags.map .inr
  | .cppCompileFlags => i.cppCompileFlags.map .inr
  | .linkFlags => i.linkFlags.map .inr
  | .headers | .pchs | .libs | .pchCompileFlags | .pchObjectFlags | .compileDeps | .linkDeps => []

/-- What a script gets from the library `buildcc`. -/
def fromBuildcc (b : Buildcc) (id : ToolchainId) : SyncOption → List (PathInfo ⊕ Str)
  | .libs => stored b.path :: entries .libs b.info
  | .includeDirs => entries .includeDirs b.info ++ entries .includeDirs b.info
  | .linkFlags => entries .linkFlags b.info ++
      (if id = .mingw then [.inr b!"-Wl,--allow-multiple-definition"] else [])
  | .preprocessorFlags => entries .preprocessorFlags b.info
  | .cppCompileFlags => entries .cppCompileFlags b.info
  | .headers => entries .headers b.info
  | .externalLibs => entries .externalLibs b.info
  | _ => []

/-- What a script gets from the files of libraries that are named on the command line. -/
def fromLibs (cfg : Config) (files : List Str) : SyncOption → List (PathInfo ⊕ Str)
  | .sources => (files.filter fun f => decide (IsSource cfg f)).map stored
  | .headers => (files.filter fun f => decide (IsHeader cfg f)).map stored
  | .includeDirs => (files.filter fun f => decide (IsHeader cfg f)).map fun f => storedDir (Path.parentPath f)
  | _ => []

/-- The generated header and other headers in the build directory of the target. -/
def fromBuildDir (cfg : Config) (buildDir : Str) (names : List Str) :
    SyncOption → List (PathInfo ⊕ Str)
  | .includeDirs => [storedDir buildDir]
  | .headers => ((names.map (Path.append buildDir)).filter fun f => decide (IsHeader cfg f)).map stored
  | _ => []

/-! ## Lemmas -/

theorem append_nil_append (r s : Str) : Path.append (Path.append r []) s = Path.append r s := by
  cases h : Path.isAbs s with
  | true => simp [Path.append, h]
  | false =>
    rw [Path.append_rel r [] rfl, List.append_nil, Path.append_rel _ _ h, Path.append_rel _ _ h,
      Path.asDir_dir _ (Path.asDir_end r)]

theorem flatMap_none {α β : Type} (l : List α) : l.flatMap (fun _ => ([] : List β)) = [] := by
  induction l <;> simp_all

theorem userOps_added (e : ApiEnv) (i : Inputs) (o : SyncOption) :
    (userOps i).flatMap (added e o) = given e.root i o := by
  cases o <;>
    simp [userOps, given, List.flatMap_map, added, addsTo, append_nil_append, FlagKind.option,
      ← List.map_eq_flatMap, flatMap_none]

theorem buildccOps_added (e : ApiEnv) (b : Buildcc) (id : ToolchainId) (o : SyncOption) :
    (buildccOps b id).flatMap (added e o) = fromBuildcc b id o := by
  cases id <;> cases o <;> simp [buildccOps, fromBuildcc, added, addsTo, FlagKind.option]

theorem libFileOps_added (e : ApiEnv) (files : List Str) (o : SyncOption) :
    (libFileOps e.cfg files).flatMap (added e o) = fromLibs e.cfg files o := by
  induction files with
  | nil => cases o <;> rfl
  | cons f fs ih =>
    rw [libFileOps, List.flatMap_cons, List.flatMap_append, ← libFileOps, ih]
    have h1 := isValidSource_iff e.cfg f
    have h2 := isValidHeader_iff e.cfg f
    by_cases hs : IsSource e.cfg f <;> by_cases hh : IsHeader e.cfg f <;>
      cases o <;> simp [fromLibs, added, addsTo, h1, h2, hs, hh]

theorem targetOps_copies (a : ExeArgs) (b : Buildcc) (tc : Toolchain) (d : Str) (o : SyncOption) :
    ∀ op ∈ targetOps a b tc d, ¬ Copies o op := by
  have h1 : ∀ op ∈ userOps a.inputs, ¬ Copies o op := by
    intro op h
    simp only [userOps, List.mem_append, List.mem_map] at h
    rcases h with ((((((((⟨x, -, rfl⟩ | ⟨x, -, rfl⟩) | ⟨x, -, rfl⟩) | ⟨x, -, rfl⟩) | ⟨x, -, rfl⟩) |
      ⟨x, -, rfl⟩) | ⟨x, -, rfl⟩) | ⟨x, -, rfl⟩) | ⟨x, -, rfl⟩) | ⟨x, -, rfl⟩ <;> exact id
  have h2 : ∀ op ∈ buildccOps b tc.id, ¬ Copies o op := by
    intro op h
    cases hid : tc.id <;> simp [buildccOps, hid] at h <;>
      (rcases h with rfl | rfl | rfl) <;> exact id
  have h3 : ∀ op ∈ libFileOps tc.config a.libFiles, ¬ Copies o op := by
    intro op h
    simp only [libFileOps, List.mem_flatMap, List.mem_append] at h
    obtain ⟨f, -, h | h⟩ := h <;> split at h <;> simp at h
    · subst h; exact id
    · rcases h with rfl | rfl <;> exact id
  intro op h
  rw [targetOps] at h
  split at h
  · exact h1 op h
  · simp only [List.mem_append, List.mem_singleton] at h
    rcases h with ((h | h) | rfl) | h
    · exact h1 op h
    · exact h2 op h
    · exact id
    · exact h3 op h

theorem setup_some {junk : Nat → TargetSchema} {p : Project} {list : Str → Option (List Str)}
    {tc : Toolchain} {a : ExeArgs} {b : Buildcc} {m : Made} {u : TargetSchema}
    (h : setup junk p list tc a b = some (m, u)) :
    targetGeneric junk p a.name a.type tc (TargetEnv.relative p a.relativeToRoot) = some m ∧
    applyAll ⟨tc.config, m.rootDir, list⟩ m.info (targetOps a b tc m.buildDir) = some u := by
  rw [setup] at h
  split at h
  · cases h
  · split at h
    · cases h
    · rename_i hm _ _ ha
      cases h
      exact ⟨hm, ha⟩

/-! ## C78 -/

/-- C78: the target that is built.  Its name, its type, its directories and its toolchain are
those of the command line and the project; in every list the flags of the toolchain and of the
kind of target (`C70_made`) come first, then what the command line gives, resolved against the
directory of the target; in script mode, what the library `buildcc` needs of its users, the
headers of the build directory, and the files of libraries follow. -/
theorem C78_target {junk : Nat → TargetSchema} {p : Project} {list : Str → Option (List Str)}
    {tc : Toolchain} {a : ExeArgs} {b : Buildcc} {m : Made} {u : TargetSchema}
    (h : setup junk p list tc a b = some (m, u)) :
    m.name = a.name ∧ m.type = a.type ∧ m.toolchain = tc ∧
    m.rootDir = Path.append p.rootDir a.relativeToRoot ∧
    m.buildDir = Path.targetBuildDir p.buildDir tc.name a.name ∧
    (a.mode = .immediate → ∀ o, entries o u = entries o m.info ++ given m.rootDir a.inputs o) ∧
    (a.mode = .script → ∃ names, list m.buildDir = some names ∧
      ∀ o, entries o u = entries o m.info ++ given m.rootDir a.inputs o ++ fromBuildcc b tc.id o ++
        fromBuildDir tc.config m.buildDir names o ++ fromLibs tc.config a.libFiles o) := by
  obtain ⟨hm, ha⟩ := setup_some h
  obtain ⟨h1, h2, h3, h4, h5, -⟩ := C70_made hm
  refine ⟨h1, h2, h3, h4, h5, ?_, ?_⟩
  · intro hmode o
    rw [(C67_inputs ha).2 o (targetOps_copies _ _ _ _ _)]
    simp only [targetOps, hmode, userOps_added]
  · intro hmode
    cases hl : list m.buildDir with
    | none =>
      exfalso
      have : applyAll ⟨tc.config, m.rootDir, list⟩ m.info (targetOps a b tc m.buildDir) = none := by
        rw [C67_rejected]
        refine ⟨.addIncludeDirAbsolute m.buildDir true, ?_, rfl, hl⟩
        simp [targetOps, hmode]
      rw [this] at ha
      cases ha
    | some names =>
      refine ⟨names, rfl, fun o => ?_⟩
      rw [(C67_inputs ha).2 o (targetOps_copies _ _ _ _ _)]
      have hd : added ⟨tc.config, m.rootDir, list⟩ o (.addIncludeDirAbsolute m.buildDir true) =
          fromBuildDir tc.config m.buildDir names o := by
        cases o <;> simp [added, addsTo, fromBuildDir, filesIn, hl]
      have hlf := libFileOps_added ⟨tc.config, m.rootDir, list⟩ a.libFiles o
      simp only at hlf
      simp only [targetOps, hmode, List.flatMap_append, List.flatMap_cons, List.flatMap_nil,
        userOps_added, buildccOps_added, hd, hlf, List.append_nil, List.append_assoc]

/-- C78: the directory of a header, which becomes an include directory, is its path without the file
name and the separators before it, except that the root is kept. -/
theorem C78_parent {f : Str} (hf : Path.slash ∉ f) (n : Nat) :
    Path.parentPath f = [] ∧ Path.parentPath (List.replicate (n + 1) Path.slash ++ f) = b!"/" ∧
    ∀ d c, c ≠ Path.slash →
      Path.parentPath (d ++ [c] ++ List.replicate (n + 1) Path.slash ++ f) = d ++ [c] := by
  have hr : ∀ x : Str, Path.dirPart (x ++ List.replicate (n + 1) Path.slash ++ f) =
      x ++ List.replicate (n + 1) Path.slash := by
    intro x
    rw [Path.dirPart, Path.splitFile_unique _ _ hf (.inr ⟨x ++ List.replicate n Path.slash, by
      rw [List.replicate_succ', ← List.append_assoc]⟩)]
  refine ⟨?_, ?_, ?_⟩
  · have : Path.dirPart f = [] := by
      rw [Path.dirPart, ← List.nil_append f, Path.splitFile_unique [] f hf (.inl rfl)]
    simp [Path.parentPath, this]
  · have := hr []
    rw [List.nil_append] at this
    rw [Path.parentPath, this]
    simp [List.dropWhile_replicate, List.replicate_succ, Path.slash]
  · intro d c hc
    rw [Path.parentPath, hr]
    simp [List.dropWhile_append, List.dropWhile_replicate, hc]

/-- C78: exactly these command lines are refused: when there is no project, for a target type
or a toolchain that is not supported, for a source with another extension, and in script mode
when the build directory of the target cannot be listed. -/
theorem C78_refused (junk : Nat → TargetSchema) (p : Project) (list : Str → Option (List Str))
    (tc : Toolchain) (a : ExeArgs) (b : Buildcc) :
    setup junk p list tc a b = none ↔
      p.init = false ∨ a.type = .undefined ∨ ¬ Supported tc.id ∨
      (∃ s ∈ a.inputs.sources,
        ¬ IsSource tc.config (Path.append (Path.append p.rootDir a.relativeToRoot) s)) ∨
      (a.mode = .script ∧ list (Path.targetBuildDir p.buildDir tc.name a.name) = none) := by
  cases hm : targetGeneric junk p a.name a.type tc (TargetEnv.relative p a.relativeToRoot) with
  | none =>
    have := (C70_fatal _ _ _ _ _ _ _).1 hm
    simp only [setup, hm, true_iff]
    rcases this with h | h | h
    · exact .inl h
    · exact .inr (.inl h)
    · exact .inr (.inr (.inl h))
  | some m =>
    have hnot : ¬ (p.init = false ∨ a.type = .undefined ∨ ¬ Supported tc.id) := by
      intro h
      rw [(C70_fatal junk p a.name a.type tc (TargetEnv.relative p a.relativeToRoot) none).2 h] at hm
      cases hm
    obtain ⟨-, -, -, h4, h5, -⟩ := C70_made hm
    have e : setup junk p list tc a b = none ↔
        applyAll ⟨tc.config, m.rootDir, list⟩ m.info (targetOps a b tc m.buildDir) = none := by
      simp only [setup, hm]
      split <;> simp_all
    rw [e, C67_rejected]
    have hroot : m.rootDir = Path.append p.rootDir a.relativeToRoot := h4
    have hbuild : m.buildDir = Path.targetBuildDir p.buildDir tc.name a.name := h5
    rw [← hroot, ← hbuild]
    constructor
    · rintro ⟨op, hop, hr⟩
      have huser : op ∈ userOps a.inputs → ∃ s ∈ a.inputs.sources,
          ¬ IsSource tc.config (Path.append m.rootDir s) := by
        intro h
        simp only [userOps, List.mem_append, List.mem_map] at h
        rcases h with ((((((((⟨x, hx, rfl⟩ | ⟨x, -, rfl⟩) | ⟨x, -, rfl⟩) | ⟨x, -, rfl⟩) |
          ⟨x, -, rfl⟩) | ⟨x, -, rfl⟩) | ⟨x, -, rfl⟩) | ⟨x, -, rfl⟩) | ⟨x, -, rfl⟩) | ⟨x, -, rfl⟩
        · refine ⟨x, hx, ?_⟩
          simp only [Rejected, append_nil_append] at hr
          exact hr
        · cases hr.1
        all_goals exact absurd hr id
      rw [targetOps] at hop
      split at hop
      · exact .inr (.inr (.inr (.inl (huser hop))))
      · rename_i hmode
        simp only [List.mem_append, List.mem_singleton] at hop
        rcases hop with ((h | h) | rfl) | h
        · exact .inr (.inr (.inr (.inl (huser h))))
        · exfalso
          cases hid : tc.id <;> simp [buildccOps, hid] at h <;>
            (rcases h with rfl | rfl | rfl) <;> exact hr
        · exact .inr (.inr (.inr (.inr ⟨hmode, hr.2⟩)))
        · exfalso
          simp only [libFileOps, List.mem_flatMap, List.mem_append] at h
          obtain ⟨f, -, h | h⟩ := h <;> split at h <;> simp at h
          · rename_i hv
            subst h
            exact hr ((isValidSource_iff _ _).1 hv)
          · rename_i hv
            rcases h with rfl | rfl
            · cases hr.1
            · exact hr ((isValidHeader_iff _ _).1 hv)
    · rintro (h | h | h | ⟨x, hx, h⟩ | ⟨hmode, h⟩)
      · exact absurd (.inl h) hnot
      · exact absurd (.inr (.inl h)) hnot
      · exact absurd (.inr (.inr h)) hnot
      · refine ⟨.addSource x [], ?_, ?_⟩
        · have : ApiOp.addSource x [] ∈ userOps a.inputs := by
            simp only [userOps, List.mem_append, List.mem_map]
            exact .inl (.inl (.inl (.inl (.inl (.inl (.inl (.inl (.inl ⟨x, hx, rfl⟩))))))))
          rw [targetOps]
          split
          · exact this
          · simp [this]
        · simp only [Rejected, append_nil_append]
          exact h
      · exact ⟨.addIncludeDirAbsolute m.buildDir true, by simp [targetOps, hmode], rfl, h⟩

/-! ## C79 -/

theorem scriptCommand_ne (m : Made) (configs : List Str) : scriptCommand m configs ≠ [] := by
  simp [scriptCommand]

theorem execute_script (sh : Shell) (m : Made) (configs : List Str) :
    execute sh (scriptCommand m configs) none = some (sh (scriptCommand m configs) none) := by
  rw [execute, if_neg (scriptCommand_ne _ _)]

theorem aggregate_configs : ∀ (x : Str) (l : List Str),
    Command.aggregate ((x :: l).map (b!"--config " ++ ·)) =
      spaced ((x :: l).flatMap fun c => [b!"--config", c])
  | x, [] => by
    simp [Command.aggregate, spaced, List.intercalate_cons_cons]
  | x, y :: l => by
    have := aggregate_configs y l
    simp only [List.map_cons, List.flatMap_cons, spaced, List.cons_append, List.nil_append,
      List.intercalate_cons_cons, Command.aggregate] at this ⊢
    rw [this]
    simp

theorem scriptCommand_eq (m : Made) (configs : List Str) :
    scriptCommand m configs = spaced (Path.displayString (outputPath m.fixed) ::
      if configs = [] then [b!""] else configs.flatMap fun c => [b!"--config", c]) := by
  rw [scriptCommand]
  cases configs with
  | nil => simp [Command.aggregate, spaced, List.intercalate_cons_cons]
  | cons x l =>
    rw [aggregate_configs, if_neg (by simp)]
    simp [spaced, List.intercalate_cons_cons]

/-- C79: with status 0 the target was built, and then, in script mode only, run: once, after
the build, with all the given configuration files.  Otherwise the status is 1 and nothing was
run.  Missing: the status of the script, see `C79_status_false`. -/
theorem C79_run_partial (junk : Nat → TargetSchema) (w : World) (p : Project) (clean : Bool)
    (a : ExeArgs) (b : Buildcc) :
    ((exeMain junk w p clean a b).2 = 0 ∧ w.buildOk = true ∧
      (a.mode = .script → w.hostOk = true) ∧
      ∃ tc m u, w.toolchain = some tc ∧ setup junk p w.list tc a b = some (m, u) ∧
        (exeMain junk w p clean a b).1 =
          (if clean then [ExeDid.cleaned p.buildDir] else []) ++
          (if a.mode = .script then [ExeDid.header (libDirsFile m.buildDir) (libDirsText a.libs)] else []) ++
          [.built (outputPath m.fixed)] ++
          (if a.mode = .script then [ExeDid.ran (spaced (Path.displayString (outputPath m.fixed) ::
            if a.configs = [] then [b!""] else a.configs.flatMap fun c => [b!"--config", c]))] else []) ++
          [.compileCommands]) ∨
    ((exeMain junk w p clean a b).2 = 1 ∧
      (∀ c, ExeDid.ran c ∉ (exeMain junk w p clean a b).1) ∧
      (∀ t, ExeDid.built t ∉ (exeMain junk w p clean a b).1) ∧
      (w.toolchain = none ∨ (a.mode = .script ∧ w.hostOk = false) ∨ w.buildOk = false ∨
        ∃ tc, w.toolchain = some tc ∧ setup junk p w.list tc a b = none)) := by
  rw [exeMain]
  simp only [execute_script]
  simp only [scriptCommand_eq]
  cases ht : w.toolchain with
  | none => right; cases clean <;> simp
  | some tc =>
    by_cases hh : a.mode = .script ∧ w.hostOk = false
    · right
      simp only [if_pos hh]
      cases clean <;> simp [hh]
    · simp only [if_neg hh]
      cases hs : setup junk p w.list tc a b with
      | none => right; cases clean <;> simp [hs]
      | some x =>
        obtain ⟨m, u⟩ := x
        cases hb : w.buildOk with
        | false => right; cases clean <;> cases hm : a.mode <;> simp
        | true =>
          left
          cases hm : a.mode with
          | immediate =>
            refine ⟨by simp, rfl, by simp, tc, m, u, rfl, hs, by simp⟩
          | script =>
            refine ⟨by simp, rfl, fun _ => ?_, tc, m, u, rfl, hs, by simp⟩
            cases hk : w.hostOk
            · exact absurd ⟨hm, hk⟩ hh
            · rfl

/-- C79, what fails: what the script does has no influence on the status; a script that fails
(or does not exist) ends with status 0. -/
theorem C79_status_false (junk : Nat → TargetSchema) (w : World) (sh : Shell) (p : Project)
    (clean : Bool) (a : ExeArgs) (b : Buildcc) :
    exeMain junk { w with shell := sh } p clean a b = exeMain junk w p clean a b := by
  simp only [exeMain, execute_script]

/-! ## A concrete case -/

/-- A project in `/r` that is built in `/r/out`. -/
def exProject : Project := ⟨true, b!"/r", b!"/r/out"⟩

/-- `buildexe --mode script --name hello --type executable --relative_to_root sub …` -/
def exArgs : ExeArgs where
  name := b!"hello"
  type := .executable
  relativeToRoot := b!"sub"
  inputs := { sources := [b!"main.cpp", b!"../x.c"], includeDirs := [b!"inc"], linkFlags := [b!"-s"] }
  mode := .script
  configs := [b!"a.toml", b!"b.toml"]
  libs := [⟨b!"json", b!"/h/libs/json"⟩, ⟨b!"cli", b!"/h/libs/cli"⟩]
  libFiles := [b!"/h/libs/json/src/json.cpp", b!"/h/libs/json/inc/json.h", b!"/h/libs/cli/README"]

/-- The library, which has a header and a dependency. -/
def exBuildcc : Buildcc :=
  ⟨b!"/h/buildcc/libbuildcc.a",
    { TargetSchema.empty with
      includeDirs := [b!"/h/buildcc/inc"], headers := [⟨b!"/h/buildcc/inc/buildcc.h", []⟩]
      libs := [⟨b!"/h/buildcc/libfmt.a", []⟩], cppCompileFlags := [b!"-std=c++17"] }⟩

def exWorld : World where
  list d := if d = b!"/r/out/gcc/hello" then some [b!"sub", b!"buildexe_lib_dirs.h"] else none
  toolchain := some (toolchainGcc b!"gcc" none none)
  hostOk := true
  buildOk := true
  shell _ _ := ⟨[], [b!"not found"], false⟩

def exMade : Option (Made × TargetSchema) :=
  setup (fun _ => .empty) exProject exWorld.list (toolchainGcc b!"gcc" none none) exArgs exBuildcc

example : exMade.map (fun x => (x.2.sources.map (·.path), x.2.headers.map (·.path), x.2.includeDirs,
      x.2.libs.map (·.path))) = some
    ([b!"/r/sub/main.cpp", b!"/r/x.c", b!"/h/libs/json/src/json.cpp"],
     [b!"/h/buildcc/inc/buildcc.h", b!"/r/out/gcc/hello/buildexe_lib_dirs.h", b!"/h/libs/json/inc/json.h"],
     [b!"/r/sub/inc", b!"/h/buildcc/inc", b!"/h/buildcc/inc", b!"/r/out/gcc/hello", b!"/h/libs/json/inc"],
     [b!"/h/buildcc/libbuildcc.a", b!"/h/buildcc/libfmt.a"]) := by decide +kernel

/-- The script fails, `buildexe` succeeds. -/
example : exeMain (fun _ => .empty) exWorld exProject true exArgs exBuildcc =
    ([.cleaned b!"/r/out",
      .header b!"/r/out/gcc/hello/buildexe_lib_dirs.h"
        b!"// Generated by BuildCC\n#pragma once\n\nstruct BuildExeLibDir {\nstatic constexpr const char *const json = \"/h/libs/json\";\r\nstatic constexpr const char *const cli = \"/h/libs/cli\";\n};\n",
      .built b!"/r/out/gcc/hello/hello",
      .ran b!"/r/out/gcc/hello/hello --config a.toml --config b.toml", .compileCommands], 0) := by
  decide +kernel

end Verif.Exe
