import Verif.Exe.Props
import Verif.Target.ExactProps

/-!
# C81: running `buildexe` again

The versions of files, the state file and the commands of a build are those of the model of
targets; `σ₁` is the end of the first build and `σ₂` the state in which the second one starts.
-/

namespace Verif.Exe
open Verif Verif.Env Verif.Schema Verif.Target Verif.Toolchain

theorem applyAll_userOps {cfg : Config} {root : Str} {list list' : Str → Option (List Str)}
    {t u u' : TargetSchema} (i : Inputs)
    (h : applyAll ⟨cfg, root, list⟩ t (userOps i) = some u)
    (h' : applyAll ⟨cfg, root, list'⟩ t (userOps i) = some u') : u = u' := by
  have hc : ∀ o, ∀ op ∈ userOps i, ¬ Copies o op := by
    intro o op h
    simp only [userOps, List.mem_append, List.mem_map] at h
    rcases h with ((((((((⟨x, -, rfl⟩ | ⟨x, -, rfl⟩) | ⟨x, -, rfl⟩) | ⟨x, -, rfl⟩) | ⟨x, -, rfl⟩) |
      ⟨x, -, rfl⟩) | ⟨x, -, rfl⟩) | ⟨x, -, rfl⟩) | ⟨x, -, rfl⟩) | ⟨x, -, rfl⟩ <;> exact id
  refine entries_ext (fun o => ?_) ?_
  · rw [(C67_inputs h).2 o (hc o), (C67_inputs h').2 o (hc o), userOps_added, userOps_added]
  · obtain ⟨r1, r2, r3, r4⟩ := (C67_inputs h).1
    obtain ⟨q1, q2, q3, q4⟩ := (C67_inputs h').1
    exact ⟨r1.trans q1.symm, r2.trans q2.symm, r3.trans q3.symm, r4.trans q4.symm⟩

/-- C81, immediate mode: with the same command line, the same state file and the same versions
of the files of the target, a second run executes no command, whatever the directories contain
and however its tasks are scheduled.  Missing: script mode, see `C81_script_false`. -/
theorem C81_again_partial {junk : Nat → TargetSchema} {p : Project}
    {list list' : Str → Option (List Str)} {tc : Toolchain} {a : ExeArgs} {b b' : Buildcc}
    {m m' : Made} {u u' : TargetSchema} {σ₀ σ₁ σ₂ σ₃ : Sys} {o₁ o₂ : List Str}
    {mid₁ mid₂ : List Event} (mode : a.mode = .immediate)
    (h : setup junk p list tc a b = some (m, u)) (h' : setup junk p list' tc a b' = some (m', u'))
    (hn : (paths u.sources).Nodup) (h₁ : SuccessfulBuild m.fixed σ₀ u o₁ mid₁ σ₁)
    (same : SameExcept [] u σ₁ σ₂) (h₂ : QuietRun m'.fixed σ₂ u' o₂ mid₂ σ₃) :
    commands σ₃.log = [] ∧ (σ₃.objs = σ₂.objs ∧ σ₃.pch = σ₂.pch ∧ σ₃.bin = σ₂.bin) ∧
      σ₃.stateFile = σ₂.stateFile := by
  obtain ⟨hm, ha⟩ := setup_some h
  obtain ⟨hm', ha'⟩ := setup_some h'
  rw [hm] at hm'
  cases hm'
  simp only [targetOps, mode] at ha ha'
  cases applyAll_userOps a.inputs ha ha'
  obtain ⟨h1, h2, h3, -⟩ := C04_null_rebuild hn h₁ same h₂
  exact ⟨h1, h2, h3⟩

theorem mem_versions {f : Str → Option Nat} {l : List PathInfo} {i : PathInfo} (h : i ∈ l) :
    (i.path, version f i.path) ∈ versions f l := List.mem_map.2 ⟨i, h, rfl⟩

theorem versions_of_mem {f : Str → Option Nat} {l : List PathInfo} {p : Str} {v : Option Str}
    (h : (p, v) ∈ versions f l) : v = version f p := by
  obtain ⟨i, -, e⟩ := List.mem_map.1 h
  cases e
  rfl

/-- In script mode the generated header is an input of the target. -/
theorem header_tracked {junk : Nat → TargetSchema} {p : Project}
    {list : Str → Option (List Str)} {tc : Toolchain} {a : ExeArgs} {b : Buildcc}
    {m : Made} {u : TargetSchema} {names : List Str} (mode : a.mode = .script)
    (h : setup junk p list tc a b = some (m, u)) (hl : list m.buildDir = some names)
    (written : b!"buildexe_lib_dirs.h" ∈ names)
    (ext : IsHeader tc.config (libDirsFile m.buildDir)) :
    (⟨Path.lexNormal (libDirsFile m.buildDir), []⟩ : PathInfo) ∈ u.headers := by
  obtain ⟨-, -, -, -, -, -, h6⟩ := C78_target h
  obtain ⟨names', hl', h6⟩ := h6 mode
  rw [hl] at hl'
  cases hl'
  have h7 := h6 .headers
  have : stored (libDirsFile m.buildDir) ∈ entries .headers u := by
    rw [h7]
    refine List.mem_append_left _ (List.mem_append_right _ ?_)
    refine List.mem_map.2 ⟨_, List.mem_filter.2 ⟨List.mem_map.2 ⟨_, written, rfl⟩, ?_⟩, rfl⟩
    exact decide_eq_true ext
  obtain ⟨i, hi, e⟩ := List.mem_map.1 this
  cases Sum.inl.inj e
  exact hi

/-- C81, what fails: in script mode `buildexe` writes its header again in every run, and the
header is an input of the target.  So with the same command line and nothing else changed, every
successful run compiles every source again and links again. -/
theorem C81_script_false {junk : Nat → TargetSchema} {p : Project}
    {list list' : Str → Option (List Str)} {names names' : List Str} {tc : Toolchain} {a : ExeArgs}
    {b : Buildcc} {m m' : Made} {u u' : TargetSchema} {σ₀ σ₁ σ₂ σ₃ : Sys} {o₁ o₂ : List Str}
    {mid₁ mid₂ : List Event} {d : Done} (mode : a.mode = .script)
    (h : setup junk p list tc a b = some (m, u)) (h' : setup junk p list' tc a b = some (m', u'))
    (hl : list m.buildDir = some names) (hl' : list' m.buildDir = some names')
    (written : b!"buildexe_lib_dirs.h" ∈ names) (written' : b!"buildexe_lib_dirs.h" ∈ names')
    (ext : IsHeader tc.config (libDirsFile m.buildDir))
    (hn : (paths u.sources).Nodup) (hn' : (paths u'.sources).Nodup)
    (h₁ : SuccessfulBuild m.fixed σ₀ u o₁ mid₁ σ₁) (state : σ₂.stateFile = σ₁.stateFile)
    (again : version σ₂.files (Path.lexNormal (libDirsFile m.buildDir)) ≠
      version σ₁.files (Path.lexNormal (libDirsFile m.buildDir)))
    (h₂ : QuietRun m'.fixed σ₂ u' o₂ mid₂ σ₃) (hd : σ₃.done = some d) (hok : d.ok = true) :
    (∀ p ∈ paths u'.sources, Entry.obj p true ∈ σ₃.log) ∧ Entry.link true ∈ σ₃.log := by
  have hm : m' = m := by
    have h1 := (setup_some h).1
    rw [(setup_some h').1] at h1
    cases h1
    rfl
  subst hm
  have t1 := header_tracked mode h hl written ext
  have t2 := header_tracked mode h' hl' written' ext
  obtain ⟨s, hs, hc⟩ := h₁.current hn
  have changed : SharedChanged σ₂.files s u' := by
    refine .inr (.inr (.inr (.inr (.inr (.inr (.inr (.inl ?_)))))))
    rw [hc.shared.headers]
    intro e
    have := mem_versions (f := σ₁.files) t1
    rw [e] at this
    exact again (versions_of_mem this).symm
  exact (C06_shared_change hn' h₂ (by rw [state]; exact hs) changed hd).2 hok

/-! ## Concrete cases -/

/-- The same command line in immediate mode. -/
def exNow : ExeArgs := { exArgs with mode := .immediate }

def exNowMade : Option (Made × TargetSchema) :=
  setup (fun _ => .empty) exProject (fun _ => none) (toolchainGcc b!"gcc" none none) exNow exBuildcc

/-- `x.c` and `main.cpp` exist. -/
def exNowFiles (fx : Fixed) : Sys :=
  steps fx Sys.init [.edit b!"/r/sub/main.cpp" 1, .edit b!"/r/x.c" 2]

def exNowOrder : List Str := [b!"/r/x.c", b!"/r/sub/main.cpp"]

def exNowFull : List Event :=
  [.objTask, .exec 0 true none, .exec 0 true none, .add 0, .add 0, .linkTask, .linkExec true none,
    .finish true]

/-- The first run builds, the second one finds nothing to do. -/
example : (exNowMade.map fun x =>
      (((steps x.1.fixed (exNowFiles x.1.fixed) (.start x.2 exNowOrder :: exNowFull)).done.map
          fun d => (d.ok, d.built)),
       commands (steps x.1.fixed
          (steps x.1.fixed (exNowFiles x.1.fixed) (.start x.2 exNowOrder :: exNowFull))
          [.start x.2 exNowOrder, .objTask, .linkTask, .finish true]).log)) =
    some (some (true, true), []) := by decide +kernel

/-- In script mode: the files that the target of `exMade` needs. -/
def exScriptFiles (fx : Fixed) : Sys :=
  steps fx Sys.init [.edit b!"/r/sub/main.cpp" 1, .edit b!"/r/x.c" 2,
    .edit b!"/h/libs/json/src/json.cpp" 3, .edit b!"/h/libs/json/inc/json.h" 4,
    .edit b!"/h/buildcc/inc/buildcc.h" 5, .edit b!"/h/buildcc/libbuildcc.a" 6,
    .edit b!"/h/buildcc/libfmt.a" 7, .edit b!"/r/out/gcc/hello/buildexe_lib_dirs.h" 8]

def exScriptOrder : List Str := [b!"/r/x.c", b!"/h/libs/json/src/json.cpp", b!"/r/sub/main.cpp"]

def exScriptFull : List Event :=
  [.objTask, .exec 0 true none, .exec 0 true none, .exec 0 true none, .add 0, .add 0, .add 0,
    .linkTask, .linkExec true none, .finish true]

/-- The second run writes the header again, and everything is compiled and linked again. -/
example : (exMade.map fun x =>
      (((steps x.1.fixed (exScriptFiles x.1.fixed) (.start x.2 exScriptOrder :: exScriptFull)).done.map
          fun d => (d.ok, d.built)),
       commands (steps x.1.fixed
          (steps x.1.fixed (exScriptFiles x.1.fixed) (.start x.2 exScriptOrder :: exScriptFull))
          (.edit b!"/r/out/gcc/hello/buildexe_lib_dirs.h" 9 ::
            .start x.2 exScriptOrder :: exScriptFull)).log)) =
    some (some (true, true),
      [.obj b!"/r/sub/main.cpp" true, .obj b!"/r/x.c" true, .obj b!"/h/libs/json/src/json.cpp" true,
       .link true]) := by decide +kernel

example : IsHeader (toolchainGcc b!"gcc" none none).config (libDirsFile b!"/r/out/gcc/hello") := by
  decide +kernel

end Verif.Exe
