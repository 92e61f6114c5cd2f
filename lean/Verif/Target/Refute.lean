import Verif.Target.SoundProps

/-!
# Why C01, C02, C03 and C12 are partial

Each theorem gives one history that breaks exactly one condition of `Family` or
`Disciplined`, in which a build then ends in SUCCESS although something is outdated.
`Stale fx pre c order mid` is that situation.  These are properties of the code.
-/

namespace Verif.Target
open Verif Verif.Command Verif.Schema Verif.Json

/-- After `pre`, an undisturbed build of `c` ends in SUCCESS and leaves something that
differs from a build from scratch: the PCH, an object, or the target. -/
structure Stale (fx : Fixed) (pre : List Event) (c : TargetSchema) (order : List Str)
    (mid : List Event) (σ : Sys) : Prop where
  build : SuccessfulBuild fx (steps fx Sys.init pre) c order mid σ
  stale : (c.pchs ≠ [] ∧ σ.pch ≠ some (cleanPch fx σ.files c)) ∨
    (∃ p ∈ paths c.sources, σ.objs (objPath fx p) ≠ some (cleanObj fx σ.files c p))

theorem Stale.not_clean {fx : Fixed} {pre : List Event} {c : TargetSchema} {order : List Str}
    {mid : List Event} {σ : Sys} (h : Stale fx pre c order mid σ) : ¬ Clean fx σ c := by
  intro hc
  rcases h.stale with ⟨h1, h2⟩ | ⟨p, h1, h2⟩
  · exact h2 (hc.pch h1)
  · exact h2 (hc.obj p h1)

/-- State after a build. -/
abbrev after (fx : Fixed) (pre : List Event) (c : TargetSchema) (order : List Str)
    (mid : List Event) : Sys :=
  steps fx (step fx (steps fx Sys.init pre) (.start c order)) mid

/-- No build is killed, no state is lost, built files are left alone, files are edited
between builds only. -/
def Calm (fx : Fixed) (evs : List Event) : Prop :=
  (∀ e ∈ evs, match e with
    | .crash _ | .dropState | .otherFail | .finish false => False
    | .pchExec ok _ | .exec _ ok _ | .linkExec ok _ => ok = true
    | _ => e.tampers = false) ∧
  idleEdits fx Sys.init evs = true

/-! ### The PCH is dropped -/

def preDropped : List Event := exFiles ++ .start exCfg exOrder :: exFull

/-- `RemovePch`-style change: the next build has no PCH.  Nothing is rebuilt and the
objects still include the old PCH. -/
theorem C01_pch_dropped_false : Calm exFixed preDropped ∧
    Stale exFixed preDropped exPlain exOrder [.objTask, .linkTask, .finish true]
      (after exFixed preDropped exPlain exOrder [.objTask, .linkTask, .finish true]) := by
  refine ⟨⟨by simp [preDropped, exFiles, exFull, Event.tampers], by decide +kernel⟩,
    ⟨by decide +kernel, by decide +kernel, by decide, rfl, ⟨false, by decide +kernel⟩⟩, .inr ?_⟩
  exact ⟨b!"/p/src/main.cpp", by decide +kernel, by decide +kernel⟩

/-! ### The language of the PCH changes -/

def exC : TargetSchema := { exCfg with sources := [⟨b!"/p/src/util.c", []⟩] }

def preLang : List Event :=
  exFiles ++ [ .start exC [b!"/p/src/util.c"], .pchTask, .pchExec true none, .objTask,
    .exec 0 true none, .add 0, .linkTask, .linkExec true none, .finish true ]

/-- The first C++ source is added to a C target with PCH: the PCH would now be
compiled as C++, but it is not compiled again. -/
theorem C03_pch_language_false : Calm exFixed preLang ∧
    Stale exFixed preLang exCfg exOrder
      [.pchTask, .objTask, .exec 0 true none, .add 0, .linkTask, .linkExec true none, .finish true]
      (after exFixed preLang exCfg exOrder
        [.pchTask, .objTask, .exec 0 true none, .add 0, .linkTask, .linkExec true none,
          .finish true]) := by
  refine ⟨⟨by simp [preLang, exFiles, Event.tampers], by decide +kernel⟩,
    ⟨by decide +kernel, by decide +kernel, by decide, rfl, ⟨true, by decide +kernel⟩⟩, .inl ?_⟩
  exact ⟨by decide, by decide +kernel⟩

/-! ### A header is edited during a build -/

def preHeader : List Event :=
  exFiles ++ [ .start exCfg exOrder, .pchTask, .pchExec true none, .edit b!"/p/include/a.h" 7,
    .objTask, .exec 0 true none, .exec 0 true none, .add 0, .add 0,
    .linkTask, .linkExec true none, .finish true ]

/-- A header is edited after the PCH was compiled and before the compile task hashes
it again: the new hash is stored, and the next build does not compile the PCH. -/
theorem C03_header_edit_during_build_false :
    Stale exFixed preHeader exCfg exOrder exNull (after exFixed preHeader exCfg exOrder exNull) := by
  refine ⟨⟨by decide +kernel, by decide +kernel, by decide, rfl, ⟨false, by decide +kernel⟩⟩, .inl ?_⟩
  exact ⟨by decide, by decide +kernel⟩

/-! ### A crash, and back to the old flags -/

def preCrash : List Event :=
  exFiles ++ .start exCfg exOrder :: exFull ++
    [ .start exCfg2 exOrder, .pchTask, .pchExec true none, .objTask, .exec 0 true none, .crash none ]

/-- A build with new flags is killed after one object; then the old flags are used
again.  The stored state says that everything is up to date. -/
theorem C12_crash_and_revert_false :
    Stale exFixed preCrash exCfg exOrder exNull (after exFixed preCrash exCfg exOrder exNull) := by
  refine ⟨⟨by decide +kernel, by decide +kernel, by decide, rfl, ⟨false, by decide +kernel⟩⟩, .inr ?_⟩
  exact ⟨b!"/p/src/main.cpp", by decide +kernel, by decide +kernel⟩

def preUnstored : List Event :=
  exFiles ++ .start exCfg exOrder :: exFull ++
    [ .start exCfg2 exOrder, .pchTask, .pchExec true none, .objTask, .exec 0 true none,
      .exec 0 true none, .add 0, .add 0, .linkTask, .linkExec true none, .finish false ]

/-- The same when the state of the build with new flags could not be stored, which that
build reports as FAILURE. -/
theorem C01_unstored_and_revert_false :
    (steps exFixed Sys.init preUnstored).done = some ⟨exCfg2, false, false⟩ ∧
    Stale exFixed preUnstored exCfg exOrder exNull (after exFixed preUnstored exCfg exOrder exNull) := by
  refine ⟨by decide +kernel,
    ⟨by decide +kernel, by decide +kernel, by decide, rfl, ⟨false, by decide +kernel⟩⟩, .inr ?_⟩
  exact ⟨b!"/p/src/main.cpp", by decide +kernel, by decide +kernel⟩

/-! ### A source gets its old stamp back -/

def preRestore : List Event :=
  exFiles ++ .start exCfg exOrder :: exFull ++
    [ .edit b!"/p/src/main.cpp" 9, .start exCfg exOrder, .pchTask, .objTask, .exec 0 true none,
      .crash none, .edit b!"/p/src/main.cpp" 1 ]

/-- One configuration.  A source is edited, the build is killed after it compiled it,
and the old source is restored with its time stamp.  The stored state says that
everything is up to date, and the object is that of the edited source. -/
theorem C12_old_stamp_false :
    (∀ c o, Event.start c o ∈ preRestore → c = exCfg) ∧ (∀ e ∈ preRestore, e.tampers = false) ∧
    (∀ pre p t post, preRestore = pre ++ .edit p t :: post → (steps exFixed Sys.init pre).run = none) ∧
    Stale exFixed preRestore exCfg exOrder exNull
      (after exFixed preRestore exCfg exOrder exNull) := by
  refine ⟨?_, by decide, ?_, ⟨by decide +kernel, by decide +kernel, by decide, rfl,
    ⟨false, by decide +kernel⟩⟩, .inr ⟨b!"/p/src/main.cpp", by decide +kernel, by decide +kernel⟩⟩
  · intro c o h
    simp [preRestore, exFiles, exFull] at h
    exact h.1
  · intro pre p t post h
    have h1 : preRestore = (exFiles ++ .start exCfg exOrder :: exFull ++
        [ .edit b!"/p/src/main.cpp" 9, .start exCfg exOrder, .pchTask, .objTask, .exec 0 true none,
          .crash none ]) ++ [.edit b!"/p/src/main.cpp" 1] := rfl
    rcases List.eq_nil_or_concat post with rfl | ⟨post', e, rfl⟩
    · have h2 := (List.append_inj' (h1.symm.trans h) rfl).1
      rw [← h2]
      decide +kernel
    · rw [List.concat_eq_append] at h
      have h2 := (List.append_inj' (h1.symm.trans (h.trans
        (List.append_assoc pre (.edit p t :: post') [e]).symm)) rfl).1
      exact (idleEdits_spec _ _ (by decide +kernel) pre p t post' h2).1

/-! ### A source is listed twice -/

def exNotRepeated : TargetSchema := { exPlain with sources := [⟨b!"/p/src/main.cpp", []⟩] }

def exRepeated : TargetSchema :=
  { exPlain with sources := [⟨b!"/p/src/main.cpp", []⟩, ⟨b!"/p/src/main.cpp", []⟩] }

/-- The first of the two compile commands of the source succeeds, the second one fails
half way and leaves a broken object. -/
def preTwice : List Event :=
  exFiles ++ [ .start exRepeated [b!"/p/src/main.cpp"], .objTask, .exec 0 true none, .add 0,
    .exec 0 false (some (some ⟨b!"partial", [], none, [], [], none⟩)), .linkTask, .finish true ]

/-- A source that is listed twice is compiled twice and is recorded as compiled although
the second command failed.  When the repetition is removed the broken object is linked. -/
theorem C01_repeated_source_false :
    (steps exFixed Sys.init preTwice).done = some ⟨exRepeated, false, true⟩ ∧
    (∀ e ∈ preTwice, e.tampers = false) ∧ (∀ w, Event.crash w ∉ preTwice) ∧
    Entry.storeFailed ∉ (steps exFixed Sys.init preTwice).log ∧
    idleEdits exFixed Sys.init preTwice = true ∧
    Stale exFixed preTwice exNotRepeated [b!"/p/src/main.cpp"]
      [.objTask, .linkTask, .linkExec true none, .finish true]
      (after exFixed preTwice exNotRepeated [b!"/p/src/main.cpp"]
        [.objTask, .linkTask, .linkExec true none, .finish true]) := by
  refine ⟨by decide +kernel, by decide, by simp [preTwice, exFiles], by decide +kernel,
    by decide +kernel,
    ⟨by decide +kernel, by decide +kernel, by decide, rfl, ⟨true, by decide +kernel⟩⟩, .inr ?_⟩
  exact ⟨b!"/p/src/main.cpp", by decide +kernel, by decide +kernel⟩

/-! ### Two sources with one object file -/

def exClash : TargetSchema :=
  { exPlain with sources := [⟨b!"/x.cpp", []⟩, ⟨b!"/p/__/x.cpp", []⟩] }

def clashOrder : List Str := [b!"/x.cpp", b!"/p/__/x.cpp"]

def preClash : List Event := exFiles ++ [.edit b!"/x.cpp" 1, .edit b!"/p/__/x.cpp" 2]

def midClash : List Event :=
  [ .objTask, .exec 0 true none, .exec 0 true none, .add 0, .add 0, .linkTask, .linkExec true none,
    .finish true ]

/-- Two sources, one object file: the object of one of them is missing after the very
first build. -/
theorem C01_object_collision_false : Calm exFixed preClash ∧
    Stale exFixed preClash exClash clashOrder midClash
      (after exFixed preClash exClash clashOrder midClash) := by
  refine ⟨⟨by simp [preClash, exFiles, Event.tampers], by decide +kernel⟩,
    ⟨by decide +kernel, by decide +kernel, by decide, rfl, ⟨true, by decide +kernel⟩⟩, .inr ?_⟩
  exact ⟨b!"/x.cpp", by decide +kernel, by decide +kernel⟩

/-! ### Built files are deleted (C56) -/

/-- C56 is false: an object file is deleted, the next build does nothing and ends in
SUCCESS. -/
theorem C56_deleted_object_false :
    Stale exFixed exTampered exCfg exOrder exNull (after exFixed exTampered exCfg exOrder exNull) ∧
    (after exFixed exTampered exCfg exOrder exNull).objs (objPath exFixed b!"/p/src/main.cpp") = none ∧
    (after exFixed exTampered exCfg exOrder exNull).pch = none ∧
    (after exFixed exTampered exCfg exOrder exNull).bin = none ∧
    (after exFixed exTampered exCfg exOrder exNull).log = [] := by
  refine ⟨⟨⟨by decide +kernel, by decide +kernel, by decide, rfl, ⟨false, by decide +kernel⟩⟩,
    .inr ⟨b!"/p/src/main.cpp", by decide +kernel, by decide +kernel⟩⟩, by decide +kernel,
    by decide +kernel, by decide +kernel, by decide +kernel⟩

/-! ### Another compiler or template (C57) -/

/-- The same target with another C++ compiler. -/
def exFixed2 : Fixed := { exFixed with exe := { exFixed.exe with cppCompiler := b!"g++-14" } }

/-- The same target with another compile template. -/
def exFixed3 : Fixed := { exFixed with
  tcfg := { gccExe with compileCommand := b!"{compiler} -c {input} -o {output}" } }

/-- C57 is false: with another compiler, or with another compile template, a build does
nothing and ends in SUCCESS although the compile commands are different. -/
theorem C57_toolchain_change_false :
    ∀ fx ∈ [exFixed2, exFixed3],
      compileCommand fx exPlain b!"/p/src/main.cpp" ≠ compileCommand exFixed exPlain b!"/p/src/main.cpp" ∧
      let σ₁ := steps exFixed Sys.init (exFiles ++ [.start exPlain exOrder, .objTask,
        .exec 0 true none, .exec 0 true none, .add 0, .add 0, .linkTask, .linkExec true none,
        .finish true])
      let σ₂ := steps fx (step fx σ₁ (.start exPlain exOrder)) [.objTask, .linkTask, .finish true]
      σ₂.done = some ⟨exPlain, true, false⟩ ∧ σ₂.log = [] ∧
      σ₂.objs (objPath fx b!"/p/src/main.cpp")
        ≠ some (cleanObj fx σ₂.files exPlain b!"/p/src/main.cpp") := by
  decide +kernel

/-! ### Templates of the user -/

/-- A compile template that mentions link flags. -/
def exFixed4 : Fixed := { exFixed with
  tcfg := { gccExe with
    compileCommand := b!"{compiler} {compile_flags} {link_flags} -c {input} -o {output}" } }

def exLink : TargetSchema := { exPlain with linkFlags := [b!"-static"] }

def preLink : List Event :=
  exFiles ++ [ .start exPlain exOrder, .objTask, .exec 0 true none, .exec 0 true none, .add 0, .add 0,
    .linkTask, .linkExec true none, .finish true ]

/-- The default arguments let a compile template mention link flags, but a change of
link flags does not recompile: `Shipped` is needed. -/
theorem C01_custom_template_false : Calm exFixed4 preLink ∧
    Stale exFixed4 preLink exLink exOrder [.objTask, .linkTask, .linkExec true none, .finish true]
      (after exFixed4 preLink exLink exOrder
        [.objTask, .linkTask, .linkExec true none, .finish true]) := by
  refine ⟨⟨by simp [preLink, exFiles, Event.tampers], by decide +kernel⟩,
    ⟨by decide +kernel, by decide +kernel, by decide, rfl, ⟨true, by decide +kernel⟩⟩, .inr ?_⟩
  exact ⟨b!"/p/src/main.cpp", by decide +kernel, by decide +kernel⟩

end Verif.Target
