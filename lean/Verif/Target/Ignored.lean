import Verif.Target.Refute
import Verif.Target.ExactProps

/-! # What a target does not notice, in general (C56, C57) -/

namespace Verif.Target
open Verif Verif.Schema

/-- C56 is false of the code in every case: after a successful build, whatever happens to the object
files, the precompiled header and the output, as long as the state file and the tracked files are the
same, a run executes nothing and leaves them as they are.  In particular, what was deleted stays
deleted. -/
theorem C56_ignored_false {fx : Fixed} {σ₀ σ₁ σ₂ σ₃ : Sys} {c : TargetSchema} {o₁ o₂ : List Str}
    {mid₁ mid₂ : List Event} (hn : (paths c.sources).Nodup)
    (h₁ : SuccessfulBuild fx σ₀ c o₁ mid₁ σ₁) (same : SameExcept [] c σ₁ σ₂)
    (h₂ : QuietRun fx σ₂ c o₂ mid₂ σ₃) :
    commands σ₃.log = [] ∧
    (∀ p ∈ paths c.sources, σ₂.objs (objPath fx p) = none → σ₃.objs (objPath fx p) = none) ∧
    (σ₂.pch = none → σ₃.pch = none) ∧ (σ₂.bin = none → σ₃.bin = none) ∧
    ∀ d, σ₃.done = some d → Entry.other ∉ σ₃.log → d.ok = true := by
  obtain ⟨h1, ⟨h2, h3, h4⟩, -, h5⟩ := C04_null_rebuild hn h₁ same h₂
  refine ⟨h1, fun p _ h => by rw [h2]; exact h, fun h => by rw [h3]; exact h,
    fun h => by rw [h4]; exact h, fun d hd ho => ?_⟩
  rw [h5 d hd ho]

/-- C57 is false of the code in every case: after a successful build, a run with any other toolchain,
any other templates and any other configuration of the target, in the same place, executes nothing and keeps what the old
ones made, as long as the lists of the target, the state file and the tracked files are the same. -/
theorem C57_ignored_false {fx fx' : Fixed} {σ₀ σ₁ σ₂ σ₃ : Sys} {c : TargetSchema} {o₁ o₂ : List Str}
    {mid₁ mid₂ : List Event} (hn : (paths c.sources).Nodup)
    (h₁ : SuccessfulBuild fx σ₀ c o₁ mid₁ σ₁) (same : SameExcept [] c σ₁ σ₂)
    (h₂ : QuietRun fx' σ₂ c o₂ mid₂ σ₃) :
    commands σ₃.log = [] ∧ (σ₃.objs = σ₂.objs ∧ σ₃.pch = σ₂.pch ∧ σ₃.bin = σ₂.bin) ∧
    ∀ d, σ₃.done = some d → Entry.other ∉ σ₃.log → d.ok = true := by
  obtain ⟨s, hl, hc⟩ := h₁.current hn
  obtain ⟨h1, h2, -, h3⟩ := h₂.null hn (s := s) (by rw [same.state]; exact hl)
    (hc.congr fun p hp => same.files p hp (by simp))
  exact ⟨h1, h2, fun d hd ho => by rw [h3 d hd ho]⟩

/-- The hypotheses are met by a target that was built and is then run with another compiler. -/
example : (paths exPlain.sources).Nodup ∧
    ∃ σ₀ σ₁ σ₃ mid₁ mid₂, SuccessfulBuild exFixed σ₀ exPlain exOrder mid₁ σ₁ ∧
      SameExcept [] exPlain σ₁ σ₁ ∧ QuietRun exFixed2 σ₁ exPlain exOrder mid₂ σ₃ ∧
      σ₃.done = some ⟨exPlain, true, false⟩ ∧ σ₃.log = [] := by
  refine ⟨by decide, steps exFixed Sys.init exFiles, _, _, [.objTask, .exec 0 true none,
    .exec 0 true none, .add 0, .add 0, .linkTask, .linkExec true none, .finish true],
    [.objTask, .linkTask, .finish true],
    ⟨by decide +kernel, by decide +kernel, by decide, rfl, ⟨true, by decide +kernel⟩⟩,
    ⟨rfl, fun _ _ _ => rfl⟩,
    ⟨by decide +kernel, by decide +kernel, by decide, rfl⟩, by decide +kernel, by decide +kernel⟩

end Verif.Target
