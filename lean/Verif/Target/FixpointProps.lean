import Verif.Target.ExactProps

/-! # When a build is followed by runs that do nothing, exactly (C59) -/

namespace Verif.Target
open Verif Verif.Schema

/-- C59, exactly: after a successful build, a successful run of the same configuration on the same files
runs no command if and only if no source is listed twice; and it says of itself that nothing was built if and
only if no source is listed twice.  `ho` says that the run meets no error outside of its own commands. -/
theorem C59_exact {fx : Fixed} {σ₀ σ₁ σ₂ : Sys} {c : TargetSchema} {o₁ o₂ : List Str}
    {mid₁ mid₂ : List Event} {d : Done} (h₁ : SuccessfulBuild fx σ₀ c o₁ mid₁ σ₁)
    (h₂ : QuietRun fx σ₁ c o₂ mid₂ σ₂) (hd : σ₂.done = some d) (hok : d.ok = true)
    (ho : Entry.other ∉ σ₂.log) :
    (commands σ₂.log = [] ↔ (paths c.sources).Nodup) ∧ (d.built = false ↔ (paths c.sources).Nodup) := by
  by_cases hn : (paths c.sources).Nodup
  · obtain ⟨h3, h4⟩ := C59_fixpoint_partial hn h₁ h₂ hd ho
    simp [h3, h4, hn]
  · obtain ⟨-, h3, h4⟩ := C59_repeated_source_false hn h₂ hd hok
    simp only [h4, hn, iff_false, reduceCtorEq, not_false_eq_true, and_true]
    intro he
    have : Entry.link true ∈ commands σ₂.log := by
      rw [commands]
      exact List.mem_filter.2 ⟨h3, rfl⟩
    rw [he] at this
    cases this

/-- No source is listed twice. -/
example : commands (steps exFixed exBuilt (.start exCfg exOrder :: exNull)).log = [] :=
  (C59_exact exBuilt_build (exRun (c := exCfg) (o := exOrder) (mid := exNull) (by decide +kernel))
    (d := ⟨exCfg, true, false⟩) (by decide +kernel) rfl (by decide +kernel)).1.2 (by decide)

/-- `util.c` is listed twice. -/
example : commands (steps exFixed exTwiceBuilt (.start exTwice exOrder :: exOne)).log ≠ [] := by
  have hb : SuccessfulBuild exFixed (steps exFixed Sys.init exFiles) exTwice exOrder exTwiceFull
      exTwiceBuilt :=
    ⟨by decide +kernel, by decide +kernel, by decide +kernel, by simp [exTwiceBuilt, steps],
      true, by decide +kernel⟩
  intro h
  exact absurd ((C59_exact hb (exRun (c := exTwice) (o := exOrder) (mid := exOne) (by decide +kernel))
    (d := ⟨exTwice, true, true⟩) (by decide +kernel) rfl (by decide +kernel)).1.1 h) (by decide +kernel)

end Verif.Target
