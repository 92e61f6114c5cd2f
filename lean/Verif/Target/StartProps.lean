import Verif.Target.SoundProps
import Verif.Target.CommandProps

/-! # A target whose commands cannot all be constructed is not built (C25) -/

namespace Verif.Target
open Verif Verif.Command Verif.Schema

/-- Every command of the target can be constructed: that of each source, that of the precompiled
header if there is one, and that of the link. -/
def AllConstructed (fx : Fixed) (c : TargetSchema) (order : List Str) : Prop :=
  (∀ s ∈ paths c.sources, ∃ t, compileCommand fx c s = .value t) ∧
  (c.pchs ≠ [] → ∃ t, pchCommand fx c = .value t) ∧
  ∃ t, linkCommand fx c order = .value t

theorem isValue_iff (o : Out) : Out.isValue o = true ↔ ∃ t, o = .value t := by
  cases o <;> simp [Out.isValue]

theorem buildable_iff (fx : Fixed) (c : TargetSchema) (order : List Str) :
    buildable fx c order = true ↔ AllConstructed fx c order := by
  simp only [buildable, AllConstructed, Bool.and_eq_true, List.all_eq_true, Bool.or_eq_true,
    isValue_iff, decide_eq_true_eq, and_assoc]
  refine and_congr Iff.rfl (and_congr ⟨?_, ?_⟩ Iff.rfl)
  · rintro (h | h) hn
    · exact absurd h hn
    · exact h
  · intro h
    by_cases hc : c.pchs = []
    · exact .inl hc
    · exact .inr (h hc)

/-- C25: a build of a target starts only when every one of its commands can be constructed.  If a
single one cannot, nothing at all changes: no command runs and no file is written. -/
theorem C25_start (fx : Fixed) (σ : Sys) (c : TargetSchema) (order : List Str)
    (hr : σ.run = none) :
    (¬ AllConstructed fx c order → step fx σ (.start c order) = σ) ∧
    (AllConstructed fx c order → order.Perm (distinct (paths c.sources)) →
      ∃ r, (step fx σ (.start c order)).run = some r ∧ r.cfg = c) := by
  have e : step fx σ (.start c order) = startRun fx σ c order := rfl
  rw [e, startRun, hr]
  refine ⟨fun h => ?_, fun h hp => ?_⟩
  · rw [← buildable_iff, Bool.not_eq_true] at h
    simp [h]
  · rw [← buildable_iff] at h
    have hp' : order.isPerm (distinct (srcPaths c)) = true := List.isPerm_iff.2 hp
    simp [h, hp']

/-- A target without sources has only a link command.  With a placeholder that has no value in
the template for sources, the example is not built. -/
example : AllConstructed exFixed exUser [b!"/p/src/main.cpp"] ∧
    AllConstructed exFixed { exUser with sources := [] } [] ∧
    ¬ AllConstructed
      { exFixed with tcfg := { exFixed.tcfg with compileCommand := b!"{compiler} {speed} {input}" } }
      exUser [b!"/p/src/main.cpp"] := by
  simp only [← buildable_iff]
  decide +kernel

end Verif.Target
