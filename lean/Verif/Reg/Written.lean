import Verif.Reg.WorldSpec
import Verif.Target.Examples

/-! # The files that commands name as their outputs may be written (C40) -/

namespace Verif.Reg
open Verif Verif.Schema
open Verif.Target (Fixed objPath outputPath)

/-- C40: the model of several builders lets every step of a target write each file that its command
line names as an output, and the generated files that its command line names as inputs. -/
theorem C40_written (fx : Fixed) (σ : Target.Sys) (r : Target.Run) (hr : σ.run = some r) (ok : Bool) :
    (r.phase = .pchRun → ∀ junk u, ∀ p ∈
      [Path.pchHeaderPath fx.buildDir fx.cfg.pchHeaderExt,
       Path.pchSourcePath fx.buildDir fx.cfg.pchHeaderExt (Target.containsCpp fx u),
       Path.pchCompilePath fx.buildDir fx.cfg.pchHeaderExt fx.cfg.pchCompileExt,
       Path.pchObjectPath fx.buildDir fx.cfg.pchHeaderExt fx.cfg.objExt],
      p ∈ mayWrite (.target fx σ) (.t (.pchExec ok junk))) ∧
    (r.phase = .objRun → ∀ junk k i, r.pending[k]? = some i →
      objPath fx i.path ∈ mayWrite (.target fx σ) (.t (.exec k ok junk))) ∧
    (r.phase = .linkRun → ∀ junk,
      ∀ p ∈ [outputPath fx, outputPath fx ++ b!".a", outputPath fx ++ b!".dll"],
        p ∈ mayWrite (.target fx σ) (.t (.linkExec ok junk))) := by
  refine ⟨fun hp junk u p hm => ?_, fun hp junk k i hi => ?_, fun hp junk p hm => ?_⟩
  · simp only [mayWrite, hr, hp, if_true, pchFiles]
    simp only [List.mem_cons, List.not_mem_nil, or_false] at hm ⊢
    cases h : Target.containsCpp fx u <;> rw [h] at hm <;>
      rcases hm with rfl | rfl | rfl | rfl <;> simp
  · simp [mayWrite, hr, hp, hi]
  · simp only [mayWrite, hr, hp, if_true, linkFiles]
    exact hm

/-- A target with a precompiled header that is about to compile it. -/
example : Path.pchSourcePath Target.exFixed.buildDir Target.exFixed.cfg.pchHeaderExt true ∈
    mayWrite (.target Target.exFixed (Target.steps Target.exFixed Target.Sys.init
      (Target.exFiles ++ [.start Target.exCfg Target.exOrder, .pchTask]))) (.t (.pchExec true none)) := by
  decide +kernel

end Verif.Reg
