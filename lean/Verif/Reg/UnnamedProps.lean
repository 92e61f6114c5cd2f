import Verif.Reg.Unnamed
import Verif.Reg.WorldExamples

/-! # Files that no builder names: theorems -/

namespace Verif.Reg
open Verif Verif.Schema
open Verif.Target (Fixed BinArt objPath outputPath upd paths)

/-- **C117** Changes of files that the scripts neither name nor write, at any moment of any history, make no
difference: leave them out, and every builder has done the same and left the same. -/
theorem C117_unnamed (P : Str → Bool) (kinds : Str → Kind) (hist : List WEvent) (h : Within P kinds hist) :
    SameWithin P ((World.init kinds).steps hist) ((World.init kinds).steps (hist.filter (·.within P))) := by
  have := Beside.steps hist (beside_init P kinds) h
  exact ⟨fun p hp => (this.files p hp).1.symm, this.content.symm, fun j => (this.near j).same, this.active.symm,
    this.graph.symm, this.begun.symm, this.ok.symm, this.result.symm, this.after.symm⟩

/-- **C117** Two histories that differ in changes of such files only. -/
theorem C117_two (P : Str → Bool) (kinds : Str → Kind) (hist hist' : List WEvent) (h : Within P kinds hist)
    (same : hist.filter (·.within P) = hist'.filter (·.within P)) :
    SameWithin P ((World.init kinds).steps hist) ((World.init kinds).steps hist') := by
  have h' : Within P kinds hist' := by
    intro g s hm
    refine h g s ?_
    have : WEvent.launch g s ∈ hist'.filter (·.within P) := List.mem_filter.2 ⟨hm, rfl⟩
    rw [← same] at this
    exact (List.mem_filter.1 this).1
  have e := C117_unnamed P kinds hist h
  rw [same] at e
  exact e.trans (C117_unnamed P kinds hist' h').symm

/-! ## An example

The library of `WorldExamples` includes a header that it was not given with `AddHeader`.  The header is edited
between two builds: the second build does what it does without the edit. -/

def exSpare : Str → Bool := fun p => p ≠ b!"/p/a.h"

def exSpareHist (l : List WEvent) : List WEvent := exWFiles ++ exWBuild ++ [.join] ++ l ++
  [.launch exWGraph exSetup, .begin b!"gen", .task b!"gen" (.g .begin) [], .task b!"gen" (.g (.task b!"v")) [],
    .task b!"gen" (.g (.finish [b!"v"] true)) [], .begin b!"lib", .task b!"lib" (.t .objTask) []]

theorem exSpare_within (l : List WEvent) (h : ∀ e ∈ l, ∃ t, e = .edit b!"/p/a.h" t) :
    Within exSpare exKinds (exSpareHist l) := by
  intro g s hm
  have : g = exWGraph ∧ s = exSetup := by
    simp only [exSpareHist, exWFiles, exWBuild, exGenTasks, exTargetTasks, List.mem_append, List.mem_cons,
      List.not_mem_nil, reduceCtorEq, false_or, or_false, WEvent.launch.injEq] at hm
    rcases hm with (hm | hm) | hm
    · exact hm
    · obtain ⟨t, ht⟩ := h _ hm; cases ht
    · exact hm
  obtain ⟨rfl, rfl⟩ := this
  have : (exWGraph.ids.all fun j => ((exKinds j).files (exSetup j)).all exSpare) = true := by decide +kernel
  simpa only [List.all_eq_true] using this

/-- The edit is not noticed: the source is not compiled again. -/
example : SameWithin exSpare (exW0.steps (exSpareHist [.edit b!"/p/a.h" 9])) (exW0.steps (exSpareHist [])) :=
  C117_two exSpare exKinds _ _ (exSpare_within _ (by simp)) (by
    simp [exSpareHist, exWFiles, exWBuild, exGenTasks, exTargetTasks, WEvent.within, exSpare])

example : (match (exW0.steps (exSpareHist [.edit b!"/p/a.h" 9])).comps b!"lib" with
    | .target _ σ => σ.log
    | .gen _ => []) = [] ∧
    (match (exW0.steps (exSpareHist [.edit b!"/p/a.cpp" 9])).comps b!"lib" with
    | .target _ σ => (σ.run.map (·.pending.map (·.path))).getD []
    | .gen _ => []) = [b!"/p/a.cpp"] := by decide +kernel

end Verif.Reg
