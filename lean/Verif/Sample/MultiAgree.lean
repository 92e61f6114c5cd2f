import Verif.Sample.MultiOutcome
import Verif.Reg.AgreeMain

/-!
# The schedule does not matter for scripts with several toolchains (C115)
-/

namespace Verif.Sample
open Verif Verif.Schema Verif.Target Verif.Toolchain Verif.Path
open Verif.Reg (Reaches Graph ScriptTarget ScriptGen Undisturbed SameSetup Behaviour Follows Timeless Carried
  Unstored Accepts Version)
open Verif.Boot (Filled)

variable {junk : Str → Nat → TargetSchema} {p : Project} {list : Str → Option (List Str)}
  {ord : List Str → List Str} {m : Multi} {gs : List GenMade} {r : List (Part × List Filled)}

/-- Generators of the script do not throw when they compare their commands with the stored ones. -/
theorem script_accepts (h : (m.with allOn).run junk p list ord = some (gs, r))
    (hn : NeatMulti (m.with allOn)) (hp : MultiPlace p (m.with allOn)) (hord : ∀ l, (ord l).Perm l)
    (hout : OutsideAll p (m.with allOn) gs r) (hf : ∀ g ∈ gs, Generator.Fits g.commands)
    (order : Str → List Str) {hist : List Reg.WEvent} {w : Reg.World} {v : Version} {s : Str → Reg.Setup}
    (hw : w = (Reg.World.init (Reg.kindsOf (multiTargets r order))).steps hist)
    (hv : choiceOf m false gs r order v)
    (hs : ∀ j ∈ v.script.graph.ids,
      SameSetup (s j) (Reg.setupWith (multiTargets r order) (scriptGens gs) j))
    (hfile : ∀ e ∈ hist, FileGens gs e) : ∀ j ∈ v.script.graph.ids, Accepts (w.comps j) (s j) := by
  have hch := choices_sound h hn hp hord hout order false
  intro j hj
  have hsj := hs j hj
  rcases Reg.mem_names ((hch.accepted v hv).2.2.mem_iff.1 hj) with ⟨t, ht, rfl⟩ | ⟨x, hx, rfl⟩
  · rw [(Reg.target_eq hch.names ((hch.sub v hv).1 t ht)).2] at hsj
    cases hc : s t.id with
    | gen c => rw [hc] at hsj; exact hsj.elim
    | target c o => cases w.comps t.id <;> trivial
  · have hx := (hch.sub v hv).2 ▸ hx
    rw [(Reg.gen_eq hch.names hx).2] at hsj
    cases hc : s x.name with
    | target c o => rw [hc] at hsj; exact hsj.elim
    | gen c =>
      rw [hc] at hsj
      have hsj : c = x.cfg := hsj
      cases hσ : w.comps x.name with
      | target fx σ => trivial
      | gen σ =>
        obtain ⟨g, hg, rfl⟩ := List.mem_map.1 hx
        obtain ⟨cmd, ins, outs, h3⟩ := gen_data (multi_parts h).1 hg
        subst hsj
        exact file_accepts (hf g hg) h3 fun x prev =>
          stored_commands (kinds := Reg.kindsOf (multiTargets r order)) (hist := hist) hfile hg
            (by rw [← hw]; exact hσ)

/-- C115: a script with file generators and any number of toolchains, whose text keeps to the rules of
`NeatMulti`, is run twice from the same state, with the same toolchains on and under two schedules.  Commands
behave in the same way in both builds.  If one build succeeds, then no command of the other one fails, and
the other one executes nothing else; if both succeed, then they execute the same commands, and every file is
the same version in both or was written in both.  If the states can be stored, then both succeed or both
fail. -/
theorem C115_script (h : (m.with allOn).run junk p list ord = some (gs, r))
    (hn : NeatMulti (m.with allOn)) (hp : MultiPlace p (m.with allOn)) (hord : ∀ l, (ord l).Perm l)
    (hout : OutsideAll p (m.with allOn) gs r) (hf : ∀ g ∈ gs, Generator.Fits g.commands)
    (order : Str → List Str) {hist midA midB : List Reg.WEvent} {w wA wB : Reg.World}
    {c : Str → Reg.Condition} {s : Str → Reg.Setup} {B : Behaviour}
    (hw : w = (Reg.World.init (Reg.kindsOf (multiTargets r order))).steps hist)
    (ht : ∀ e ∈ hist, Timeless e) (hfile : ∀ e ∈ hist, FileGens gs e)
    (hs : ∀ j ∈ (m.with c).graph.ids,
      SameSetup (s j) (Reg.setupWith (multiTargets r order) (scriptGens gs) j))
    (hA : Undisturbed w (m.with c).graph s midA wA) (fA : Follows B (w.step (.launch (m.with c).graph s)) midA)
    (hB : Undisturbed w (m.with c).graph s midB wB) (fB : Follows B (w.step (.launch (m.with c).graph s)) midB)
    (jA : (wA.step .join).active = false) :
    ((wA.step .join).result = some true → ∀ j ∈ (m.with c).graph.ids, ∀ x b, Carried (wB.comps j) x b →
      b = true ∧ Carried (wA.comps j) x true) ∧
    ((wB.step .join).active = false →
      ((wA.step .join).result = some true → (wB.step .join).result = some true →
        (∀ j ∈ (m.with c).graph.ids, ∀ x b, Carried (wA.comps j) x b ↔ Carried (wB.comps j) x b) ∧
        ∀ q, wA.files q = wB.files q ∨
          (∃ t, wA.files q = some t ∧ t ∉ w.used q) ∧ ∃ t, wB.files q = some t ∧ t ∉ w.used q) ∧
      ((∀ j ∈ (m.with c).graph.ids, ¬ Unstored (wA.comps j)) →
        (∀ j ∈ (m.with c).graph.ids, ¬ Unstored (wB.comps j)) →
        (wA.step .join).result = (wB.step .join).result)) := by
  have hch := choices_sound h hn hp hord hout order false
  have hr := gens_reflexive h hf
  obtain ⟨v, hv, hg⟩ := choice_of (gs := gs) (r := r) hn hp order c
  rw [← hg] at hs hA fA hB fB ⊢
  have rA := hch.runs hv hs hw hA
  have rB := hch.runs hv hs hw hB
  have hreg : ∀ j ∈ v.script.graph.ids, Reg.Regular (s j) := fun j hj => hch.regular hr hv hs hj
  have hacc := script_accepts h hn hp hord hout hf order hw hv hs hfile
  refine ⟨fun okA => Reg.C115_commands hw ht hreg rA fA rB fB jA okA, fun jB => ⟨fun okA okB => ⟨?_, ?_⟩, ?_⟩⟩
  · exact Reg.C115_same hw ht hreg rA fA rB fB jA okA jB okB
  · exact Reg.C115_files hw ht hreg rA fA rB fB jA okA jB okB
  · exact Reg.C115_result hw ht hreg hacc rA fA rB fB jA jB

end Verif.Sample
