import Verif.Reg.AgreeProps
import Verif.Reg.Dated

/-!
# C115: the schedule does not matter

The same script is run twice from the same state of the files, each time under some schedule of its
tasks. A command or callback succeeds or not, and writes its files, in the same way in both builds.
-/

namespace Verif.Reg
open Verif Verif.Schema Verif.Json
open Verif.Target (Fixed BinArt objPath outputPath upd paths)

variable {kinds : Str → Kind} {hist midA midB : List WEvent} {w wA wB : World} {g : Graph} {s : Str → Setup}
  {B : Behaviour}

/-- The version of a file that all builders have left alone is the same at the end of both builds; a file
that is written is new in both. -/
theorem Facts.alike_all (hA : Facts B w g s wA) (hB : Facts B w g s wB) (hreg : ∀ j ∈ g.ids, Regular (s j))
    (eA : ∀ j ∈ g.ids, Ended wA j) (eB : ∀ j ∈ g.ids, Ended wB j)
    (same : ∀ j ∈ g.ids, ∀ x, Carried (wA.comps j) x true ↔ Carried (wB.comps j) x true) (p : Str) :
    Alike w.used wA.files wB.files p := by
  have hfail : ∀ {w'}, Facts B w g s w' → (∀ j ∈ g.ids, Ended w' j) →
      ¬ ∃ a ∈ w'.graph.ids, ∃ x, Carried (w'.comps a) x false ∧ p ∈ outputs (w'.comps a) (w'.setup a) := by
    rintro w' h he ⟨a, ha, x, hd, -⟩
    rw [h.graph] at ha
    exact (he a ha).clean h hreg (did_own hd)
  have key : ∀ {w' w''}, Facts B w g s w' → Facts B w g s w'' → (∀ j ∈ g.ids, Ended w' j) →
      (∀ j ∈ g.ids, Ended w'' j) → (∀ j ∈ g.ids, ∀ x, Carried (w'.comps j) x true → Carried (w''.comps j) x true) →
      (∃ a ∈ g.ids, ∃ x, Carried (w'.comps a) x true ∧ p ∈ B.writes a x) →
      (∃ t, w'.files p = some t ∧ t ∉ w.used p) ∧ ∃ t, w''.files p = some t ∧ t ∉ w.used p := by
    rintro w' w'' h h' he he' hs ⟨a, ha, x, hd, hw⟩
    have h1 := h.trail.fresh p ⟨a, by rw [h.graph]; exact ha, x, hd, hw⟩
    have h2 := h'.trail.fresh p ⟨a, by rw [h'.graph]; exact ha, x, hs a ha x hd, hw⟩
    exact ⟨h1.resolve_right (hfail h he), h2.resolve_right (hfail h' he')⟩
  rcases hA.trail.kept p with h1 | h1 | h1
  · rcases hB.trail.kept p with h2 | h2 | h2
    · exact .inl (h1.trans h2.symm)
    · rw [hB.graph] at h2
      obtain ⟨k1, k2⟩ := key hB hA eB eA (fun a ha x => (same a ha x).2) h2
      exact .inr ⟨k2, k1⟩
    · exact absurd h2 (hfail hB eB)
  · rw [hA.graph] at h1
    exact .inr (key hA hB eA eB (fun a ha x => (same a ha x).1) h1)
  · exact absurd h1 (hfail hA eA)

theorem both_facts (hw : w = (World.init kinds).steps hist) (ht : ∀ e ∈ hist, Timeless e)
    (hA : RunsScript w g s midA wA) (fA : Follows B (w.step (.launch g s)) midA)
    (hB : RunsScript w g s midB wB) (fB : Follows B (w.step (.launch g s)) midB) :
    Facts B w g s wA ∧ Facts B w g s wB ∧ ∀ j ∈ g.ids, DatedState w.used (w.comps j) := by
  have hI : BInv w := by rw [hw]; exact bInv_steps hist _ (bInv_init kinds)
  refine ⟨hA.facts hI fA, hB.facts hI fB, fun j _ => ?_⟩
  have := dated_history (kinds := kinds) ht j
  rw [← hw] at this
  rwa [(hI.views j).2] at this

/-- If a build succeeds, then under any other schedule, and up to any moment, no command fails and only
commands are executed that are executed in this build. -/
theorem C115_commands (hw : w = (World.init kinds).steps hist) (ht : ∀ e ∈ hist, Timeless e)
    (hreg : ∀ j ∈ g.ids, Regular (s j))
    (hA : RunsScript w g s midA wA) (fA : Follows B (w.step (.launch g s)) midA)
    (hB : RunsScript w g s midB wB) (fB : Follows B (w.step (.launch g s)) midB)
    (jA : (wA.step .join).active = false) (okA : (wA.step .join).result = some true) :
    ∀ j ∈ g.ids, ∀ x b, Carried (wB.comps j) x b → b = true ∧ Carried (wA.comps j) x true := by
  obtain ⟨h1, h2, hd⟩ := both_facts hw ht hA fA hB fB
  intro j hj x b hx
  have hx' := (h1.compare h2 hreg hd (h1.over_ended jA okA) hj).1 x b hx
  refine ⟨?_, hx'⟩
  rw [h2.trail.outcome j (by rw [h2.graph]; exact hj) x b hx]
  exact (h1.trail.outcome j (by rw [h1.graph]; exact hj) x true hx').symm

/-- Two builds that succeed execute the same commands. -/
theorem C115_same (hw : w = (World.init kinds).steps hist) (ht : ∀ e ∈ hist, Timeless e)
    (hreg : ∀ j ∈ g.ids, Regular (s j))
    (hA : RunsScript w g s midA wA) (fA : Follows B (w.step (.launch g s)) midA)
    (hB : RunsScript w g s midB wB) (fB : Follows B (w.step (.launch g s)) midB)
    (jA : (wA.step .join).active = false) (okA : (wA.step .join).result = some true)
    (jB : (wB.step .join).active = false) (okB : (wB.step .join).result = some true) :
    ∀ j ∈ g.ids, ∀ x b, Carried (wA.comps j) x b ↔ Carried (wB.comps j) x b := by
  intro j hj x b
  have k1 := C115_commands hw ht hreg hA fA hB fB jA okA j hj x
  have k2 := C115_commands hw ht hreg hB fB hA fA jB okB j hj x
  constructor
  · intro h; obtain ⟨rfl, h'⟩ := k2 b h; exact h'
  · intro h; obtain ⟨rfl, h'⟩ := k1 b h; exact h'

/-- Two builds that succeed leave the same files: each file is the same version as in the other build or,
in both, a version that it did not have before. -/
theorem C115_files (hw : w = (World.init kinds).steps hist) (ht : ∀ e ∈ hist, Timeless e)
    (hreg : ∀ j ∈ g.ids, Regular (s j))
    (hA : RunsScript w g s midA wA) (fA : Follows B (w.step (.launch g s)) midA)
    (hB : RunsScript w g s midB wB) (fB : Follows B (w.step (.launch g s)) midB)
    (jA : (wA.step .join).active = false) (okA : (wA.step .join).result = some true)
    (jB : (wB.step .join).active = false) (okB : (wB.step .join).result = some true) (p : Str) :
    wA.files p = wB.files p ∨
      (∃ t, wA.files p = some t ∧ t ∉ w.used p) ∧ ∃ t, wB.files p = some t ∧ t ∉ w.used p := by
  obtain ⟨h1, h2, -⟩ := both_facts hw ht hA fA hB fB
  exact h1.alike_all h2 hreg (h1.over_ended jA okA) (h2.over_ended jB okB)
    (fun j hj x => C115_same hw ht hreg hA fA hB fB jA okA jB okB j hj x true) p

/-- Whether a build succeeds does not depend on the schedule, as long as the states can be stored. -/
theorem C115_result (hw : w = (World.init kinds).steps hist) (ht : ∀ e ∈ hist, Timeless e)
    (hreg : ∀ j ∈ g.ids, Regular (s j)) (hacc : ∀ j ∈ g.ids, Accepts (w.comps j) (s j))
    (hA : RunsScript w g s midA wA) (fA : Follows B (w.step (.launch g s)) midA)
    (hB : RunsScript w g s midB wB) (fB : Follows B (w.step (.launch g s)) midB)
    (jA : (wA.step .join).active = false) (jB : (wB.step .join).active = false)
    (uA : ∀ j ∈ g.ids, ¬ Unstored (wA.comps j)) (uB : ∀ j ∈ g.ids, ¬ Unstored (wB.comps j)) :
    (wA.step .join).result = (wB.step .join).result := by
  obtain ⟨h1, h2, hd⟩ := both_facts hw ht hA fA hB fB
  obtain ⟨-, r1⟩ := join_over h1.pinv.active jA
  obtain ⟨-, r2⟩ := join_over h2.pinv.active jB
  have key : ∀ {w' w''}, Facts B w g s w' → Facts B w g s w'' → (w'.step .join).active = false →
      (w'.step .join).result = some w'.ok → (∀ j ∈ g.ids, ¬ Unstored (w''.comps j)) →
      w'.ok = true → w''.ok = true := by
    intro w' w'' k1 k2 j' r' u' ok'
    exact k1.succeeds k2 hreg hd hacc (k1.over_ended j' (by rw [r', ok'])) u'
  rw [r1, r2]
  have a := key h1 h2 jA r1 uB
  have b := key h2 h1 jB r2 uA
  cases hA' : wA.ok <;> cases hB' : wB.ok <;> simp_all

end Verif.Reg
