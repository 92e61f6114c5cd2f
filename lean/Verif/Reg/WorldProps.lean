import Verif.Reg.Content
import Verif.Reg.Schedule
import Verif.Reg.WorldExamples

/-! # C40: builds of several targets -/

namespace Verif.Reg
open Verif Verif.Schema
open Verif.Target (Fixed BinArt objPath outputPath upd paths Clean cleanBin)

/-- `RunBuild` has returned in this step, and said that the build succeeded. -/
theorem join_result {w : World} (ha : w.active = true)
    (hr : (w.step .join).result = some true) (h0 : w.result = none) :
    w.over = true ∧ w.ok = true := by
  revert hr
  simp only [World.step, ha, Bool.true_and]
  split
  · rename_i ho; intro h; exact ⟨ho, by simpa using h⟩
  · rw [h0]; simp

theorem result_none {kinds : Str → Kind} {evs : List WEvent} :
    ((World.init kinds).steps evs).active = true → ((World.init kinds).steps evs).result = none := by
  have key : ∀ (evs : List WEvent) (w : World), (w.active = true → w.result = none) →
      (w.steps evs).active = true → (w.steps evs).result = none := by
    intro evs
    induction evs with
    | nil => intro w h; exact h
    | cons e l ih =>
      intro w h
      refine ih _ ?_
      cases e with
      | task id e ws =>
        simp only [World.step]
        split
        · rw [task_eq]
          obtain h1 := writes_frame ws (w.stepped id e ws)
          intro ha
          simp only [h1] at ha ⊢
          exact h ha
        · exact h
      | _ => simp only [World.step]; try split
             all_goals first | exact h | simp
  exact key evs _ (by simp [World.init])

/-- A build that returned with success, after any history of builds of any build scripts
that keep to the rules, leaves every builder of the script up to date: all its outputs come
from its present configuration and from the present versions of its input files, those
that other builders of the process have made included. -/
theorem C40_up_to_date_partial {r : Rules} {kinds : Str → Kind} {evs : List WEvent} {w : World}
    (hw : w = (World.init kinds).steps evs) (hk : ShippedAll kinds) (hs : r.Sound)
    (hal : AllWAllowed r (World.init kinds) evs) (ha : w.active = true) (hcalm : w.calm = true)
    (hres : (w.step .join).result = some true) :
    ∀ j ∈ w.graph.ids, UpToDate r j (w.setup j) ((w.step .join).comps j) := by
  have hI : WInv r w := hw ▸ wInv_steps hs evs _ (wInv_init hk) hal
  obtain ⟨ho, hok⟩ := join_result ha hres (by rw [hw] at ha ⊢; exact result_none ha)
  obtain ⟨hv, hc, -⟩ := hI.plan ha
  intro j hj
  have hf := over_finished hv hc ho j hj
  simp only [World.finished, Bool.and_eq_true, decide_eq_true_eq, Bool.not_eq_true'] at hf
  have ht := hI.track ha j hj
  rw [hcalm, hok] at ht
  have : (w.step .join).comps j = w.comps j := by
    simp only [World.step, ha, ho, Bool.and_self, if_true, if_pos hj]
    exact kill_idle _ _ _ hf.2
  rw [this]
  exact ht.upToDate hf.2

/-- The views of the builders agree with the disk. -/
theorem views_steps {kinds : Str → Kind} {evs : List WEvent} {w : World}
    (hw : w = (World.init kinds).steps evs) (j : Str) : (w.comps j).files = w.files :=
  (hw ▸ ((bInv_steps evs _ (bInv_init kinds)).views j).1)

/-- The target `b` was linked with the version of the file `p` that is on the disk, and this
file holds what the last link command of the target `a` made. -/
def LinkedWith (w : World) (a b p : Str) : Prop :=
  ∃ (t : Nat) (binA binB : BinArt), w.files p = some t ∧
    (w.comps b).bin = some binB ∧ (p, some (Json.digits t)) ∈ binB.libs ∧
    (w.comps a).bin = some binA ∧ w.content p t = some binA

theorem linked_of_clean {w : World} {a b p : Str} {c : TargetSchema} {o : List Str}
    {r : Rules} (hh : Holds a p w) (hview : (w.comps b).files = w.files)
    (hua : ∃ fx σ, w.comps a = .target fx σ ∧ σ.bin.isSome = true)
    (hub : UpToDate r b (.target c o) (w.comps b)) (hp : p ∈ paths c.libs) : LinkedWith w a b p := by
  obtain ⟨fa, σa, h1, h2, h3, h4⟩ := hh
  obtain ⟨fa', σa', g1, g2⟩ := hua
  rw [h1] at g1
  simp only [Comp.target.injEq] at g1
  rw [← g1.2] at g2
  obtain ⟨binA, hbin⟩ := Option.isSome_iff_exists.1 g2
  cases hf : w.files p with
  | none => rw [h3 hf] at hbin; simp at hbin
  | some t =>
    obtain ⟨-, h5⟩ := h4 t hf
    cases hb : w.comps b with
    | gen σ => rw [hb] at hub; exact hub.elim
    | target fb σb =>
      rw [hb] at hub hview
      obtain ⟨order, -, hclean⟩ := hub.bin
      refine ⟨t, binA, cleanBin fb σb.files c order, hf, ?_, ?_, ?_, ?_⟩
      · rw [hb]; exact hclean
      · obtain ⟨i, hi, rfl⟩ := List.mem_map.1 hp
        have hv : σb.files = w.files := hview
        refine List.mem_map.2 ⟨i, hi, ?_⟩
        simp only [Target.version, hv, hf, Option.map_some]
      · rw [h1]; exact hbin
      · rw [h5]; exact hbin

theorem join_frame (w : World) : (w.step .join).files = w.files ∧
    (w.step .join).content = w.content := by
  simp only [World.step]
  split <;> exact ⟨rfl, rfl⟩

theorem upToDate_bin {r : Rules} {a : Str} {s : Setup} {c : Comp} {fx : Fixed} {σ : Target.Sys}
    (h : UpToDate r a s c) (hc : c = .target fx σ) : σ.bin.isSome = true := by
  subst hc
  cases s with
  | gen c => exact h.elim
  | target c o =>
    obtain ⟨o', -, h1⟩ := h.bin
    rw [h1]; rfl

/-- C40: when a target `b` of the script has the output of a target `a` of the script among
its libraries (`AddLibDep`), then after a build that returned with success `b` is linked with
the present output of `a`, and this output is the result of the last link of `a`, which is up
to date. -/
theorem C40_linked_partial {r : Rules} {kinds : Str → Kind} {evs : List WEvent} {w : World}
    {a b : Str} {fa : Fixed} {c : TargetSchema} {o : List Str}
    (hw : w = (World.init kinds).steps evs) (hk : ShippedAll kinds) (hs : r.Sound)
    (hal : AllWAllowed r (World.init kinds) evs) (ha : w.active = true) (hcalm : w.calm = true)
    (hres : (w.step .join).result = some true)
    (hia : a ∈ w.graph.ids) (hib : b ∈ w.graph.ids) (hfa : kinds a = .target fa)
    (hcb : w.setup b = .target c o) (hp : outputPath fa ∈ paths c.libs)
    (hkeep : AllKeeps a (outputPath fa) (World.init kinds) evs) :
    LinkedWith (w.step .join) a b (outputPath fa) ∧
      UpToDate r a (w.setup a) ((w.step .join).comps a) := by
  have hall := C40_up_to_date_partial hw hk hs hal ha hcalm hres
  have hh : Holds a (outputPath fa) (w.step .join) :=
    holds_step (e := .join) (hw ▸ holds_steps evs _ (holds_init hfa) hkeep) trivial
  have hv : ((w.step .join).comps b).files = (w.step .join).files :=
    views_steps (kinds := kinds) (evs := evs ++ [.join]) (by rw [hw]; simp [World.steps]) b
  refine ⟨?_, hall a hia⟩
  obtain ⟨fx, σ, h1, -⟩ := id hh
  have hub := hall b hib
  rw [hcb] at hub
  exact linked_of_clean hh hv ⟨fx, σ, h1, upToDate_bin (hall a hia) h1⟩ hub hp

end Verif.Reg
