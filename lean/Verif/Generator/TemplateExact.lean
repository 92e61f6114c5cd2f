import Verif.Generator.FileProps

/-! # Which templates are written again when values change, exactly (C62) -/

namespace Verif.Generator
open Verif Verif.Schema Verif.Command

/-- Templates have no blob handlers. -/
theorem template_handlers {cmd : Defaults} {root : Str} {ts : List (Str × Str)} {c₀ c : Cfg}
    (h₀ : ∀ x ∈ c₀, x.2.handler = none) (h : templateCfg cmd root c₀ ts = some c) :
    ∀ x ∈ c, x.2.handler = none := by
  induction ts generalizing c₀ with
  | nil =>
    simp only [templateCfg, Option.some.injEq] at h
    subst h
    exact h₀
  | cons t ts ih =>
    obtain ⟨a, b⟩ := t
    simp only [templateCfg] at h
    split at h
    · split at h
      · rename_i c' hc'
        refine ih ?_ h
        unfold addIdInfo at hc'
        split at hc'
        · simp at hc'
        split at hc'
        · simp at hc'
        split at hc'
        · simp only [Option.some.injEq] at hc'
          subst hc'
          intro x hx
          rcases List.mem_append.1 hx with hx | hx
          · exact h₀ x hx
          · rw [List.mem_singleton] at hx
            subst hx
            rfl
        · simp at hc'
      · simp at h
    · simp at h

/-- C62, exactly: a template generator is run with one set of values and then with another one, maybe
with other templates, and nobody touches the inputs in between.  Of the templates that are in both, a
successful second run writes exactly those whose input or output path is another one.  The values have
no other influence. -/
theorem C62_exact {cmd cmd' : Defaults} {root root' : Str} {ts ts' : List (Str × Str)} {c c' : Cfg}
    {σ₀ σ₁ σ₂ σ₃ : Sys} {mid₁ mid₂ : List Event} {d₁ d₂ : Done} {id : Str} {i i' : IdCfg}
    (hc : templateCfg cmd root [] ts = some c) (hc' : templateCfg cmd' root' [] ts' = some c')
    (h₁ : QuietRun σ₀ c mid₁ σ₁) (hd₁ : σ₁.done = some d₁) (hok₁ : d₁.ok = true)
    (hu : Untouched c σ₁ σ₂) (h₂ : QuietRun σ₂ c' mid₂ σ₃) (hd₂ : σ₃.done = some d₂)
    (hok₂ : d₂.ok = true) (hi : find id c = some i) (hi' : find id c' = some i') :
    id ∈ calledIds σ₃.log ↔ i.inputs ≠ i'.inputs ∨ i.outputs ≠ i'.outputs := by
  have n := template_handlers (by simp) hc
  have n' := template_handlers (by simp) hc'
  have hr : Reflexive c := by
    intro id i h b hi hh
    rw [n _ (find_mem hi)] at hh
    simp at hh
  rw [(C28_exactly_needed h₂ hd₂ hok₂).2]
  have R₁ := h₁.report hd₁
  have settled : ∃ s, storedId (loadGenFile σ₂.stateFile) id = some s ∧ Unchanged σ₂.files s i := by
    have hk : id ∈ keys c := find_isSome.1 (by rw [hi]; rfl)
    refine decision_false ?_
    rw [hu.stateFile, decision_congr (f := σ₀.files) (by
      intro p hp
      rw [hu.files p (inputs_mem hi hp), R₁.files])]
    exact R₁.settled rfl hr (R₁.noStoreFailed hok₁) hi (R₁.completed_ok hok₁ hk)
  obtain ⟨s, hs, hU⟩ := settled
  constructor
  · rintro ⟨i'', hi'', hn⟩
    rw [hi'] at hi''
    simp only [Option.some.injEq] at hi''
    subst hi''
    by_cases h1 : i.inputs = i'.inputs
    · by_cases h2 : i.outputs = i'.outputs
      · refine absurd ⟨by rw [hU.inputs, h1], by rw [hU.outputs, h2], fun h hh => ?_⟩ (hn s hs)
        rw [n' _ (find_mem hi')] at hh
        simp at hh
      · exact .inr h2
    · exact .inl h1
  · intro hne
    refine ⟨i', hi', fun s' hs' hV => ?_⟩
    rw [hs] at hs'
    simp only [Option.some.injEq] at hs'
    subst hs'
    rcases hne with h | h
    · have e := hU.inputs.symm.trans hV.inputs
      have := congrArg (List.map Prod.fst) e
      exact h (by simpa [versions, List.map_map, Function.comp_def] using this)
    · exact h (hU.outputs.symm.trans hV.outputs)

/-! ## A concrete case -/

/-- A template whose output path has the version in it, and one that only uses it. -/
def exVersioned : List (Str × Str) := [(b!"/p/v.in", b!"/p/{version}/v.c"), (b!"/p/w.in", b!"/p/w.c")]

def exVersionedCfg (v : Str) : Cfg :=
  [(b!"v.in", ⟨[b!"/p/v.in"], [b!"/p/" ++ v ++ b!"/v.c"], none⟩),
    (b!"w.in", ⟨[b!"/p/w.in"], [b!"/p/w.c"], none⟩)]

def exVersionedFiles : List Event := [.edit b!"/p/v.in" 1, .edit b!"/p/w.in" 2]

/-- The first run, with version 7. -/
def exVersionedMid : List Event :=
  [.begin, .task b!"v.in", .call b!"v.in" true, .task b!"w.in", .call b!"w.in" true,
    .finish [b!"v.in", b!"w.in"] true]

def exVersioned7 : Sys := runG (steps Sys.init exVersionedFiles) (exVersionedCfg b!"7") exVersionedMid

/-- The second run, with version 8. -/
def exVersionedMid' : List Event :=
  [.begin, .task b!"v.in", .call b!"v.in" true, .task b!"w.in", .finish [b!"v.in", b!"w.in"] true]

/-- With version 8 only the template whose output has the version in its path is written. -/
example : templateCfg [(b!"version", b!"7")] b!"/p" [] exVersioned = some (exVersionedCfg b!"7") ∧
    templateCfg [(b!"version", b!"8")] b!"/p" [] exVersioned = some (exVersionedCfg b!"8") ∧
    QuietRun (steps Sys.init exVersionedFiles) (exVersionedCfg b!"7") exVersionedMid exVersioned7 ∧
    outcome exVersioned7 = some true ∧
    QuietRun exVersioned7 (exVersionedCfg b!"8") exVersionedMid' (runG exVersioned7 (exVersionedCfg b!"8") exVersionedMid') ∧
    outcome (runG exVersioned7 (exVersionedCfg b!"8") exVersionedMid') = some true ∧
    calledIds (runG exVersioned7 (exVersionedCfg b!"8") exVersionedMid').log = [b!"v.in"] :=
  ⟨rfl, rfl, quietRun (by decide +kernel) (by decide) (by decide), by decide +kernel,
    quietRun (by decide +kernel) (by decide) (by decide), by decide +kernel, by decide +kernel⟩

end Verif.Generator
