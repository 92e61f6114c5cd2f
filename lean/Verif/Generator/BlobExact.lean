import Verif.Generator.ExactProps

/-! # Changed blob handlers, exactly (C33) -/

namespace Verif.Generator
open Verif Verif.Schema

variable {σ₀ σ : Sys} {c : Cfg} {mid : List Event} {d : Done}

/-- C33, exactly: when the files and the outputs of an id are as recorded, a successful run executes its
callback if and only if the id has a handler now that does not find the recorded blob equal to its own;
whether it had a handler before makes no difference. -/
theorem C33_exact {id : Str} {i : IdCfg} {s : IdInfo}
    (h : QuietRun σ₀ c mid σ) (hdone : σ.done = some d) (hok : d.ok = true)
    (hi : find id c = some i) (hs : storedId (loadGenFile σ₀.stateFile) id = some s)
    (hin : recorded s.inputs = versions σ₀.files i.inputs) (hout : s.outputs = i.outputs) :
    id ∈ calledIds σ.log ↔
      ∃ hd, i.handler = some hd ∧ ∀ b, hd.serialize = some b → hd.isEqual s.userblob b ≠ some true := by
  rw [(C28_exactly_needed h hdone hok).2]
  constructor
  · rintro ⟨i', hi', hn⟩
    rw [hi] at hi'
    simp only [Option.some.injEq] at hi'
    subst hi'
    apply Classical.byContradiction
    intro hno
    refine hn s hs ⟨hin, hout, fun hd hh => ?_⟩
    apply Classical.byContradiction
    intro hno'
    exact hno ⟨hd, hh, fun b hb he => hno' ⟨b, hb, he⟩⟩
  · rintro ⟨hd, hh, hne⟩
    refine ⟨i, hi, fun s' hs' hu => ?_⟩
    rw [hs] at hs'
    simp only [Option.some.injEq] at hs'
    subst hs'
    obtain ⟨b, h1, h2⟩ := hu.blob hd hh
    exact hne b h1 h2

/-- The data of `a` changes from `[1]` to `[2]`; its files are as recorded. -/
example : ∃ d, (runG exOk (exGen [2]) exChange).done = some d ∧ d.ok = true ∧
    QuietRun exOk (exGen [2]) exChange (runG exOk (exGen [2]) exChange) ∧
    (∃ i s, find b!"a" (exGen [2]) = some i ∧ storedId (loadGenFile exOk.stateFile) b!"a" = some s ∧
      recorded s.inputs = versions exOk.files i.inputs ∧ s.outputs = i.outputs) :=
  let ⟨d, h1, h2⟩ := outcome_ok (σ := runG exOk (exGen [2]) exChange) (b := true) (by decide +kernel)
  ⟨d, h1, h2, quietRun (mid := [.begin, .task b!"a", .task b!"b", .call b!"a" true,
      .finish [b!"b", b!"a"] true]) (by decide +kernel) (by decide) (by decide), by
    have h3 : (find b!"a" (exGen [2])).isSome = true := by decide +kernel
    have h4 : ((storedId (loadGenFile exOk.stateFile) b!"a").bind fun s =>
        (find b!"a" (exGen [2])).map fun i =>
          decide (recorded s.inputs = versions exOk.files i.inputs ∧ s.outputs = i.outputs)) = some true := by
      decide +kernel
    obtain ⟨s, hs, h5⟩ := Option.bind_eq_some_iff.1 h4
    obtain ⟨i, hi, h6⟩ := Option.map_eq_some_iff.1 h5
    have := of_decide_eq_true h6
    exact ⟨i, s, hi, hs, this.1, this.2⟩⟩

end Verif.Generator
