import Verif.Target.OrderProps
import Verif.Target.CommandProps
import Verif.Generator.SoundProps

/-! # Every crash point (C12), placeholders of user templates (C27) -/

namespace Verif.Target
open Verif Verif.Command Verif.Schema

/-- C12: the crashes range over every byte of the store.  Whenever the end of a build would store
`text`, the build may as well be killed after any number of bytes of it, and the file then holds
exactly these. -/
theorem C12_crash_points (fx : Fixed) (σ : Sys) (text : Str) (c : TargetSchema) (ok : Bool)
    (hr : σ.run ≠ none)
    (h : (step fx σ (.finish true)).done = some ⟨c, ok, true⟩ ∧
      (step fx σ (.finish true)).run = none ∧ (step fx σ (.finish true)).stateFile = some text)
    (n : Nat) :
    (step fx σ (.crash (some n))).stateFile = some (text.take n) ∧
      (step fx σ (.crash (some n))).run = none := by
  obtain ⟨hd, hn, hs⟩ := h
  match hr' : σ.run with
  | none => exact absurd hr' hr
  | some r =>
    simp only [step, inPhase, hr'] at hd hn hs ⊢
    by_cases hp : r.phase = .fin
    · rw [if_pos hp] at hd hs
      simp only [finishRun] at hd hs
      by_cases hdirty : r.dirty = true
      · rw [if_pos hdirty] at hd hs
        cases ht : targetText r.toStore with
        | none => simp [ht, storeText] at hd
        | some t =>
          simp [ht, storeText] at hs
          subst hs
          simp only [crashRun, hp, hdirty, ht]
          split
          · exact ⟨rfl, rfl⟩
          · rename_i hl
            exact ⟨by rw [List.take_of_length_le (by omega)], rfl⟩
      · rw [if_neg hdirty] at hd
        simp at hd
    · rw [if_neg hp] at hn
      exact absurd hn (by rw [hr']; simp)

/-- The end of the first build of the example. -/
def exEnd : Sys := steps exFixed Sys.init (exFiles ++ .start exCfg exOrder :: exFull.dropLast)

example : ∃ c ok text, exEnd.run ≠ none ∧
    (step exFixed exEnd (.finish true)).done = some ⟨c, ok, true⟩ ∧
    (step exFixed exEnd (.finish true)).run = none ∧
    (step exFixed exEnd (.finish true)).stateFile = some text ∧ 100 < text.length := by
  have hr : exEnd.run.isSome = true := by decide +kernel
  have hd : ((step exFixed exEnd (.finish true)).done.any (·.built)) = true := by decide +kernel
  have ht : ((step exFixed exEnd (.finish true)).stateFile.any fun t => 100 < t.length) = true := by
    decide +kernel
  have hn : (step exFixed exEnd (.finish true)).run.isNone = true := by decide +kernel
  generalize step exFixed exEnd (.finish true) = σ at hd ht hn
  obtain ⟨⟨c, ok, st⟩, h1, h2⟩ := (Option.any_eq_true_iff_get _ _).1 hd |> fun ⟨h, e⟩ =>
    (⟨_, (Option.some_get h).symm, e⟩ : ∃ d, σ.done = some d ∧ d.built = true)
  obtain ⟨t, h3, h4⟩ := (Option.any_eq_true_iff_get _ _).1 ht |> fun ⟨h, e⟩ =>
    (⟨_, (Option.some_get h).symm, of_decide_eq_true e⟩ :
      ∃ t, σ.stateFile = some t ∧ 100 < t.length)
  subst h2
  exact ⟨c, ok, t, fun h => by rw [h] at hr; simp at hr, h1, Option.isNone_iff_eq_none.1 hn, h3, h4⟩

/-- The placeholders that a template of the user may contain besides the ones of the call, and
what they stand for. -/
def placeholders (fx : Fixed) (u : TargetSchema) : List (Str × Str) :=
  [ (b!"include_dirs", spaced (u.includeDirs.map (fx.cfg.prefixIncludeDir ++ ·))),
    (b!"lib_dirs", spaced (u.libDirs.map (fx.cfg.prefixLibDir ++ ·))),
    (b!"preprocessor_flags", spaced u.preprocessorFlags),
    (b!"common_compile_flags", spaced u.commonCompileFlags),
    (b!"link_flags", spaced u.linkFlags),
    (b!"asm_compiler", Path.displayString fx.exe.assembler),
    (b!"c_compiler", Path.displayString fx.exe.cCompiler),
    (b!"cpp_compiler", Path.displayString fx.exe.cppCompiler),
    (b!"archiver", Path.displayString fx.exe.archiver),
    (b!"linker", Path.displayString fx.exe.linker),
    (b!"pch_compile_flags", spaced (ifPch u u.pchCompileFlags)),
    (b!"pch_object_flags", spaced (ifPch u u.pchObjectFlags)),
    (b!"pch_object_output", if u.pchs ≠ [] then
      Path.displayString (Path.pchObjectPath fx.buildDir fx.cfg.pchHeaderExt fx.cfg.objExt) else []) ]

theorem one_field {d : Defaults} {args : Args} {n v : Str} (h : Seg.Ok (.field n))
    (hv : vals (bound d args) [.field n] = some v) :
    construct d (b!"{" ++ n ++ b!"}") args = .value v :=
  construct_segs _ _ _ [.field n] _ (fun x hx => by rw [List.mem_singleton.1 hx]; exact h)
    (by simp [srcs, Seg.src]) hv

/-- C27: in a template of the user every placeholder stands for its value, in the command of
every source, of the precompiled header and of the link. -/
theorem C27_placeholders (fx : Fixed) (u : TargetSchema) (order : List Str) (src n v : Str)
    (h : (n, v) ∈ placeholders fx u) :
    (fx.tcfg.compileCommand = b!"{" ++ n ++ b!"}" → compileCommand fx u src = .value v) ∧
    (fx.tcfg.pchCommand = b!"{" ++ n ++ b!"}" → pchCommand fx u = .value v) ∧
    (fx.tcfg.linkCommand = b!"{" ++ n ++ b!"}" → linkCommand fx u order = .value v) := by
  simp only [placeholders, List.mem_cons, List.not_mem_nil, or_false, Prod.mk.injEq] at h
  rcases h with ⟨rfl, rfl⟩ | ⟨rfl, rfl⟩ | ⟨rfl, rfl⟩ | ⟨rfl, rfl⟩ | ⟨rfl, rfl⟩ | ⟨rfl, rfl⟩ |
    ⟨rfl, rfl⟩ | ⟨rfl, rfl⟩ | ⟨rfl, rfl⟩ | ⟨rfl, rfl⟩ | ⟨rfl, rfl⟩ | ⟨rfl, rfl⟩ | ⟨rfl, rfl⟩
  all_goals
    refine ⟨fun ht => ?_, fun ht => ?_, fun ht => ?_⟩ <;>
      simp only [compileCommand, pchCommand, linkCommand] <;> rw [ht] <;>
      (refine one_field (by decide +kernel) ?_
       simp [vals, Seg.val, bound, defaults_get, pchDefaults_get, baseDefaults, lookupArg,
         compileArgs, pchArgs, linkArgs, aggregateWithPrefix, aggregate_eq]
       try (split <;> simp [spaced]))

example : compileCommand { exFixed with tcfg := { exFixed.tcfg with compileCommand :=
    b!"{asm_compiler}" } } exUser b!"/p/src/main.s" = .value b!"as" :=
  (C27_placeholders _ _ [] _ b!"asm_compiler" b!"as" (by decide +kernel)).1 rfl

end Verif.Target

namespace Verif.Generator
open Verif Verif.Schema

/-- C12 for generators: whenever the end of a run would store `text`, the run may as well be killed
after any number of bytes of it, and the file then holds exactly these. -/
theorem C12_crash_points (σ : Sys) (text : Str) (order : List Str) (c : Cfg) (ok : Bool)
    (hr : σ.run ≠ none)
    (h : (step σ (.finish order true)).done = some ⟨c, ok, true⟩ ∧
      (step σ (.finish order true)).run = none ∧
      (step σ (.finish order true)).stateFile = some text) (n : Nat) :
    (step σ (.crash order (some n))).stateFile = some (text.take n) ∧
      (step σ (.crash order (some n))).run = none := by
  obtain ⟨hd, hn, hs⟩ := h
  match hr' : σ.run with
  | none => exact absurd hr' hr
  | some r =>
    simp only [step, inRun, hr'] at hd hn hs ⊢
    by_cases hj : (r.joined && order.isPerm (keys r.cfg)) = true
    · rw [if_pos hj] at hd hs
      simp only [Bool.and_eq_true] at hj
      simp only [finishRun] at hd hs
      by_cases hdirty : r.dirty = true
      · rw [if_pos hdirty] at hd hs
        cases hst : toStore σ.files r order with
        | none => simp [hst] at hd
        | some g =>
          simp only [hst] at hd hs
          cases ht : genText g with
          | none => simp [ht, storeText] at hd
          | some t =>
            simp [ht, storeText] at hs
            subst hs
            simp only [crashRun, hj.1, hj.2, hdirty, hst, Option.bind_some, ht, Bool.and_self,
              if_true]
            split
            · exact ⟨rfl, rfl⟩
            · rename_i hl
              exact ⟨by rw [List.take_of_length_le (by omega)], rfl⟩
      · rw [if_neg hdirty] at hd
        simp at hd
    · rw [if_neg hj] at hn
      exact absurd hn (by rw [hr']; simp)

/-- The last run of the example. -/
example : ∃ c ok text, (steps Sys.init exHist).run ≠ none ∧
    (step (steps Sys.init exHist) (.finish [b!"a", b!"b"] true)).done = some ⟨c, ok, true⟩ ∧
    (step (steps Sys.init exHist) (.finish [b!"a", b!"b"] true)).run = none ∧
    (step (steps Sys.init exHist) (.finish [b!"a", b!"b"] true)).stateFile = some text ∧
    100 < text.length := by
  have hr : (steps Sys.init exHist).run.isSome = true := by decide +kernel
  have hd : ((step (steps Sys.init exHist) (.finish [b!"a", b!"b"] true)).done.any (·.stored)) =
    true := by decide +kernel
  have ht : ((step (steps Sys.init exHist) (.finish [b!"a", b!"b"] true)).stateFile.any
    fun t => 100 < t.length) = true := by decide +kernel
  have hn : (step (steps Sys.init exHist) (.finish [b!"a", b!"b"] true)).run.isNone = true := by
    decide +kernel
  generalize step (steps Sys.init exHist) (.finish [b!"a", b!"b"] true) = σ at hd ht hn
  obtain ⟨⟨c, ok, st⟩, h1, h2⟩ := (Option.any_eq_true_iff_get _ _).1 hd |> fun ⟨h, e⟩ =>
    (⟨_, (Option.some_get h).symm, e⟩ : ∃ d, σ.done = some d ∧ d.stored = true)
  obtain ⟨t, h3, h4⟩ := (Option.any_eq_true_iff_get _ _).1 ht |> fun ⟨h, e⟩ =>
    (⟨_, (Option.some_get h).symm, of_decide_eq_true e⟩ :
      ∃ t, σ.stateFile = some t ∧ 100 < t.length)
  subst h2
  exact ⟨c, ok, t, fun h => by rw [h] at hr; simp at hr, h1, Option.isNone_iff_eq_none.1 hn, h3, h4⟩

end Verif.Generator
