import Verif.Exe.ArgvProps
import Verif.Target.WinArgvProps

/-!
# C116: tests, commands of generators and the script of `buildexe` on Windows

As `Exe/ArgvProps.lean` (C105), for the rules by which programs on Windows split a command into
arguments (`Command/WinArgs.lean`).
-/

namespace Verif.WinArgv
open Verif Verif.Command Verif.Windows
open Verif.Target (spaced)
open Verif.Argv (pattern Stand Formed joined joined_ok srcs_joined vals_joined)

/-! ## Lemmas -/

theorem program_all (s w : Str) (h : ∀ b ∈ s, b ≠ c!"\"" ∧ b ≠ c!" " ∧ b ≠ c!"\t") :
    program false w s = some (w ++ s, []) := by
  induction s generalizing w with
  | nil => simp [program]
  | cons b s ih =>
    obtain ⟨h1, h2, h3⟩ := h b (List.mem_cons_self ..)
    rw [program, if_neg h1, if_neg (by simp [h2, h3]), ih _ fun c hc => h c (List.mem_cons_of_mem _ hc)]
    simp

theorem program_closed (s w : Str) (h : ∀ b ∈ s, b ≠ c!"\"") :
    program true w (s ++ [c!"\""]) = some (w ++ s, []) := by
  induction s generalizing w with
  | nil => simp [program]
  | cons b s ih =>
    rw [List.cons_append, program, if_neg (h b (List.mem_cons_self ..)), if_neg (by simp),
      ih _ fun c hc => h c (List.mem_cons_of_mem _ hc)]
    simp

/-- A command that is a tool and texts that are read as arguments. -/
theorem tool_arguments {p : Str} (h : Legal p) {values : List Str} (hr : Readable values) :
    arguments (spaced (Path.displayString p :: values)) =
      some (Path.toPathString p :: given values) := by
  cases values with
  | cons x values => exact arguments_spaced h x values hr
  | nil =>
    have key : program false [] (Path.displayString p) = some (Path.toPathString p, []) := by
      rw [Path.displayString]
      split
      · have := program_closed (Path.toPathString p) [] fun b hb => (h.2 b hb).1
        rw [program, if_pos rfl]
        exact this
      · rename_i hs
        exact program_all (Path.toPathString p) []
          fun b hb => ⟨(h.2 b hb).1, fun e => hs (e ▸ hb), (h.2 b hb).2⟩
    have e : spaced [Path.displayString p] = Path.displayString p := by
      simp [spaced, List.intercalate]
    rw [e, arguments, key]
    simp only
    rw [if_neg (legal_ne h)]
    rfl

/-! ## Properties -/

/-- C116: a test whose command is `{executable}` and further words is run by one program, the target,
with the arguments that the further words stand for, in the given directory. -/
theorem C116_test (answer : Env.Shell) (t : Reg.TestInfo) {words : List (List Seg)}
    {values : List Str} (hf : Formed words)
    (hc : t.command = pattern ([.field b!"executable"] :: words))
    (hv : Stand (Reg.testValue t) words values) (hr : Readable values) (hp : Legal t.target) :
    ∃ c, (Reg.testRunner answer t).executed = some (c, t.config.dir) ∧
      arguments c = some (Path.toPathString t.target :: given values) := by
  refine ⟨spaced (Path.displayString t.target :: values), ?_, tool_arguments hp hr⟩
  refine Reg.C76_command answer t (joined ([.field b!"executable"] :: words)) (joined_ok ?_)
    (by rw [hc, srcs_joined]) _ (vals_joined _ _ _ ?_) ?_
  · intro w hw
    rcases List.mem_cons.1 hw with rfl | hw
    · decide
    · exact hf w hw
  · simp only [Stand, List.map_cons, List.cons.injEq]
    refine ⟨?_, hv⟩
    simp [vals, Seg.val, Reg.testValue]
  · intro he
    have := tool_arguments hp hr
    rw [he] at this
    cases this

example : Formed [[.text b!"--dir"], [.field b!"dir"]] ∧
    pattern ([.field b!"executable"] :: [[.text b!"--dir"], [.field b!"dir"]]) =
      b!"{executable} --dir {dir}" ∧
    Stand (Reg.testValue ⟨b!"C:\\my project\\t.exe", b!"{executable} --dir {dir}",
      ⟨[(b!"dir", b!"C:\\data\\")], none, .printBoth, false, false⟩⟩)
      [[.text b!"--dir"], [.field b!"dir"]] [b!"--dir", b!"C:\\data\\"] ∧
    Readable [b!"--dir", b!"C:\\data\\"] ∧ given [b!"--dir", b!"C:\\data\\"] = [b!"--dir", b!"C:\\data\\"] ∧
    Legal b!"C:\\my project\\t.exe" := by decide +kernel

/-- C116: a command of a file generator is read as the words of its pattern are. -/
theorem C116_generator {g : Generator.FileGen} {words : List (List Seg)} {args : Args}
    {values : List Str} (hf : Formed words)
    (hv : Stand (Generator.withArgs g.gen.get args) words values) (hr : Readable values) :
    ∃ c, Generator.fileApply g (.addCommand (pattern words) args) =
        some { g with commands := g.commands ++ [c] } ∧
      Windows.split c = some (given values) := by
  refine ⟨spaced values, ?_, split_given hr⟩
  have : construct g.gen.command (pattern words) args = .value (spaced values) :=
    (Generator.construct_withArgs _ _ _ _).2
      ⟨joined words, joined_ok hf, srcs_joined words, vals_joined _ _ _ hv⟩
  rw [Generator.fileApply, this]

/-- C116: a placeholder with a text behind it, in double quotes, is exactly one argument if and only if
there is no backslash before the closing quote. -/
theorem C116_generator_quoted {names : Str → Option Str} {n v rest : Str} (hn : names n = some v)
    (hv : ∀ b ∈ v ++ rest, b ≠ c!"\"") :
    ∃ x, Stand names [[.text b!"\"", .field n, .text (rest ++ b!"\"")]] [x] ∧
      (Windows.split x = some [v ++ rest] ↔ (v ++ rest).getLast? ≠ some c!"\\") := by
  have := split_quoted [] (v ++ rest) [] (by simp) hv (by simp)
  simp only [List.nil_append, List.append_nil, List.cons_append] at this
  refine ⟨c!"\"" :: (v ++ rest ++ [c!"\""]), ?_, this⟩
  simp [Stand, vals, Seg.val, hn]

/-- A directory with a space, with and without a backslash at its end. -/
example :
    ((Generator.fileApply (Generator.newFileGen [b!"C:\\my p", b!"C:\\my p\\out", b!"C:\\my p", b!"C:\\my p\\out"])
      (.addCommand b!"python \"{current_build_dir}\" x" [])).map fun g => g.commands.map Windows.split) =
      some [some [b!"python", b!"C:\\my p\\out", b!"x"]] ∧
    ((Generator.fileApply (Generator.newFileGen [b!"C:\\my p", b!"C:\\my p\\out", b!"C:\\my p", b!"C:\\my p\\out\\"])
      (.addCommand b!"python \"{current_build_dir}\" x" [])).map fun g => g.commands.map Windows.split) =
      some [none] := by decide +kernel

open Verif.Exe in
/-- C116: what `buildexe` runs after a build in script mode is the built script, with `--config` and what
is read from the name for each configuration file, in their order. -/
theorem C116_script (junk : Nat → Schema.TargetSchema) (w : World) (p : Target.Project) (clean : Bool)
    (a : ExeArgs) (b : Buildcc) {tc : Toolchain.Toolchain} {m : Target.Made} {u : Schema.TargetSchema}
    {c : Str} (htc : w.toolchain = some tc) (hs : setup junk p w.list tc a b = some (m, u))
    (hran : ExeDid.ran c ∈ (exeMain junk w p clean a b).1)
    (hp : Legal (Target.outputPath m.fixed)) (hr : Readable a.configs) :
    arguments c = some (Path.toPathString (Target.outputPath m.fixed) ::
      a.configs.flatMap fun f => b!"--config" :: given [f]) := by
  have hc : c = spaced (Path.displayString (Target.outputPath m.fixed) ::
      if a.configs = [] then [b!""] else a.configs.flatMap fun c => [b!"--config", c]) := by
    rcases C79_run_partial junk w p clean a b with ⟨-, -, -, tc', m', u', ht, hm, hd⟩ | ⟨-, hn, -⟩
    · rw [htc] at ht
      cases ht
      rw [hs] at hm
      cases hm
      rw [hd] at hran
      cases hmode : a.mode <;> cases clean <;> simp [hmode] at hran <;> exact hran
    · exact absurd hran (hn _)
  subst hc
  by_cases he : a.configs = []
  · rw [if_pos he, tool_arguments hp (by intro x hx; rw [List.mem_singleton.1 hx]; rfl), he]
    rfl
  · rw [if_neg he, tool_arguments hp]
    · congr 2
      rw [given, List.flatMap_assoc]
      congr 1
    · intro x hx
      obtain ⟨f, hf, hx⟩ := List.mem_flatMap.1 hx
      simp only [List.mem_cons, List.not_mem_nil, or_false] at hx
      rcases hx with rfl | rfl
      · decide
      · exact hr _ hf

open Verif.Exe in
example : ∃ m u c, setup (fun _ => .empty) exProject exWorld.list
      (Toolchain.toolchainGcc b!"gcc" none none) exArgs exBuildcc = some (m, u) ∧
    exWorld.toolchain = some (Toolchain.toolchainGcc b!"gcc" none none) ∧
    ExeDid.ran c ∈ (exeMain (fun _ => .empty) exWorld exProject true exArgs exBuildcc).1 ∧
    Legal (Target.outputPath m.fixed) ∧ Readable exArgs.configs ∧ exArgs.configs ≠ [] := by
  obtain ⟨m, u, h⟩ : ∃ m u, exMade = some (m, u) := by
    cases h : exMade with
    | none => exact absurd h (by decide +kernel)
    | some x => exact ⟨x.1, x.2, rfl⟩
  refine ⟨m, u, scriptCommand m exArgs.configs, h, rfl, ?_, ?_, by decide +kernel, by decide +kernel⟩
  · have : (exMade.map fun x => decide (ExeDid.ran (scriptCommand x.1 exArgs.configs) ∈
        (exeMain (fun _ => .empty) exWorld exProject true exArgs exBuildcc).1)) = some true := by
      decide +kernel
    rw [h] at this
    simpa using this
  · have : (exMade.map fun x => decide (Legal (Target.outputPath x.1.fixed))) = some true := by
      decide +kernel
    rw [h] at this
    simpa using this

end Verif.WinArgv
