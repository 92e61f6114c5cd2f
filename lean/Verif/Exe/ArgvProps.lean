import Verif.Exe.Props
import Verif.Reg.TestsProps
import Verif.Generator.FileApiProps
import Verif.Target.ArgvProps

/-!
# C105: tests, commands of generators and the script of `buildexe` get the arguments they were given

As `Target/ArgvProps.lean` for compilers and linkers: what a POSIX shell (`Command/Shell.lean`) makes of
the commands of `Reg::Test` (`register.cpp:193-243`), `FileGenerator::AddCommand`
(`file_generator.cpp:55-60`, `custom_generator.cpp:200-204`) and `RunUserTarget`
(`build_env_setup.cpp:35-56`).
-/

namespace Verif.Argv
open Verif Verif.Command Verif.Shell
open Verif.Target (spaced Readable Tame Program given)

/-! ## Specification -/

/-- A pattern that is written as words with one blank between them. -/
def pattern (words : List (List Seg)) : Str := spaced (words.map srcs)

/-- What the words stand for. -/
def Stand (names : Str → Option Str) (words : List (List Seg)) (values : List Str) : Prop :=
  words.map (vals names) = values.map some

/-- All parts of the words are well formed. -/
def Formed (words : List (List Seg)) : Prop := ∀ w ∈ words, ∀ x ∈ w, Seg.Ok x

instance (words : List (List Seg)) : Decidable (Formed words) := by unfold Formed; infer_instance
instance (names : Str → Option Str) (words : List (List Seg)) (values : List Str) :
    Decidable (Stand names words values) := by unfold Stand; infer_instance

/-! ## Lemmas -/

/-- The words with the blanks between them. -/
def joined : List (List Seg) → List Seg
  | [] => []
  | [w] => w
  | w :: v :: l => w ++ .text b!" " :: joined (v :: l)

theorem srcs_append (a b : List Seg) : srcs (a ++ b) = srcs a ++ srcs b := by simp [srcs]

theorem srcs_joined (words : List (List Seg)) : srcs (joined words) = pattern words := by
  induction words with
  | nil => rfl
  | cons w l ih =>
    cases l with
    | nil => simp [joined, pattern, spaced, List.intercalate, List.intersperse]
    | cons v l =>
      have e : srcs (.text b!" " :: joined (v :: l)) = b!" " ++ pattern (v :: l) := by
        rw [← ih]; rfl
      rw [joined, srcs_append, e]
      simp [pattern, spaced, List.intercalate, List.intersperse]

theorem vals_append (names : Str → Option Str) {a b : List Seg} {x y : Str}
    (ha : vals names a = some x) (hb : vals names b = some y) : vals names (a ++ b) = some (x ++ y) := by
  induction a generalizing x with
  | nil => simp only [vals, Option.some.injEq] at ha; subst ha; simpa using hb
  | cons s a ih =>
    rw [vals] at ha
    split at ha
    · rename_i u v hu hv
      cases ha
      rw [List.cons_append, vals, hu, ih hv]
      simp
    · cases ha

theorem vals_joined (names : Str → Option Str) (words : List (List Seg)) (values : List Str)
    (h : Stand names words values) : vals names (joined words) = some (spaced values) := by
  induction words generalizing values with
  | nil =>
    cases values with
    | nil => rfl
    | cons a l => simp [Stand] at h
  | cons w l ih =>
    cases values with
    | nil => simp [Stand] at h
    | cons x values =>
      simp only [Stand, List.map_cons, List.cons.injEq] at h
      cases l with
      | nil =>
        cases values with
        | nil => simpa [joined, spaced, List.intercalate, List.intersperse] using h.1
        | cons a l => simp at h
      | cons v l =>
        cases values with
        | nil => simp at h
        | cons y values =>
          rw [joined]
          have := ih (y :: values) h.2
          have e : vals names (.text b!" " :: joined (v :: l)) = some (b!" " ++ spaced (y :: values)) := by
            rw [vals, this]; rfl
          rw [vals_append names h.1 e]
          simp [spaced, List.intercalate, List.intersperse]

theorem joined_ok {words : List (List Seg)} (h : Formed words) : ∀ x ∈ joined words, Seg.Ok x := by
  induction words with
  | nil => simp [joined]
  | cons w l ih =>
    have h1 := h w (List.mem_cons_self ..)
    cases l with
    | nil => simpa [joined] using h1
    | cons v l =>
      intro x hx
      rw [joined] at hx
      rcases List.mem_append.1 hx with hx | hx
      · exact h1 x hx
      · rcases List.mem_cons.1 hx with rfl | hx
        · decide
        · exact ih (fun u hu => h u (List.mem_cons_of_mem _ hu)) x hx

theorem program_arguments {p : Str} (h : Program p) {values : List Str} (hr : Readable values) :
    arguments (spaced (Path.displayString p :: values)) =
      some (Path.toPathString p :: given values) := by
  have hd := Target.split_display' h.1
  have hs : Shell.split (spaced (Path.displayString p :: values)) =
      some (Path.toPathString p :: given values) := by
    rw [Target.split_given (l := Path.displayString p :: values)
      (by rintro x hx; rcases List.mem_cons.1 hx with rfl | hx
          · rw [hd]; rfl
          · exact hr x hx)]
    rw [given, List.flatMap_cons, hd]
    rfl
  rw [arguments, hs]
  simp only
  rw [if_neg (by simp [h.2.1, h.2.2])]

/-! ## Tests -/

/-- C105: a test whose command is `{executable}` and further words is run by one program, the target,
with the arguments that the further words stand for, in the given directory.  The target may have
spaces in its path. -/
theorem C105_test (answer : Env.Shell) (t : Reg.TestInfo) {words : List (List Seg)}
    {values : List Str} (hf : Formed words)
    (hc : t.command = pattern ([.field b!"executable"] :: words))
    (hv : Stand (Reg.testValue t) words values) (hr : Readable values) (hp : Program t.target) :
    ∃ c, (Reg.testRunner answer t).executed = some (c, t.config.dir) ∧
      arguments c = some (Path.toPathString t.target :: given values) := by
  refine ⟨spaced (Path.displayString t.target :: values), ?_, program_arguments hp hr⟩
  refine Reg.C76_command answer t (joined ([.field b!"executable"] :: words)) (joined_ok ?_)
    (by rw [hc, srcs_joined]) _ (vals_joined _ _ _ ?_) ?_
  · intro w hw
    rcases List.mem_cons.1 hw with rfl | hw
    · decide
    · exact hf w hw
  · simp only [Stand, List.map_cons, List.cons.injEq]
    refine ⟨?_, hv⟩
    simp [vals, Seg.val, Reg.testValue]
  · intro he
    have := program_arguments hp hr
    rw [he] at this
    cases this

/-- C105: the command that a script writes most, `{executable}`, runs the target without arguments. -/
theorem C105_test_plain (answer : Env.Shell) (t : Reg.TestInfo) (hc : t.command = b!"{executable}")
    (hp : Program t.target) :
    ∃ c, (Reg.testRunner answer t).executed = some (c, t.config.dir) ∧
      arguments c = some [Path.toPathString t.target] :=
  C105_test answer t (words := []) (values := []) (by simp [Formed]) (by rw [hc]; rfl) rfl
    (by simp [Readable]) hp

example : Formed [[.text b!"--filter"], [.text b!"-n=", .field b!"count"]] ∧
    pattern ([.field b!"executable"] :: [[.text b!"--filter"], [.text b!"-n=", .field b!"count"]]) =
      b!"{executable} --filter -n={count}" ∧
    Stand (Reg.testValue ⟨b!"/my project/t", b!"{executable} --filter -n={count}",
      ⟨[(b!"count", b!"3")], none, .printBoth, false, false⟩⟩)
      [[.text b!"--filter"], [.text b!"-n=", .field b!"count"]] [b!"--filter", b!"-n=3"] ∧
    Readable [b!"--filter", b!"-n=3"] ∧ given [b!"--filter", b!"-n=3"] = [b!"--filter", b!"-n=3"] ∧
    Program b!"/my project/t" := by decide +kernel

/-! ## Commands of generators -/

/-- C105: a command of a file generator is read as the words of its pattern are: a program with its
arguments. -/
theorem C105_generator {g : Generator.FileGen} {words : List (List Seg)} {args : Args}
    {values : List Str} (hf : Formed words)
    (hv : Stand (Generator.withArgs g.gen.get args) words values) (hr : Readable values) :
    ∃ c, Generator.fileApply g (.addCommand (pattern words) args) =
        some { g with commands := g.commands ++ [c] } ∧
      Shell.split c = some (given values) := by
  refine ⟨spaced values, ?_, Target.split_given hr⟩
  have : construct g.gen.command (pattern words) args = .value (spaced values) :=
    (Generator.construct_withArgs _ _ _ _).2
      ⟨joined words, joined_ok hf, srcs_joined words, vals_joined _ _ _ hv⟩
  rw [Generator.fileApply, this]

/-- C105: a placeholder with a name behind it, in double quotes, is one argument, whatever spaces the
value has. -/
theorem C105_generator_quoted {names : Str → Option Str} {n v rest : Str} (hn : names n = some v)
    (hv : ∀ b ∈ v ++ rest, b ≠ c!"\"" ∧ b ≠ c!"$" ∧ b ≠ c!"`" ∧ b ≠ c!"\\") :
    ∃ x, Stand names [[.text b!"\"", .field n, .text (rest ++ b!"\"")]] [x] ∧ Readable [x] ∧
      given [x] = [v ++ rest] := by
  have := split_quoted [] (v ++ rest) (by simp) hv [] (by simp)
  simp only [List.nil_append, List.append_nil, List.cons_append] at this
  refine ⟨c!"\"" :: (v ++ rest ++ [c!"\""]), ?_, ?_, ?_⟩
  · simp [Stand, vals, Seg.val, hn]
  · intro x hx
    rw [List.mem_singleton.1 hx, this]; rfl
  · simp only [given, List.flatMap_cons, List.flatMap_nil, List.append_nil]
    rw [this]; rfl

/-- C105, what fails: without quotes a directory with a space in it, also one that the generator itself
provides, is no argument of the command. -/
theorem C105_generator_false {dirs : List Str} {ops : List Generator.FileOp} {g : Generator.FileGen}
    {pr pb cr cb : Str} (hd : dirs = [pr, pb, cr, cb])
    (hg : Generator.genApplyAll (Generator.newGenerator dirs) (Generator.namesOf ops) = some g.gen)
    (hb : ∀ b ∈ Path.toPathString cb, Ordinary b ∨ b = c!" ") (hsp : c!" " ∈ Path.toPathString cb)
    (tool : Str) (ht : Plain tool) (hf : Seg.Ok (.text tool)) :
    ∃ c ws, Generator.fileApply g (.addCommand (pattern [[.text tool], [.field b!"current_build_dir"]]) [])
        = some { g with commands := g.commands ++ [c] } ∧
      Shell.split c = some ws ∧ Path.toPathString cb ∉ ws := by
  subst hd
  have hget := (Generator.C68_directories pr pb cr cb hg).2.2.2
  obtain ⟨ws, hw, hno⟩ := split_blanks _ hb
  obtain ⟨c, h1, h2⟩ := C105_generator (g := g) (args := [])
    (words := [[.text tool], [.field b!"current_build_dir"]])
    (values := [tool, Path.toPathString cb])
    (by intro w hw' x hx
        simp only [List.mem_cons, List.not_mem_nil, or_false] at hw'
        rcases hw' with rfl | rfl
        · rw [List.mem_singleton.1 hx]; exact hf
        · rw [List.mem_singleton.1 hx]; decide)
    (by simp [Stand, vals, Seg.val, Generator.withArgs, hget])
    (by intro x hx
        simp only [List.mem_cons, List.not_mem_nil, or_false] at hx
        rcases hx with rfl | rfl
        · rw [split_plain ht]; rfl
        · rw [hw]; rfl)
  refine ⟨c, _, h1, h2, ?_⟩
  simp only [given, List.flatMap_cons, List.flatMap_nil, List.append_nil, split_plain ht, hw,
    Option.getD_some, List.mem_append, List.mem_singleton, not_or]
  refine ⟨fun e => ?_, fun hm => hno _ hm hsp⟩
  have := ht.2 _ (e ▸ hsp)
  exact absurd this (by decide)

/-- A generator in a directory with a space. -/
def exGenDirs : List Str := [b!"/my p", b!"/my p/_build", b!"/my p/gen", b!"/my p/_build/gen"]

example : Generator.genApplyAll (Generator.newGenerator exGenDirs) (Generator.namesOf []) =
      some (Generator.newFileGen exGenDirs).gen ∧
    (∀ b ∈ Path.toPathString b!"/my p/_build/gen", Ordinary b ∨ b = c!" ") ∧
    Plain b!"python3" ∧ Seg.Ok (.text b!"python3") := ⟨rfl, by decide +kernel⟩

/-- The two ways to write the directory. -/
example :
    ((Generator.fileApply (Generator.newFileGen exGenDirs)
      (.addCommand b!"python3 {current_build_dir}" [])).map fun g => g.commands.map Shell.split) =
      some [some [b!"python3", b!"/my", b!"p/_build/gen"]] ∧
    ((Generator.fileApply (Generator.newFileGen exGenDirs)
      (.addCommand b!"python3 \"{current_build_dir}/x y\"" [])).map fun g => g.commands.map Shell.split) =
      some [some [b!"python3", b!"/my p/_build/gen/x y"]] := by decide +kernel

/-! ## The script of `buildexe` -/

open Verif.Exe in
/-- C105: what `buildexe` runs after a build in script mode is the built script, with `--config` and the
name for each configuration file, in their order.  The script may have spaces in its path; what the shell
makes of the names is as given. -/
theorem C105_script_exact (junk : Nat → Schema.TargetSchema) (w : World) (p : Target.Project) (clean : Bool)
    (a : ExeArgs) (b : Buildcc) {tc : Toolchain.Toolchain} {m : Target.Made} {u : Schema.TargetSchema}
    {c : Str} (htc : w.toolchain = some tc) (hs : setup junk p w.list tc a b = some (m, u))
    (hran : ExeDid.ran c ∈ (exeMain junk w p clean a b).1)
    (hp : Program (Target.outputPath m.fixed)) (hr : Readable a.configs) :
    arguments c = some (Path.toPathString (Target.outputPath m.fixed) ::
      a.configs.flatMap fun f => b!"--config" :: Target.given [f]) := by
  have hc : c = spaced (Path.displayString (Target.outputPath m.fixed) ::
      if a.configs = [] then [b!""] else a.configs.flatMap fun c => [b!"--config", c]) := by
    rcases C79_run_partial junk w p clean a b with ⟨-, -, -, tc', m', u', ht, hm, hd⟩ | ⟨-, hn, -⟩
    · rw [htc] at ht
      cases ht
      rw [hs] at hm
      cases hm
      rw [hd] at hran
      cases hmode : a.mode <;> cases clean <;> simp [hmode] at hran <;> exact hran
    · exact absurd hran (hn _)
  subst hc
  by_cases he : a.configs = []
  · rw [if_pos he, program_arguments hp (by intro x hx; rw [List.mem_singleton.1 hx]; rfl), he]
    rfl
  · rw [if_neg he, program_arguments hp]
    · congr 2
      rw [Target.given, List.flatMap_assoc]
      congr 1
    · intro x hx
      obtain ⟨f, hf, hx⟩ := List.mem_flatMap.1 hx
      simp only [List.mem_cons, List.not_mem_nil, or_false] at hx
      rcases hx with rfl | rfl
      · decide
      · exact hr _ hf

open Verif.Exe in
/-- C105: with names of configuration files without special characters and blanks, exactly these are
passed on.  Missing: other names, see `C105_script_false`. -/
theorem C105_script_partial (junk : Nat → Schema.TargetSchema) (w : World) (p : Target.Project)
    (clean : Bool) (a : ExeArgs) (b : Buildcc) {tc : Toolchain.Toolchain} {m : Target.Made}
    {u : Schema.TargetSchema} {c : Str} (htc : w.toolchain = some tc)
    (hs : setup junk p w.list tc a b = some (m, u))
    (hran : ExeDid.ran c ∈ (exeMain junk w p clean a b).1)
    (hp : Program (Target.outputPath m.fixed)) (hr : ∀ f ∈ a.configs, Plain f) :
    arguments c = some (Path.toPathString (Target.outputPath m.fixed) ::
      a.configs.flatMap fun f => [b!"--config", f]) := by
  rw [C105_script_exact junk w p clean a b htc hs hran hp (Target.given_plain hr).1]
  congr 2
  have : ∀ l : List Str, (∀ f ∈ l, Plain f) → (l.flatMap fun f => b!"--config" :: Target.given [f]) =
      l.flatMap fun f => [b!"--config", f] := by
    intro l
    induction l with
    | nil => intro _; rfl
    | cons f l ih =>
      intro hl
      rw [List.flatMap_cons, List.flatMap_cons, ih fun x hx => hl x (List.mem_cons_of_mem _ hx),
        (Target.given_plain (l := [f]) (by simpa using hl f (List.mem_cons_self ..))).2]
  exact this _ hr

open Verif.Exe in
/-- C105, what fails: nothing with a space in it is passed to the script, so no configuration file with a
space in its name. -/
theorem C105_script_false (junk : Nat → Schema.TargetSchema) (w : World) (p : Target.Project)
    (clean : Bool) (a : ExeArgs) (b : Buildcc) {tc : Toolchain.Toolchain} {m : Target.Made}
    {u : Schema.TargetSchema} {c f : Str} (htc : w.toolchain = some tc)
    (hs : setup junk p w.list tc a b = some (m, u))
    (hran : ExeDid.ran c ∈ (exeMain junk w p clean a b).1)
    (hp : Program (Target.outputPath m.fixed))
    (hr : ∀ x ∈ a.configs, ∀ b ∈ x, Ordinary b ∨ b = c!" ") (hsp : c!" " ∈ f)
    (hne : f ≠ Path.toPathString (Target.outputPath m.fixed)) :
    ∃ args, arguments c = some args ∧ f ∉ args := by
  have key : ∀ x ∈ a.configs, ∃ ws, Shell.split x = some ws ∧ ∀ v ∈ ws, c!" " ∉ v :=
    fun x hx => split_blanks x (hr x hx)
  refine ⟨_, C105_script_exact junk w p clean a b htc hs hran hp
    (fun x hx => by obtain ⟨ws, h, -⟩ := key x hx; rw [h]; rfl), ?_⟩
  simp only [List.mem_cons, List.mem_flatMap, not_or, not_exists, not_and]
  refine ⟨hne, fun x hx => ⟨?_, ?_⟩⟩
  · rintro rfl; exact absurd hsp (by decide)
  · obtain ⟨ws, h, hno⟩ := key x hx
    simp only [Target.given, List.flatMap_cons, List.flatMap_nil, List.append_nil, h, Option.getD_some]
    exact fun hm => hno f hm hsp

open Verif.Exe in
example : ∃ m u c, setup (fun _ => .empty) exProject exWorld.list
      (Toolchain.toolchainGcc b!"gcc" none none) exArgs exBuildcc = some (m, u) ∧
    exWorld.toolchain = some (Toolchain.toolchainGcc b!"gcc" none none) ∧
    ExeDid.ran c ∈ (exeMain (fun _ => .empty) exWorld exProject true exArgs exBuildcc).1 ∧
    Program (Target.outputPath m.fixed) ∧ (∀ f ∈ exArgs.configs, Plain f) ∧ exArgs.configs ≠ [] := by
  obtain ⟨m, u, h⟩ : ∃ m u, exMade = some (m, u) := by
    cases h : exMade with
    | none => exact absurd h (by decide +kernel)
    | some x => exact ⟨x.1, x.2, rfl⟩
  refine ⟨m, u, scriptCommand m exArgs.configs, h, rfl, ?_, ?_, by decide +kernel, by decide +kernel⟩
  · have : (exMade.map fun x => decide (ExeDid.ran (scriptCommand x.1 exArgs.configs) ∈
        (exeMain (fun _ => .empty) exWorld exProject true exArgs exBuildcc).1)) = some true := by
      decide +kernel
    rw [h] at this
    simpa using this
  · have : (exMade.map fun x => decide (Program (Target.outputPath x.1.fixed))) = some true := by
      decide +kernel
    rw [h] at this
    simpa using this

end Verif.Argv
