import Verif.Target.ShippedProps
import Verif.Command.WinArgs

/-!
# C116: on Windows the compiler and the linker get the arguments that the script describes

As C104, for the rules by which programs on Windows split a command into arguments
(`Command/WinArgs.lean`), and for the classes of all three compilers.  Backslashes, dollars, quotes of the
other kind and all other characters that mean something to a POSIX shell stand for themselves; a quoted
text must not end with a backslash (`path.h:76-83` puts quotes around paths with spaces as they are).

The texts of the commands are those of C82.  Its paths are made with `/`; a backslash in a path is a
character like others.
-/

namespace Verif.WinArgv
open Verif Verif.Command Verif.Toolchain Verif.Schema Verif.Target Verif.Windows

/-! ## Specification -/

/-- The arguments that texts are read as: a flag with a blank in it is several arguments. -/
def given (l : List Str) : List Str := l.flatMap fun f => (Windows.split f).getD []

/-- Texts that are read as arguments. -/
def Readable (l : List Str) : Prop := ∀ f ∈ l, (Windows.split f).isSome

instance (l : List Str) : Decidable (Readable l) := by unfold Readable; infer_instance

/-- A path without quotes and tabs.  Windows allows neither in a path. -/
def Legal (p : Str) : Prop := p ≠ [] ∧ ∀ b ∈ Path.toPathString p, b ≠ c!"\"" ∧ b ≠ c!"\t"

instance (p : Str) : Decidable (Legal p) := by unfold Legal; infer_instance

/-- A path with a space that ends with a backslash. -/
def Trailing (p : Str) : Prop :=
  c!" " ∈ Path.toPathString p ∧ (Path.toPathString p).getLast? = some c!"\\"

instance (p : Str) : Decidable (Trailing p) := by unfold Trailing; infer_instance

/-- The path of the object file of a source. -/
def objectFile (m : Made) (src : Str) : Str :=
  Path.objectPath m.rootDir m.buildDir (objectExt m.toolchain.id) src

/-- The path of the output of the target. -/
def outputFile (m : Made) : Str := Path.append m.buildDir (m.name ++ outputExt m.toolchain.id m.type)

/-- The program that links or archives. -/
def linkTool (m : Made) : Str :=
  if m.type = .staticLibrary then m.toolchain.executables.archiver
  else if m.toolchain.id = .msvc then m.toolchain.executables.linker
  else m.toolchain.executables.cppCompiler

/-- The object file of the precompiled header is linked too, by MSVC. -/
def pchObjects (m : Made) (u : TargetSchema) : List Str :=
  if u.pchs = [] then [] else [Path.pchObjectPath m.buildDir b!".h" (objectExt m.toolchain.id)]

/-- What the compiler gets when a source is compiled. -/
def compileArguments (m : Made) (u : TargetSchema) (tool : Str) (flags : List Str) (src : Str) :
    List Str :=
  let object := Path.toPathString (objectFile m src)
  [Path.toPathString tool] ++ given u.preprocessorFlags ++
    given (u.includeDirs.map (includeOption m.toolchain.id ++ ·)) ++ given u.commonCompileFlags ++
    (if u.pchs = [] then [] else given u.pchObjectFlags) ++ given flags ++
    (if m.toolchain.id = .msvc then [b!"/Fo" ++ object, b!"/c"] else [b!"-o", object, b!"-c"]) ++
    given [src]

/-- What the compiler gets when the precompiled header is compiled. -/
def pchArguments (m : Made) (u : TargetSchema) (cpp : Bool) : List Str :=
  let exe := m.toolchain.executables
  let header := Path.toPathString (Path.pchHeaderPath m.buildDir b!".h")
  let output := Path.toPathString (Path.pchCompilePath m.buildDir b!".h" (pchExt m.toolchain.id))
  let flags := given (if cpp then u.cppCompileFlags else u.cCompileFlags)
  [Path.toPathString (if cpp then exe.cppCompiler else exe.cCompiler)] ++ given u.preprocessorFlags ++
    given (u.includeDirs.map (includeOption m.toolchain.id ++ ·)) ++ given u.commonCompileFlags ++
    if m.toolchain.id = .msvc then
      [b!"/Yc" ++ header, b!"/FI" ++ header, b!"/Fp" ++ output] ++ given u.pchCompileFlags ++ flags ++
        [b!"/Fo" ++ Path.toPathString (Path.pchObjectPath m.buildDir b!".h" b!".obj"), b!"/c",
          Path.toPathString (Path.pchSourcePath m.buildDir b!".h" cpp)]
    else given u.pchCompileFlags ++ flags ++ [b!"-o", output, b!"-c", header]

/-- What the linker or the archiver gets. -/
def linkArguments (m : Made) (u : TargetSchema) (order : List Str) : List Str :=
  let tool := Path.toPathString (linkTool m)
  let objects := order.map fun s => Path.toPathString (objectFile m s)
  let output := Path.toPathString (outputFile m)
  let dirs := given (u.libDirs.map (libDirOption m.toolchain.id ++ ·))
  let libs := given (u.libs.map (·.path))
  let pch := (pchObjects m u).map Path.toPathString
  if m.toolchain.id = .msvc then
    match m.type with
    | .executable => [tool] ++ given u.linkFlags ++ dirs ++ [b!"/OUT:" ++ output] ++ libs ++
        given u.externalLibs ++ objects ++ pch
    | .staticLibrary => [tool] ++ given u.linkFlags ++ [b!"/OUT:" ++ output] ++ objects ++ pch
    | _ => [tool, b!"/DLL"] ++ given u.linkFlags ++
        [b!"/OUT:" ++ output ++ b!".dll", b!"/IMPLIB:" ++ output] ++ objects ++ pch
  else
    match m.type with
    | .executable => [tool] ++ given u.linkFlags ++ objects ++ [b!"-o", output] ++ dirs ++ libs ++
        given u.externalLibs
    | .staticLibrary => [tool, b!"rcs", output] ++ objects
    | _ => [tool, b!"-shared"] ++ given u.linkFlags ++ objects ++ [b!"-o", output] ++
        if m.toolchain.id = .mingw then [b!"-Wl,--out-implib," ++ output ++ b!".a"] else []

/-! ## Paths -/

theorem legal_ne {p : Str} (h : Legal p) : Path.toPathString p ≠ [] := Path.lexNormal_ne_nil p h.1

/-- C116: a formatted path, with texts before and behind it that need no quotes, is exactly one argument,
unless it has a space and ends with a backslash. -/
theorem C116_path {p : Str} (h : Legal p) (pre post : Str)
    (hpre : ∀ b ∈ pre, b ≠ c!"\"" ∧ b ≠ c!" " ∧ b ≠ c!"\t" ∧ b ≠ c!"\\")
    (hpost : ∀ b ∈ post, b ≠ c!"\"" ∧ b ≠ c!" " ∧ b ≠ c!"\t") :
    Windows.split (pre ++ Path.displayString p ++ post) = some [pre ++ Path.toPathString p ++ post] ↔
      ¬ Trailing p := by
  rw [Path.displayString, Trailing]
  split
  · rename_i hs
    have := split_quoted pre (Path.toPathString p) post hpre (fun b hb => (h.2 b hb).1) hpost
    simp only [hs, true_and]
    rw [← Ne, ← this]
    simp only [List.append_assoc, List.cons_append, List.nil_append]
  · rename_i hs
    simp only [hs, false_and, not_false_eq_true, iff_true]
    refine split_plain ⟨by simp [legal_ne h], fun b hb => ?_⟩
    rcases List.mem_append.1 hb with hb | hb
    · rcases List.mem_append.1 hb with hb | hb
      · exact ⟨(hpre b hb).1, (hpre b hb).2.1, (hpre b hb).2.2.1⟩
      · exact ⟨(h.2 b hb).1, fun e => hs (e ▸ hb), (h.2 b hb).2⟩
    · exact hpost b hb

/-! ## Lemmas -/

theorem split_display {p : Str} (h : Legal p) (ht : ¬ Trailing p) :
    Windows.split (Path.displayString p) = some [Path.toPathString p] := by
  have := (C116_path h [] [] (by simp) (by simp)).2 ht
  simpa using this

theorem split_option {p : Str} (h : Legal p) (ht : ¬ Trailing p) (pre : Str)
    (hpre : ∀ b ∈ pre, b ≠ c!"\"" ∧ b ≠ c!" " ∧ b ≠ c!"\t" ∧ b ≠ c!"\\") :
    Windows.split (pre ++ Path.displayString p) = some [pre ++ Path.toPathString p] := by
  have := (C116_path h pre [] hpre (by simp)).2 ht
  simpa using this

theorem split_given {l : List Str} (h : Readable l) : Windows.split (spaced l) = some (given l) :=
  split_spaced l h

theorem given_plain {l : List Str} (h : ∀ x ∈ l, Plain x) : Readable l ∧ given l = l := by
  refine ⟨fun x hx => by rw [split_plain (h x hx)]; rfl, ?_⟩
  induction l with
  | nil => rfl
  | cons x l ih =>
    rw [given, List.flatMap_cons, split_plain (h x (List.mem_cons_self ..))]
    exact congrArg (x :: ·) (ih fun y hy => h y (List.mem_cons_of_mem _ hy))

theorem given_display {l : List Str} (h : ∀ x ∈ l, Legal x ∧ ¬ Trailing x) :
    Readable (l.map Path.displayString) ∧ given (l.map Path.displayString) = l.map Path.toPathString := by
  constructor
  · intro x hx
    obtain ⟨y, hy, rfl⟩ := List.mem_map.1 hx
    rw [split_display (h y hy).1 (h y hy).2]; rfl
  · induction l with
    | nil => rfl
    | cons x l ih =>
      rw [List.map_cons, given, List.flatMap_cons,
        split_display (h x (List.mem_cons_self ..)).1 (h x (List.mem_cons_self ..)).2]
      exact congrArg (Path.toPathString x :: ·) (ih fun y hy => h y (List.mem_cons_of_mem _ hy))

/-- The name of the program is the path of the tool, and the rest of the command its arguments. -/
theorem arguments_display {tool : Str} (ht : Legal tool) (rest : Str) :
    arguments (Path.displayString tool ++ c!" " :: rest) =
      (Windows.split rest).map (Path.toPathString tool :: ·) := by
  have key : program false [] (Path.displayString tool ++ c!" " :: rest) =
      some (Path.toPathString tool, rest) := by
    rw [Path.displayString]
    split
    · have := program_quoted (Path.toPathString tool) [] rest fun b hb => (ht.2 b hb).1
      rw [List.cons_append, program, if_pos rfl, List.append_assoc]
      exact this
    · rename_i hs
      exact program_plain (Path.toPathString tool) [] rest
        fun b hb => ⟨(ht.2 b hb).1, fun e => hs (e ▸ hb), (ht.2 b hb).2⟩
  rw [arguments, key]
  exact if_neg (legal_ne ht)

theorem arguments_spaced {tool : Str} (ht : Legal tool) (x : Str) (parts : List Str)
    (h : Readable (x :: parts)) :
    arguments (spaced (Path.displayString tool :: x :: parts)) =
      some (Path.toPathString tool :: given (x :: parts)) := by
  have e : spaced (Path.displayString tool :: x :: parts) =
      Path.displayString tool ++ c!" " :: spaced (x :: parts) := by
    simp [spaced, List.intercalate, List.intersperse]
  rw [e, arguments_display ht, split_given h]
  rfl

theorem given_cons (x : Str) (l : List Str) :
    given (x :: l) = (Windows.split x).getD [] ++ given l := rfl

theorem given_nil : given [] = [] := rfl

theorem readable_cons (x : Str) (l : List Str) :
    Readable (x :: l) ↔ (Windows.split x).isSome ∧ Readable l := by simp [Readable]

theorem readable_nil : Readable [] := by simp [Readable]

/-! ## Properties -/

/-- C116, compiling: the program is started with exactly these arguments; a source or an include
directory counts as what is read from its text. -/
theorem C116_compile {id : ToolchainId} {m : Made} {u : TargetSchema} {src tool : Str}
    {flags : List Str} (h : ShippedTarget id m) (ht : Tool m.toolchain.executables u src tool flags)
    (hp : Legal tool) (ho : Legal (objectFile m src) ∧ ¬ Trailing (objectFile m src))
    (r1 : Readable u.preprocessorFlags)
    (r2 : Readable (u.includeDirs.map (includeOption m.toolchain.id ++ ·)))
    (r3 : Readable u.commonCompileFlags) (r4 : Readable u.pchObjectFlags) (r5 : Readable flags)
    (r6 : Readable [src]) :
    ∃ cmd, compileCommand m.fixed u src = .value cmd ∧
      arguments cmd = some (compileArguments m u tool flags src) := by
  refine ⟨_, C82_compile h ht, ?_⟩
  have h1 := h.facts.1
  subst h1
  have hobj : objectOf m src = Path.displayString (objectFile m src) := rfl
  rw [hobj, compileArguments]
  have r4' : Readable (if u.pchs = [] then [] else u.pchObjectFlags) := by
    split
    · exact readable_nil
    · exact r4
  have e4 : given (if u.pchs = [] then [] else u.pchObjectFlags) =
      if u.pchs = [] then [] else given u.pchObjectFlags := by
    split <;> rfl
  have s1 : Windows.split b!"-o" = some [b!"-o"] := by decide
  have s2 : Windows.split b!"-c" = some [b!"-c"] := by decide
  have s3 : Windows.split b!"/c" = some [b!"/c"] := by decide
  have s4 := split_option ho.1 ho.2 b!"/Fo" (by decide)
  have s5 := split_display ho.1 ho.2
  generalize u.includeDirs.map (includeOption m.toolchain.id ++ ·) = dirs at r2 ⊢
  have r6' := r6 src (by simp)
  simp only [List.cons_append, List.nil_append] at s4
  by_cases hid : m.toolchain.id = .msvc
  all_goals
    simp only [hid, if_true, if_false, List.cons_append, List.nil_append]
    rw [arguments_spaced hp]
    · simp only [given_cons, split_given r1, split_given r2, split_given r3, split_given r4',
        split_given r5, s1, s2, s3, s4, s5, Option.getD_some, e4, List.append_assoc, List.cons_append,
        List.nil_append]
    · simp only [readable_cons, split_given r1, split_given r2, split_given r3, split_given r4',
        split_given r5, s1, s2, s3, s4, s5, Option.isSome_some, true_and, readable_nil, and_true]
      exact r6'

/-- C116, compiling the precompiled header. -/
theorem C116_pch {id : ToolchainId} {m : Made} {u : TargetSchema} (h : ShippedTarget id m)
    (hpch : u.pchs ≠ []) {cpp : Bool}
    (hcpp : cpp = true ↔ ∃ s ∈ u.sources, Path.extension s.path ∈ [b!".cpp", b!".cxx", b!".cc"])
    (hp : Legal (if cpp then m.toolchain.executables.cppCompiler else m.toolchain.executables.cCompiler))
    (hfiles : ∀ p ∈ [Path.pchHeaderPath m.buildDir b!".h",
      Path.pchCompilePath m.buildDir b!".h" (pchExt m.toolchain.id),
      Path.pchObjectPath m.buildDir b!".h" b!".obj", Path.pchSourcePath m.buildDir b!".h" cpp],
      Legal p ∧ ¬ Trailing p)
    (r1 : Readable u.preprocessorFlags)
    (r2 : Readable (u.includeDirs.map (includeOption m.toolchain.id ++ ·)))
    (r3 : Readable u.commonCompileFlags) (r4 : Readable u.pchCompileFlags)
    (r5 : Readable (if cpp then u.cppCompileFlags else u.cCompileFlags)) :
    ∃ cmd, pchCommand m.fixed u = .value cmd ∧ arguments cmd = some (pchArguments m u cpp) := by
  refine ⟨_, C82_pch h hpch hcpp, ?_⟩
  have h1 := h.facts.1
  subst h1
  rw [pchArguments]
  simp only [List.mem_cons, List.not_mem_nil, or_false, forall_eq_or_imp, forall_eq] at hfiles
  obtain ⟨f1, f2, f3, f4⟩ := hfiles
  have s1 : Windows.split b!"-o" = some [b!"-o"] := by decide
  have s2 : Windows.split b!"-c" = some [b!"-c"] := by decide
  have s3 : Windows.split b!"/c" = some [b!"/c"] := by decide
  have a1 := split_option f1.1 f1.2 b!"/Yc" (by decide)
  have a2 := split_option f1.1 f1.2 b!"/FI" (by decide)
  have a3 := split_option f2.1 f2.2 b!"/Fp" (by decide)
  have a4 := split_option f3.1 f3.2 b!"/Fo" (by decide)
  have a5 := split_display f4.1 f4.2
  have a6 := split_display f1.1 f1.2
  have a7 := split_display f2.1 f2.2
  generalize u.includeDirs.map (includeOption m.toolchain.id ++ ·) = dirs at r2 ⊢
  generalize (if cpp = true then u.cppCompileFlags else u.cCompileFlags) = flags at r5 ⊢
  generalize (if cpp = true then m.toolchain.executables.cppCompiler
    else m.toolchain.executables.cCompiler) = tool at hp ⊢
  simp only [List.cons_append, List.nil_append] at a1 a2 a3 a4
  by_cases hid : m.toolchain.id = .msvc
  all_goals
    simp only [hid, if_true, if_false, List.cons_append, List.nil_append] at a3 a7 ⊢
    rw [arguments_spaced hp]
    · simp only [given_cons, given_nil, split_given r1, split_given r2, split_given r3, split_given r4,
        split_given r5, s1, s2, s3, a1, a2, a3, a4, a5, a6, a7, Option.getD_some, List.append_assoc,
        List.cons_append, List.nil_append]
    · simp only [readable_cons, split_given r1, split_given r2, split_given r3, split_given r4,
        split_given r5, s1, s2, s3, a1, a2, a3, a4, a5, a6, a7, Option.isSome_some, true_and]
      exact readable_nil

/-- C116, linking: a library or a library directory counts as what is read from its text. -/
theorem C116_link {id : ToolchainId} {m : Made} (u : TargetSchema) (order : List Str)
    (h : ShippedTarget id m) (hp : Legal (linkTool m))
    (hobj : ∀ s ∈ order, Legal (objectFile m s) ∧ ¬ Trailing (objectFile m s))
    (ho : Legal (outputFile m) ∧ ¬ Trailing (outputFile m))
    (hpch : ∀ p ∈ pchObjects m u, Legal p ∧ ¬ Trailing p) (r1 : Readable u.linkFlags)
    (r2 : Readable u.externalLibs)
    (r3 : Readable (u.libDirs.map (libDirOption m.toolchain.id ++ ·)))
    (r4 : Readable (u.libs.map (·.path))) :
    ∃ cmd, linkCommand m.fixed u order = .value cmd ∧ arguments cmd = some (linkArguments m u order) := by
  refine ⟨_, C82_link u order h, ?_⟩
  obtain ⟨h1, -, -, h4, h5⟩ := h.facts
  subst h1
  have eobj : order.map (objectOf m) = (order.map (objectFile m)).map Path.displayString := by
    rw [List.map_map]; rfl
  have g := given_display (l := order.map (objectFile m)) (by
    intro x hx
    obtain ⟨s, hs, rfl⟩ := List.mem_map.1 hx
    exact hobj s hs)
  have emap : (order.map (objectFile m)).map Path.toPathString =
      order.map fun s => Path.toPathString (objectFile m s) := by rw [List.map_map]; rfl
  have eout : outputOf m = Path.displayString (outputFile m) := rfl
  have epch : Windows.split (pchObjectOf m u) = some ((pchObjects m u).map Path.toPathString) := by
    rw [pchObjectOf]
    rw [pchObjects] at hpch ⊢
    split
    · rfl
    · rename_i hu
      rw [if_neg hu] at hpch
      have := hpch _ (List.mem_cons_self ..)
      exact split_display this.1 this.2
  have s1 : Windows.split b!"-o" = some [b!"-o"] := by decide
  have s2 : Windows.split b!"rcs" = some [b!"rcs"] := by decide
  have s3 : Windows.split b!"-shared" = some [b!"-shared"] := by decide
  have s4 : Windows.split b!"/DLL" = some [b!"/DLL"] := by decide
  have a1 := (C116_path ho.1 b!"-Wl,--out-implib," b!".a" (by decide) (by decide)).2 ho.2
  have a2 := split_option ho.1 ho.2 b!"/OUT:" (by decide)
  have a3 := (C116_path ho.1 b!"/OUT:" b!".dll" (by decide) (by decide)).2 ho.2
  have a4 := split_option ho.1 ho.2 b!"/IMPLIB:" (by decide)
  have a5 := split_display ho.1 ho.2
  rw [linkWords, eobj, eout, linkArguments]
  rw [emap] at g
  generalize (order.map (objectFile m)).map Path.displayString = objs at g ⊢
  have htool : linkTool m = if m.type = .staticLibrary then m.toolchain.executables.archiver
    else if m.toolchain.id = .msvc then m.toolchain.executables.linker
    else m.toolchain.executables.cppCompiler := rfl
  generalize u.libDirs.map (libDirOption m.toolchain.id ++ ·) = dirs at r3 ⊢
  simp only [List.cons_append, List.nil_append, List.append_assoc] at a1 a2 a3 a4
  have h4 : m.toolchain.id = .gcc ∨ m.toolchain.id = .msvc ∨ m.toolchain.id = .mingw := by
    rcases h4 with h | h | h
    · exact .inl h
    · exact .inr (.inr h)
    · exact .inr (.inl h)
  rcases h4 with hid | hid | hid <;> cases hty : m.type <;> rw [hty] at h5 htool <;> rw [hid] at htool <;>
    first | exact absurd rfl h5 | skip
  all_goals
    simp only [reduceCtorEq, if_true, if_false] at htool
    rw [htool] at hp
    simp only [hid, htool, reduceCtorEq, if_true, if_false]
    rw [arguments_spaced hp]
    · simp only [given_cons, given_nil, split_given r1, split_given r2, split_given r3, split_given r4,
        split_given g.1, g.2, epch, s1, s2, s3, s4, a1, a2, a3, a4, a5, Option.getD_some,
        List.append_assoc, List.cons_append, List.nil_append, List.append_nil]
    · simp only [readable_cons, split_given r1, split_given r2, split_given r3, split_given r4,
        split_given g.1, epch, s1, s2, s3, s4, a1, a2, a3, a4, a5, List.append_assoc, List.cons_append,
        List.nil_append, Option.isSome_some, true_and]
      exact readable_nil

/-- C116, compiling: every path is one argument.  Partial: sources and include directories without
spaces (`C116_source_false`). -/
theorem C116_compile_partial {id : ToolchainId} {m : Made} {u : TargetSchema} {src tool : Str}
    {flags : List Str} (h : ShippedTarget id m) (ht : Tool m.toolchain.executables u src tool flags)
    (hp : Legal tool) (ho : Legal (objectFile m src) ∧ ¬ Trailing (objectFile m src))
    (r1 : Readable u.preprocessorFlags) (r3 : Readable u.commonCompileFlags)
    (r4 : Readable u.pchObjectFlags) (r5 : Readable flags) (hsrc : Plain src)
    (hinc : ∀ d ∈ u.includeDirs, Plain d) :
    let object := Path.toPathString (objectFile m src)
    ∃ cmd, compileCommand m.fixed u src = .value cmd ∧
      arguments cmd = some ([Path.toPathString tool] ++ given u.preprocessorFlags ++
        u.includeDirs.map (includeOption id ++ ·) ++ given u.commonCompileFlags ++
        (if u.pchs = [] then [] else given u.pchObjectFlags) ++ given flags ++
        (if id = .msvc then [b!"/Fo" ++ object, b!"/c"] else [b!"-o", object, b!"-c"]) ++ [src]) := by
  have h1 := h.facts.1
  subst h1
  have hopt : ∀ b ∈ includeOption m.toolchain.id, b ≠ c!"\"" ∧ b ≠ c!" " ∧ b ≠ c!"\t" := by
    rw [includeOption]; split <;> decide
  have p2 := given_plain (l := u.includeDirs.map (includeOption m.toolchain.id ++ ·)) (by
    intro x hx
    obtain ⟨d, hd, rfl⟩ := List.mem_map.1 hx
    refine ⟨by simp [(hinc d hd).1], fun b hb => ?_⟩
    rcases List.mem_append.1 hb with hb | hb
    · exact hopt b hb
    · exact (hinc d hd).2 b hb)
  have p6 := given_plain (l := [src]) (by simpa using hsrc)
  obtain ⟨cmd, hc, ha⟩ := C116_compile h ht hp ho r1 p2.1 r3 r4 r5 p6.1
  refine ⟨cmd, hc, ha.trans ?_⟩
  rw [compileArguments, p2.2, p6.2]

/-- Texts without quotes. -/
def Bare (l : List Str) : Prop := ∀ f ∈ l, ∀ b ∈ f, b ≠ c!"\""

instance (l : List Str) : Decidable (Bare l) := by unfold Bare; infer_instance

theorem bare_given {l : List Str} (h : Bare l) : Readable l ∧ ∀ a ∈ given l, c!" " ∉ a := by
  constructor
  · intro f hf
    obtain ⟨ws, hw, -⟩ := split_blanks f (h f hf)
    rw [hw]; rfl
  · intro a ha
    obtain ⟨f, hf, ha⟩ := List.mem_flatMap.1 ha
    obtain ⟨ws, hw, hws⟩ := split_blanks f (h f hf)
    rw [hw] at ha
    exact hws a ha

theorem bare_prefix {pre : Str} (hp : ∀ b ∈ pre, b ≠ c!"\"") {l : List Str} (h : Bare l) :
    Bare (l.map (pre ++ ·)) := by
  intro x hx b hb
  obtain ⟨d, hd, rfl⟩ := List.mem_map.1 hx
  rcases List.mem_append.1 hb with hb | hb
  · exact hp b hb
  · exact h d hd b hb

/-- C116, what fails: the compiler is given no text `x` with a space, neither a source nor an include
directory with its option, unless it is the tool or the text for the object. -/
theorem C116_source_false {id : ToolchainId} {m : Made} {u : TargetSchema} {src tool x : Str}
    {flags : List Str} (h : ShippedTarget id m) (ht : Tool m.toolchain.executables u src tool flags)
    (hp : Legal tool) (ho : Legal (objectFile m src) ∧ ¬ Trailing (objectFile m src))
    (hflags : Bare (u.preprocessorFlags ++ u.includeDirs ++ u.commonCompileFlags ++ u.pchObjectFlags ++
      flags)) (hbare : Bare [src]) (hsp : c!" " ∈ x)
    (hne : x ≠ Path.toPathString tool ∧ x ≠ Path.toPathString (objectFile m src) ∧
      x ≠ b!"/Fo" ++ Path.toPathString (objectFile m src)) :
    ∃ cmd args, compileCommand m.fixed u src = .value cmd ∧ arguments cmd = some args ∧ x ∉ args := by
  simp only [Bare, List.mem_append, or_imp, forall_and] at hflags
  obtain ⟨⟨⟨⟨b1, b2⟩, b3⟩, b4⟩, b5⟩ := hflags
  have hopt : ∀ b ∈ includeOption m.toolchain.id, b ≠ c!"\"" := by
    rw [includeOption]; split <;> decide
  have b1 := bare_given b1
  have b2 := bare_given (bare_prefix hopt b2)
  have b3 := bare_given b3
  have b4 := bare_given b4
  have b5 := bare_given b5
  have b6 := bare_given hbare
  obtain ⟨cmd, hc, ha⟩ := C116_compile h ht hp ho b1.1 b2.1 b3.1 b4.1 b5.1 b6.1
  refine ⟨cmd, _, hc, ha, ?_⟩
  have hx : ∀ {l : List Str}, (∀ a ∈ l, c!" " ∉ a) → x ∉ l := fun hl hm => hl _ hm hsp
  have e4 : x ∉ (if u.pchs = [] then [] else given u.pchObjectFlags) := by
    split
    · simp
    · exact hx b4.2
  have e5 : x ∉ (if m.toolchain.id = .msvc then [b!"/Fo" ++ Path.toPathString (objectFile m src), b!"/c"]
      else [b!"-o", Path.toPathString (objectFile m src), b!"-c"]) := by
    split
    · simp only [List.mem_cons, List.not_mem_nil, or_false, not_or]
      exact ⟨hne.2.2, by rintro rfl; exact absurd hsp (by decide)⟩
    · simp only [List.mem_cons, List.not_mem_nil, or_false, not_or]
      exact ⟨by rintro rfl; exact absurd hsp (by decide), hne.2.1,
        by rintro rfl; exact absurd hsp (by decide)⟩
  rw [compileArguments]
  simp only [List.mem_append, List.mem_singleton, not_or]
  exact ⟨⟨⟨⟨⟨⟨⟨hne.1, hx b1.2⟩, hx b2.2⟩, hx b3.2⟩, e4⟩, hx b5.2⟩, e5⟩, hx b6.2⟩

/-- C116, what fails: a quoted path with a backslash at its end leaves its argument open, or loses
backslashes. -/
theorem C116_backslash_false :
    Legal b!"a b\\" ∧ Path.displayString b!"a b\\" = b!"\"a b\\\"" ∧
      Windows.split (Path.displayString b!"a b\\") = none ∧
      Windows.split (Path.displayString b!"a b\\\\") = some [b!"a b\\"] := by
  decide +kernel

/-! ## Concrete cases -/

/-- A program with all kinds of inputs. -/
def exWinUser (dir : Str) : TargetSchema :=
  { TargetSchema.empty with
    sources := [⟨dir ++ b!"/src/main.cpp", []⟩], includeDirs := [dir ++ b!"/inc"]
    libDirs := [dir ++ b!"/lib"], libs := [⟨dir ++ b!"/lib/z.lib", []⟩]
    pchs := [⟨dir ++ b!"/inc/all.h", []⟩]
    preprocessorFlags := [b!"/DNAME=\\\"x\\\"", b!"\"/DTEXT=a b\""], cppCompileFlags := [b!"/O2 /EHsc"]
    linkFlags := [b!"/DEBUG"], externalLibs := [b!"user32.lib"] }

def exWinMade (root build : Str) : Option Made :=
  targetGeneric (fun _ => .empty) ⟨true, root, build⟩ b!"app" .executable
    (toolchainMsvc b!"msvc" none none) (.relative ⟨true, root, build⟩ [])

theorem exWin_shipped {root build : Str} {m : Made} (h : exWinMade root build = some m)
    (ht : m.toolchain = toolchainMsvc b!"msvc" none none) (hn : m.name = b!"app")
    (hty : m.type = .executable) : ShippedTarget .msvc m := by
  refine ⟨⟨b!"msvc", none, none, ?_⟩, ⟨fun _ => .empty, ⟨true, root, build⟩,
    .relative ⟨true, root, build⟩ [], ?_⟩⟩
  · rw [ht]; exact .msvc _ _ _
  · rw [ht, hn, hty]; exact h

/-- A build directory with a space: the hypotheses of `C116_compile`, `C116_compile_partial`, `C116_pch`
and `C116_link` are met. -/
example : ∃ m, exWinMade b!"/p" b!"/my out" = some m ∧ ShippedTarget .msvc m ∧
    let u := exWinUser b!"/p"
    let src := b!"/p/src/main.cpp"
    Tool m.toolchain.executables u src b!"cl" [b!"/O2 /EHsc"] ∧ Legal b!"cl" ∧
    Legal (linkTool m) ∧ Legal (objectFile m src) ∧ ¬ Trailing (objectFile m src) ∧
    Legal (outputFile m) ∧ ¬ Trailing (outputFile m) ∧ (∀ p ∈ pchObjects m u, Legal p ∧ ¬ Trailing p) ∧
    (∀ p ∈ [Path.pchHeaderPath m.buildDir b!".h",
      Path.pchCompilePath m.buildDir b!".h" (pchExt m.toolchain.id),
      Path.pchObjectPath m.buildDir b!".h" b!".obj", Path.pchSourcePath m.buildDir b!".h" true],
      Legal p ∧ ¬ Trailing p) ∧
    Plain src ∧ (∀ d ∈ u.includeDirs, Plain d) ∧
    Readable (u.preprocessorFlags ++ u.cppCompileFlags ++ u.linkFlags ++ u.externalLibs ++
      u.includeDirs.map (includeOption m.toolchain.id ++ ·) ++
      u.libDirs.map (libDirOption m.toolchain.id ++ ·) ++ u.libs.map (·.path) ++ [src]) ∧
    compileArguments m u b!"cl" [b!"/O2 /EHsc"] src =
      [b!"cl", b!"/DNAME=\"x\"", b!"/DTEXT=a b", b!"/I/p/inc", b!"/O2", b!"/EHsc",
        b!"/Fo/my out/msvc/app/src/main.cpp.obj", b!"/c", b!"/p/src/main.cpp"] ∧
    linkArguments m u [src] =
      [b!"link", b!"/DEBUG", b!"/LIBPATH:/p/lib", b!"/OUT:/my out/msvc/app/app.exe", b!"/p/lib/z.lib",
        b!"user32.lib", b!"/my out/msvc/app/src/main.cpp.obj", b!"/my out/msvc/app/buildcc_pch.obj"] := by
  refine ⟨(exWinMade b!"/p" b!"/my out").get (by decide +kernel), by simp, ?_, .cpp ?_, ?_⟩
  · exact exWin_shipped (Option.some_get _).symm (by decide +kernel) (by decide +kernel) (by decide +kernel)
  · decide +kernel
  · decide +kernel

/-- A project in a directory with a space: the hypotheses of `C116_source_false` are met by its
source and by its include directory. -/
example : ∃ m, exWinMade b!"/my p" b!"/my p/out" = some m ∧ ShippedTarget .msvc m ∧
    let u := { exWinUser b!"/my p" with preprocessorFlags := [b!"/DX=1"] }
    let src := b!"/my p/src/main.cpp"
    Tool m.toolchain.executables u src b!"cl" [b!"/O2 /EHsc"] ∧ Legal b!"cl" ∧
    Legal (objectFile m src) ∧ ¬ Trailing (objectFile m src) ∧
    Bare (u.preprocessorFlags ++ u.includeDirs ++ u.commonCompileFlags ++ u.pchObjectFlags ++
      [b!"/O2 /EHsc"]) ∧ Bare [src] ∧
    ∀ x ∈ [src, b!"/I/my p/inc"], c!" " ∈ x ∧ x ≠ b!"cl" ∧ x ≠ Path.toPathString (objectFile m src) ∧
      x ≠ b!"/Fo" ++ Path.toPathString (objectFile m src) := by
  refine ⟨(exWinMade b!"/my p" b!"/my p/out").get (by decide +kernel), by simp, ?_, .cpp ?_, ?_⟩
  · exact exWin_shipped (Option.some_get _).symm (by decide +kernel) (by decide +kernel) (by decide +kernel)
  · decide +kernel
  · decide +kernel

end Verif.WinArgv
