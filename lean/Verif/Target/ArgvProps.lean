import Verif.Target.ShippedProps
import Verif.Command.Shell

/-!
# C104: the compiler and the linker get the arguments that the script describes

C82 is about the text of the commands, this file about what a POSIX shell makes of the text
(`Command/Shell.lean`): a program and its arguments.  The tool, the object files, the output and the
files of the precompiled header are formatted as paths and survive spaces.  Sources, include
directories, library directories and libraries are inserted as they are
(`compile_object.cpp:48-63`, `link_target.cpp:39-62`, `target.cpp:60-99`).
-/

namespace Verif.Target
open Verif Verif.Command Verif.Toolchain Verif.Schema Verif.Shell

/-! ## Specification -/

/-- The arguments that texts are read as: a flag with a blank in it is several arguments. -/
def given (l : List Str) : List Str := l.flatMap fun f => (Shell.split f).getD []

/-- Texts that a shell reads as arguments. -/
def Readable (l : List Str) : Prop := ∀ f ∈ l, (Shell.split f).isSome

instance (l : List Str) : Decidable (Readable l) := by unfold Readable; infer_instance

/-- A path of ordinary characters and spaces. -/
def Tame (p : Str) : Prop := p ≠ [] ∧ ∀ b ∈ Path.toPathString p, Ordinary b ∨ b = c!" "

instance (p : Str) : Decidable (Tame p) := by unfold Tame; infer_instance

/-- The path of a program. -/
def Program (p : Str) : Prop :=
  Tame p ∧ Path.toPathString p ∉ keywords ∧ c!"=" ∉ Path.toPathString p

instance (p : Str) : Decidable (Program p) := by unfold Program; infer_instance

/-- The path of the object file of a source. -/
def objectFile (m : Made) (src : Str) : Str := Path.objectPath m.rootDir m.buildDir b!".o" src

/-- The path of the output of the target. -/
def outputFile (m : Made) : Str := Path.append m.buildDir (m.name ++ outputExt m.toolchain.id m.type)

/-- The path of the generated header. -/
def headerFile (m : Made) : Str := Path.pchHeaderPath m.buildDir b!".h"

/-- The path of the compiled header. -/
def compiledHeader (m : Made) : Str := Path.pchCompilePath m.buildDir b!".h" b!".gch"

/-- What the compiler gets when a source is compiled. -/
def compileArguments (m : Made) (u : TargetSchema) (tool : Str) (flags : List Str) (src : Str) :
    List Str :=
  [Path.toPathString tool] ++ given u.preprocessorFlags ++ u.includeDirs.map (b!"-I" ++ ·) ++
    given u.commonCompileFlags ++ (if u.pchs = [] then [] else given u.pchObjectFlags) ++ given flags ++
    [b!"-o", Path.toPathString (objectFile m src), b!"-c", src]

/-- What the compiler gets when the precompiled header is compiled. -/
def pchArguments (m : Made) (u : TargetSchema) (tool : Str) (flags : List Str) : List Str :=
  [Path.toPathString tool] ++ given u.preprocessorFlags ++ u.includeDirs.map (b!"-I" ++ ·) ++
    given u.commonCompileFlags ++ given u.pchCompileFlags ++ given flags ++
    [b!"-o", Path.toPathString (compiledHeader m), b!"-c", Path.toPathString (headerFile m)]

/-- The program that links or archives. -/
def linkTool (m : Made) : Str :=
  if m.type = .staticLibrary then m.toolchain.executables.archiver
  else m.toolchain.executables.cppCompiler

/-- What this program gets. -/
def linkArguments (m : Made) (u : TargetSchema) (order : List Str) : List Str :=
  let objects := order.map fun s => Path.toPathString (objectFile m s)
  let output := Path.toPathString (outputFile m)
  match m.type with
  | .executable => [Path.toPathString (linkTool m)] ++ given u.linkFlags ++ objects ++
      [b!"-o", output] ++ u.libDirs.map (b!"-L" ++ ·) ++ u.libs.map (·.path) ++ given u.externalLibs
  | .staticLibrary => [Path.toPathString (linkTool m), b!"rcs", output] ++ objects
  | _ => [Path.toPathString (linkTool m), b!"-shared"] ++ given u.linkFlags ++ objects ++
      [b!"-o", output] ++
      if m.toolchain.id = .mingw then [b!"-Wl,--out-implib," ++ output ++ b!".a"] else []

/-! ## Lemmas -/

theorem tame_ne {p : Str} (h : Tame p) : Path.toPathString p ≠ [] := Path.lexNormal_ne_nil p h.1

theorem tame_quotable {p : Str} (h : Tame p) : ∀ b ∈ Path.toPathString p,
    b ≠ c!"\"" ∧ b ≠ c!"$" ∧ b ≠ c!"`" ∧ b ≠ c!"\\" := by
  intro b hb
  rcases h.2 b hb with ho | rfl
  · obtain ⟨-, -, h3, -, h5, h6, h7⟩ := ordinary_ne ho
    exact ⟨h3, h6, h7, h5⟩
  · decide

/-- A formatted path with ordinary texts around it is one argument. -/
theorem split_display {p : Str} (h : Tame p) (pre post : Str) (hpre : ∀ b ∈ pre, Ordinary b)
    (hpost : ∀ b ∈ post, Ordinary b) :
    Shell.split (pre ++ Path.displayString p ++ post) = some [pre ++ Path.toPathString p ++ post] := by
  rw [Path.displayString]
  split
  · have := split_quoted pre (Path.toPathString p) hpre (tame_quotable h) post hpost
    simpa using this
  · rename_i hs
    refine split_plain ⟨by simp [tame_ne h], fun b hb => ?_⟩
    rcases List.mem_append.1 hb with hb | hb
    · rcases List.mem_append.1 hb with hb | hb
      · exact hpre b hb
      · rcases h.2 b hb with ho | rfl
        · exact ho
        · exact absurd hb hs
    · exact hpost b hb

theorem split_display' {p : Str} (h : Tame p) :
    Shell.split (Path.displayString p) = some [Path.toPathString p] := by
  have := split_display h [] [] (by simp) (by simp)
  simpa using this

theorem split_given {l : List Str} (h : Readable l) : Shell.split (spaced l) = some (given l) :=
  split_spaced l h

theorem given_plain {l : List Str} (h : ∀ x ∈ l, Plain x) : Readable l ∧ given l = l := by
  refine ⟨fun x hx => by rw [split_plain (h x hx)]; rfl, ?_⟩
  induction l with
  | nil => rfl
  | cons x l ih =>
    rw [given, List.flatMap_cons, split_plain (h x (List.mem_cons_self ..))]
    exact congrArg (x :: ·) (ih fun y hy => h y (List.mem_cons_of_mem _ hy))

theorem plain_prefix {pre x : Str} (hp : ∀ b ∈ pre, Ordinary b) (h : Plain x) : Plain (pre ++ x) :=
  ⟨by simp [h.1], fun b hb => (List.mem_append.1 hb).elim (hp b) (h.2 b)⟩

theorem given_display {l : List Str} (h : ∀ x ∈ l, Tame x) :
    Readable (l.map Path.displayString) ∧ given (l.map Path.displayString) = l.map Path.toPathString := by
  constructor
  · intro x hx
    obtain ⟨y, hy, rfl⟩ := List.mem_map.1 hx
    rw [split_display' (h y hy)]; rfl
  · induction l with
    | nil => rfl
    | cons x l ih =>
      rw [List.map_cons, given, List.flatMap_cons, split_display' (h x (List.mem_cons_self ..))]
      exact congrArg (Path.toPathString x :: ·) (ih fun y hy => h y (List.mem_cons_of_mem _ hy))

/-- A command that is a tool and texts that a shell reads. -/
theorem arguments_spaced {tool : Str} (ht : Program tool) (parts : List Str) (h : Readable parts) :
    arguments (spaced (Path.displayString tool :: parts)) =
      some (Path.toPathString tool :: given parts) := by
  have hs : Shell.split (spaced (Path.displayString tool :: parts)) =
      some (Path.toPathString tool :: given parts) := by
    rw [split_given]
    · rw [given, List.flatMap_cons, split_display' ht.1]; rfl
    · intro x hx
      rcases List.mem_cons.1 hx with rfl | hx
      · rw [split_display' ht.1]; rfl
      · exact h x hx
  rw [arguments, hs]
  simp only
  rw [if_neg (by simp [ht.2.1, ht.2.2])]

theorem given_cons (x : Str) (l : List Str) :
    given (x :: l) = (Shell.split x).getD [] ++ given l := rfl

theorem readable_cons (x : Str) (l : List Str) :
    Readable (x :: l) ↔ (Shell.split x).isSome ∧ Readable l := by simp [Readable]

theorem readable_nil : Readable [] := by simp [Readable]

/-! ## Properties -/

/-- C104, compiling: the shell starts the compiler with exactly these arguments; a source or an include
directory counts as what the shell reads from its text. -/
theorem C104_compile_exact {id : ToolchainId} {m : Made} {u : TargetSchema} {src tool : Str}
    {flags : List Str} (hid : id ≠ .msvc) (h : ShippedTarget id m)
    (ht : Tool m.toolchain.executables u src tool flags) (hp : Program tool)
    (ho : Tame (objectFile m src)) (r1 : Readable u.preprocessorFlags)
    (r2 : Readable (u.includeDirs.map (b!"-I" ++ ·))) (r3 : Readable u.commonCompileFlags)
    (r4 : Readable u.pchObjectFlags) (r5 : Readable flags) (r6 : Readable [src]) :
    ∃ cmd, compileCommand m.fixed u src = .value cmd ∧
      arguments cmd = some ([Path.toPathString tool] ++ given u.preprocessorFlags ++
        given (u.includeDirs.map (b!"-I" ++ ·)) ++ given u.commonCompileFlags ++
        (if u.pchs = [] then [] else given u.pchObjectFlags) ++ given flags ++
        [b!"-o", Path.toPathString (objectFile m src), b!"-c"] ++ given [src]) := by
  refine ⟨_, C82_compile h ht, ?_⟩
  have h1 := h.facts.1
  have hobj : objectOf m src = Path.displayString (objectFile m src) := by
    rw [objectOf, objectFile, h1, objectExt, if_neg hid]
  have hinc : includeOption id = b!"-I" := by rw [includeOption, if_neg hid]
  rw [if_neg hid, hobj, hinc]
  have r4' : Readable (if u.pchs = [] then [] else u.pchObjectFlags) := by
    split
    · exact readable_nil
    · exact r4
  have e4 : given (if u.pchs = [] then [] else u.pchObjectFlags) =
      if u.pchs = [] then [] else given u.pchObjectFlags := by
    split <;> rfl
  have s1 : Shell.split b!"-o" = some [b!"-o"] := by decide
  have s2 : Shell.split b!"-c" = some [b!"-c"] := by decide
  generalize u.includeDirs.map (b!"-I" ++ ·) = dirs at r2 ⊢
  rw [List.cons_append, arguments_spaced hp]
  · simp only [List.cons_append, List.nil_append, given_cons, split_given r1, split_given r2,
      split_given r3, split_given r4', split_given r5, split_display' ho, s1, s2, Option.getD_some, e4,
      List.append_assoc]
  · simp only [List.cons_append, List.nil_append, readable_cons, split_given r1, split_given r2,
      split_given r3, split_given r4', split_given r5, split_display' ho, s1, s2, Option.isSome_some,
      true_and, readable_nil, and_true]
    exact r6 src (by simp)

/-- C104, compiling: every path is one argument.  Partial: sources and include directories without
spaces (`C104_source_false`, `C104_include_false`). -/
theorem C104_compile_partial {id : ToolchainId} {m : Made} {u : TargetSchema} {src tool : Str}
    {flags : List Str} (hid : id ≠ .msvc) (h : ShippedTarget id m)
    (ht : Tool m.toolchain.executables u src tool flags) (hp : Program tool)
    (ho : Tame (objectFile m src)) (r1 : Readable u.preprocessorFlags)
    (r3 : Readable u.commonCompileFlags) (r4 : Readable u.pchObjectFlags) (r5 : Readable flags)
    (hsrc : Plain src) (hinc : ∀ d ∈ u.includeDirs, Plain d) :
    ∃ cmd, compileCommand m.fixed u src = .value cmd ∧
      arguments cmd = some (compileArguments m u tool flags src) := by
  have p2 := given_plain (l := u.includeDirs.map (b!"-I" ++ ·)) (by
    intro x hx
    obtain ⟨d, hd, rfl⟩ := List.mem_map.1 hx
    exact plain_prefix (by decide) (hinc d hd))
  have p6 := given_plain (l := [src]) (by simpa using hsrc)
  obtain ⟨cmd, hc, ha⟩ := C104_compile_exact hid h ht hp ho r1 p2.1 r3 r4 r5 p6.1
  refine ⟨cmd, hc, ha.trans ?_⟩
  rw [p2.2, p6.2, compileArguments]
  simp only [List.append_assoc, List.cons_append, List.nil_append]

/-- C104, the precompiled header.  Partial: include directories without spaces. -/
theorem C104_pch_partial {id : ToolchainId} {m : Made} {u : TargetSchema} (hid : id ≠ .msvc)
    (h : ShippedTarget id m) (hpch : u.pchs ≠ []) {cpp : Bool}
    (hcpp : cpp = true ↔ ∃ s ∈ u.sources, Path.extension s.path ∈ [b!".cpp", b!".cxx", b!".cc"])
    {tool : Str} {flags : List Str}
    (htool : tool = if cpp then m.toolchain.executables.cppCompiler else m.toolchain.executables.cCompiler)
    (hflags : flags = if cpp then u.cppCompileFlags else u.cCompileFlags) (hp : Program tool)
    (ho : Tame (compiledHeader m)) (hh : Tame (headerFile m)) (r1 : Readable u.preprocessorFlags)
    (r3 : Readable u.commonCompileFlags) (r4 : Readable u.pchCompileFlags) (r5 : Readable flags)
    (hinc : ∀ d ∈ u.includeDirs, Plain d) :
    ∃ cmd, pchCommand m.fixed u = .value cmd ∧
      arguments cmd = some (pchArguments m u tool flags) := by
  refine ⟨_, C82_pch h hpch hcpp, ?_⟩
  have p2 := given_plain (l := u.includeDirs.map (b!"-I" ++ ·)) (by
    intro x hx
    obtain ⟨d, hd, rfl⟩ := List.mem_map.1 hx
    exact plain_prefix (by decide) (hinc d hd))
  have hio : includeOption id = b!"-I" := by rw [includeOption, if_neg hid]
  have hext : pchExt id = b!".gch" := by rw [pchExt, if_neg hid]
  have s1 : Shell.split b!"-o" = some [b!"-o"] := by decide
  have s2 : Shell.split b!"-c" = some [b!"-c"] := by decide
  have s3 : Shell.split (Path.displayString (Path.pchCompilePath m.buildDir b!".h" b!".gch")) =
      some [Path.toPathString (compiledHeader m)] := split_display' ho
  have s4 : Shell.split (Path.displayString (Path.pchHeaderPath m.buildDir b!".h")) =
      some [Path.toPathString (headerFile m)] := split_display' hh
  rw [if_neg hid, hio, hext, ← htool, ← hflags, pchArguments]
  generalize u.includeDirs.map (b!"-I" ++ ·) = dirs at p2 ⊢
  rw [List.cons_append, arguments_spaced hp]
  · simp only [List.cons_append, List.nil_append, given_cons, split_given r1, split_given p2.1, p2.2,
      split_given r3, split_given r4, split_given r5, s1, s2, s3, s4, Option.getD_some,
      List.append_assoc]
    rfl
  · simp only [List.cons_append, List.nil_append, readable_cons, split_given r1, split_given p2.1,
      split_given r3, split_given r4, split_given r5, s1, s2, s3, s4, Option.isSome_some, true_and]
    exact readable_nil

/-- C104, linking: a library or a library directory counts as what the shell reads from its text. -/
theorem C104_link_exact {id : ToolchainId} {m : Made} (u : TargetSchema) (order : List Str)
    (hid : id ≠ .msvc) (h : ShippedTarget id m) (hp : Program (linkTool m))
    (hobj : ∀ s ∈ order, Tame (objectFile m s)) (ho : Tame (outputFile m)) (r1 : Readable u.linkFlags)
    (r2 : Readable u.externalLibs) (r3 : Readable (u.libDirs.map (b!"-L" ++ ·)))
    (r4 : Readable (u.libs.map (·.path))) :
    ∃ cmd, linkCommand m.fixed u order = .value cmd ∧
      arguments cmd = some (
        let objects := order.map fun s => Path.toPathString (objectFile m s)
        let output := Path.toPathString (outputFile m)
        match m.type with
        | .executable => [Path.toPathString (linkTool m)] ++ given u.linkFlags ++ objects ++
            [b!"-o", output] ++ given (u.libDirs.map (b!"-L" ++ ·)) ++ given (u.libs.map (·.path)) ++
            given u.externalLibs
        | .staticLibrary => [Path.toPathString (linkTool m), b!"rcs", output] ++ objects
        | _ => [Path.toPathString (linkTool m), b!"-shared"] ++ given u.linkFlags ++ objects ++
            [b!"-o", output] ++
            if m.toolchain.id = .mingw then [b!"-Wl,--out-implib," ++ output ++ b!".a"] else []) := by
  refine ⟨_, C82_link u order h, ?_⟩
  obtain ⟨h1, -, -, h4, h5⟩ := h.facts
  have eobj : order.map (objectOf m) = (order.map (objectFile m)).map Path.displayString := by
    rw [List.map_map]
    refine List.map_congr_left fun s _ => ?_
    rw [objectOf, objectExt, h1, if_neg hid]; rfl
  have g := given_display (l := order.map (objectFile m)) (by
    intro x hx
    obtain ⟨s, hs, rfl⟩ := List.mem_map.1 hx
    exact hobj s hs)
  have eout : outputOf m = Path.displayString (outputFile m) := rfl
  have elib : libDirOption id = b!"-L" := by rw [libDirOption, if_neg hid]
  have s1 : Shell.split b!"-o" = some [b!"-o"] := by decide
  have s2 : Shell.split b!"rcs" = some [b!"rcs"] := by decide
  have s3 : Shell.split b!"-shared" = some [b!"-shared"] := by decide
  have s4 := split_display ho b!"-Wl,--out-implib," b!".a" (by decide) (by decide)
  simp only [List.cons_append, List.nil_append, List.append_assoc] at s4
  have hcases : id = .gcc ∨ id = .mingw := by
    rcases h4 with h | h | h
    · exact .inl h
    · exact .inr h
    · exact absurd h hid
  have emap : (order.map (objectFile m)).map Path.toPathString =
      order.map fun s => Path.toPathString (objectFile m s) := by rw [List.map_map]; rfl
  rw [linkWords, eobj, eout, h1, elib]
  rw [emap] at g
  generalize (order.map (objectFile m)).map Path.displayString = objs at g ⊢
  generalize u.libDirs.map (b!"-L" ++ ·) = dirs at r3 ⊢
  have htool : linkTool m = if m.type = .staticLibrary then m.toolchain.executables.archiver
    else m.toolchain.executables.cppCompiler := rfl
  rcases hcases with rfl | rfl <;> cases hty : m.type <;> rw [hty] at h5 htool <;>
    first | exact absurd rfl h5 | skip
  all_goals
    simp only [reduceCtorEq, if_true, if_false] at htool
    simp only [← htool]
    rw [arguments_spaced hp]
    · simp only [given_cons, split_given r1, split_given r2, split_given r3, split_given r4,
        split_given g.1, g.2, split_display' ho, s1, s2, s3, s4, Option.getD_some, List.append_assoc,
        List.cons_append, List.nil_append, reduceCtorEq, if_true, if_false]
      simp [given]
    · simp only [readable_cons, split_given r1, split_given r2, split_given r3, split_given r4,
        split_given g.1, split_display' ho, s1, s2, s3, s4, List.append_assoc, List.cons_append, List.nil_append,
        Option.isSome_some, true_and]
      exact readable_nil

/-- C104, linking: every path is one argument.  Partial: libraries and library directories without
spaces (`C104_library_false`). -/
theorem C104_link_partial {id : ToolchainId} {m : Made} (u : TargetSchema) (order : List Str)
    (hid : id ≠ .msvc) (h : ShippedTarget id m) (hp : Program (linkTool m))
    (hobj : ∀ s ∈ order, Tame (objectFile m s)) (ho : Tame (outputFile m)) (r1 : Readable u.linkFlags)
    (r2 : Readable u.externalLibs) (hdirs : ∀ d ∈ u.libDirs, Plain d)
    (hlibs : ∀ l ∈ u.libs, Plain l.path) :
    ∃ cmd, linkCommand m.fixed u order = .value cmd ∧
      arguments cmd = some (linkArguments m u order) := by
  have p3 := given_plain (l := u.libDirs.map (b!"-L" ++ ·)) (by
    intro x hx
    obtain ⟨d, hd, rfl⟩ := List.mem_map.1 hx
    exact plain_prefix (by decide) (hdirs d hd))
  have p4 := given_plain (l := u.libs.map (·.path)) (by
    intro x hx
    obtain ⟨d, hd, rfl⟩ := List.mem_map.1 hx
    exact hlibs d hd)
  obtain ⟨cmd, hc, ha⟩ := C104_link_exact u order hid h hp hobj ho r1 r2 p3.1 p4.1
  refine ⟨cmd, hc, ha.trans ?_⟩
  rw [p3.2, p4.2, linkArguments]

/-- Texts without quotes and other special characters, except spaces. -/
def Bare (l : List Str) : Prop := ∀ f ∈ l, ∀ b ∈ f, Ordinary b ∨ b = c!" "

instance (l : List Str) : Decidable (Bare l) := by unfold Bare; infer_instance

theorem bare_given {l : List Str} (h : Bare l) : Readable l ∧ ∀ a ∈ given l, c!" " ∉ a := by
  constructor
  · intro f hf
    obtain ⟨ws, hw, -⟩ := split_blanks f (h f hf)
    rw [hw]; rfl
  · intro a ha
    obtain ⟨f, hf, ha⟩ := List.mem_flatMap.1 ha
    obtain ⟨ws, hw, hws⟩ := split_blanks f (h f hf)
    rw [hw] at ha
    exact hws a ha

theorem bare_prefix {pre : Str} (hp : ∀ b ∈ pre, Ordinary b) {l : List Str} (h : Bare l) :
    Bare (l.map (pre ++ ·)) := by
  intro x hx b hb
  obtain ⟨d, hd, rfl⟩ := List.mem_map.1 hx
  rcases List.mem_append.1 hb with hb | hb
  · exact .inl (hp b hb)
  · exact h d hd b hb

/-- C104, what fails: for no source with a space in its path is the compiler given this path, whatever
shipped target and flags without quotes. -/
theorem C104_source_false {id : ToolchainId} {m : Made} {u : TargetSchema} {src tool : Str}
    {flags : List Str} (hid : id ≠ .msvc) (h : ShippedTarget id m)
    (ht : Tool m.toolchain.executables u src tool flags) (hp : Program tool)
    (ho : Tame (objectFile m src))
    (hflags : Bare (u.preprocessorFlags ++ u.includeDirs ++ u.commonCompileFlags ++ u.pchObjectFlags ++
      flags)) (hbare : Bare [src]) (hsp : c!" " ∈ src)
    (hne : src ≠ Path.toPathString tool ∧ src ≠ Path.toPathString (objectFile m src)) :
    ∃ cmd args, compileCommand m.fixed u src = .value cmd ∧ arguments cmd = some args ∧ src ∉ args := by
  simp only [Bare, List.mem_append, or_imp, forall_and] at hflags
  obtain ⟨⟨⟨⟨b1, b2⟩, b3⟩, b4⟩, b5⟩ := hflags
  have b1 := bare_given b1
  have b2 := bare_given (bare_prefix (pre := b!"-I") (by decide) b2)
  have b3 := bare_given b3
  have b4 := bare_given b4
  have b5 := bare_given b5
  have b6 := bare_given hbare
  obtain ⟨cmd, hc, ha⟩ := C104_compile_exact hid h ht hp ho b1.1 b2.1 b3.1 b4.1 b5.1 b6.1
  refine ⟨cmd, _, hc, ha, ?_⟩
  have hx : ∀ {l : List Str}, (∀ a ∈ l, c!" " ∉ a) → src ∉ l := fun hl hm => hl _ hm hsp
  have e4 : src ∉ (if u.pchs = [] then [] else given u.pchObjectFlags) := by
    split
    · simp
    · exact hx b4.2
  simp only [List.mem_append, List.mem_cons, List.not_mem_nil, or_false, not_or]
  refine ⟨⟨⟨⟨⟨⟨⟨hne.1, hx b1.2⟩, hx b2.2⟩, hx b3.2⟩, e4⟩, hx b5.2⟩, ?_, hne.2, ?_⟩, hx b6.2⟩
  · rintro rfl; exact absurd hsp (by decide)
  · rintro rfl; exact absurd hsp (by decide)

/-- C104, what fails: the compiler is given no include directory with a space in its path. -/
theorem C104_include_false {id : ToolchainId} {m : Made} {u : TargetSchema} {src tool : Str}
    {flags : List Str} (hid : id ≠ .msvc) (h : ShippedTarget id m)
    (ht : Tool m.toolchain.executables u src tool flags) (hp : Program tool)
    (ho : Tame (objectFile m src))
    (hflags : Bare (u.preprocessorFlags ++ u.includeDirs ++ u.commonCompileFlags ++ u.pchObjectFlags ++
      flags)) (hbare : Bare [src]) {d : Str} (hd : c!" " ∈ d)
    (hne : b!"-I" ++ d ≠ Path.toPathString tool ∧
      b!"-I" ++ d ≠ Path.toPathString (objectFile m src)) :
    ∃ cmd args, compileCommand m.fixed u src = .value cmd ∧ arguments cmd = some args ∧
      b!"-I" ++ d ∉ args := by
  simp only [Bare, List.mem_append, or_imp, forall_and] at hflags
  obtain ⟨⟨⟨⟨b1, b2⟩, b3⟩, b4⟩, b5⟩ := hflags
  have b1 := bare_given b1
  have b2 := bare_given (bare_prefix (pre := b!"-I") (by decide) b2)
  have b3 := bare_given b3
  have b4 := bare_given b4
  have b5 := bare_given b5
  have b6 := bare_given hbare
  obtain ⟨cmd, hc, ha⟩ := C104_compile_exact hid h ht hp ho b1.1 b2.1 b3.1 b4.1 b5.1 b6.1
  refine ⟨cmd, _, hc, ha, ?_⟩
  have hsp : c!" " ∈ b!"-I" ++ d := by simp [hd]
  generalize b!"-I" ++ d = x at hne hsp ⊢
  have hx : ∀ {l : List Str}, (∀ a ∈ l, c!" " ∉ a) → x ∉ l := fun hl hm => hl _ hm hsp
  have e4 : x ∉ (if u.pchs = [] then [] else given u.pchObjectFlags) := by
    split
    · simp
    · exact hx b4.2
  simp only [List.mem_append, List.mem_cons, List.not_mem_nil, or_false, not_or]
  refine ⟨⟨⟨⟨⟨⟨⟨hne.1, hx b1.2⟩, hx b2.2⟩, hx b3.2⟩, e4⟩, hx b5.2⟩, ?_, hne.2, ?_⟩, hx b6.2⟩
  · rintro rfl; exact absurd hsp (by decide)
  · rintro rfl; exact absurd hsp (by decide)

/-- C104, what fails: an executable is linked with no library and searches no directory whose path has a
space. -/
theorem C104_library_false {id : ToolchainId} {m : Made} (u : TargetSchema) (order : List Str)
    (hid : id ≠ .msvc) (h : ShippedTarget id m) (hexe : m.type = .executable)
    (hp : Program (linkTool m)) (hobj : ∀ s ∈ order, Tame (objectFile m s)) (ho : Tame (outputFile m))
    (hbare : Bare (u.linkFlags ++ u.externalLibs ++ u.libDirs ++ u.libs.map (·.path))) {x : Str}
    (hsp : c!" " ∈ x) (hne : x ≠ Path.toPathString (linkTool m) ∧ x ≠ Path.toPathString (outputFile m) ∧
      ∀ s ∈ order, x ≠ Path.toPathString (objectFile m s)) :
    ∃ cmd args, linkCommand m.fixed u order = .value cmd ∧ arguments cmd = some args ∧ x ∉ args := by
  simp only [Bare, List.mem_append, or_imp, forall_and] at hbare
  obtain ⟨⟨⟨b1, b2⟩, b3⟩, b4⟩ := hbare
  have b1 := bare_given b1
  have b2 := bare_given b2
  have b3 := bare_given (bare_prefix (pre := b!"-L") (by decide) b3)
  have b4 := bare_given b4
  obtain ⟨cmd, hc, ha⟩ := C104_link_exact u order hid h hp hobj ho b1.1 b2.1 b3.1 b4.1
  refine ⟨cmd, _, hc, ha, ?_⟩
  have hx : ∀ {l : List Str}, (∀ a ∈ l, c!" " ∉ a) → x ∉ l := fun hl hm => hl _ hm hsp
  simp only [hexe, List.mem_append, List.mem_cons, List.not_mem_nil, or_false, not_or]
  refine ⟨⟨⟨⟨⟨⟨hne.1, hx b1.2⟩, ?_⟩, ?_, hne.2.1⟩, hx b3.2⟩, hx b4.2⟩, hx b2.2⟩
  · intro hm
    obtain ⟨s, hs, e⟩ := List.mem_map.1 hm
    exact hne.2.2 s hs e.symm
  · rintro rfl; exact absurd hsp (by decide)

/-- C104: the flags with which objects use the precompiled header (C71) are three arguments, for a build
directory with spaces too. -/
theorem C104_header {p : Str} (h : Tame p) :
    given [b!"-include " ++ Path.displayString p, b!"-H"] =
      [b!"-include", Path.toPathString p, b!"-H"] := by
  have s1 : Shell.split b!"-include" = some [b!"-include"] := by decide
  have s2 : Shell.split b!"-H" = some [b!"-H"] := by decide
  have := split_append b!"-include" (Path.displayString p) _ s1
  rw [split_display' h] at this
  rw [given_cons, given_cons, show b!"-include " ++ Path.displayString p =
    b!"-include" ++ c!" " :: Path.displayString p from rfl, this, s2]
  rfl

/-! ## Concrete cases -/

/-- A library with all kinds of inputs. -/
def exArgvUser (dir : Str) : TargetSchema :=
  { TargetSchema.empty with
    sources := [⟨dir ++ b!"/src/main.cpp", []⟩], includeDirs := [dir ++ b!"/inc"]
    libDirs := [dir ++ b!"/lib"], libs := [⟨dir ++ b!"/lib/libz.a", []⟩]
    preprocessorFlags := [b!"-DNAME='\"a b\"'", b!"-DX=1"], cppCompileFlags := [b!"-O2 -g"]
    linkFlags := [b!"-Wl,--as-needed"], externalLibs := [b!"-lm"] }

def exArgvMade (root build : Str) : Option Made :=
  targetGeneric (fun _ => .empty) ⟨true, root, build⟩ b!"app" .executable
    (toolchainGcc b!"gcc" none none) (.relative ⟨true, root, build⟩ [])

theorem exArgv_shipped {root build : Str} {m : Made} (h : exArgvMade root build = some m)
    (ht : m.toolchain = toolchainGcc b!"gcc" none none) (hn : m.name = b!"app")
    (hty : m.type = .executable) : ShippedTarget .gcc m := by
  refine ⟨⟨b!"gcc", none, none, ?_⟩, ⟨fun _ => .empty, ⟨true, root, build⟩,
    .relative ⟨true, root, build⟩ [], ?_⟩⟩
  · rw [ht]; exact .gcc _ _ _
  · rw [ht, hn, hty]; exact h

/-- A build directory with a space: the program is compiled and linked as described. -/
example : ∃ m, exArgvMade b!"/p" b!"/my out" = some m ∧ ShippedTarget .gcc m ∧
    Tool m.toolchain.executables (exArgvUser b!"/p") b!"/p/src/main.cpp" b!"g++" [b!"-O2 -g"] ∧
    Program b!"g++" ∧ Program (linkTool m) ∧ Tame (objectFile m b!"/p/src/main.cpp") ∧
    Tame (outputFile m) ∧ Plain b!"/p/src/main.cpp" ∧
    (∀ d ∈ (exArgvUser b!"/p").includeDirs, Plain d) ∧ (∀ d ∈ (exArgvUser b!"/p").libDirs, Plain d) ∧
    (∀ l ∈ (exArgvUser b!"/p").libs, Plain l.path) ∧
    Readable ((exArgvUser b!"/p").preprocessorFlags ++ (exArgvUser b!"/p").cppCompileFlags ++
      (exArgvUser b!"/p").linkFlags ++ (exArgvUser b!"/p").externalLibs) ∧
    compileArguments m (exArgvUser b!"/p") b!"g++" [b!"-O2 -g"] b!"/p/src/main.cpp" =
      [b!"g++", b!"-DNAME=\"a b\"", b!"-DX=1", b!"-I/p/inc", b!"-O2", b!"-g", b!"-o",
        b!"/my out/gcc/app/src/main.cpp.o", b!"-c", b!"/p/src/main.cpp"] ∧
    linkArguments m (exArgvUser b!"/p") [b!"/p/src/main.cpp"] =
      [b!"g++", b!"-Wl,--as-needed", b!"/my out/gcc/app/src/main.cpp.o", b!"-o", b!"/my out/gcc/app/app",
        b!"-L/p/lib", b!"/p/lib/libz.a", b!"-lm"] := by
  refine ⟨(exArgvMade b!"/p" b!"/my out").get (by decide +kernel), by simp, ?_, .cpp ?_, ?_⟩
  · exact exArgv_shipped (Option.some_get _).symm (by decide +kernel) (by decide +kernel) (by decide +kernel)
  · decide +kernel
  · decide +kernel

/-- A project in a directory with a space: the hypotheses of `C104_source_false`,
`C104_include_false` and `C104_library_false` are met. -/
example : ∃ m, exArgvMade b!"/my p" b!"/my p/out" = some m ∧ ShippedTarget .gcc m ∧
    let u := { exArgvUser b!"/my p" with preprocessorFlags := [b!"-DX=1"] }
    let src := b!"/my p/src/main.cpp"
    Tool m.toolchain.executables u src b!"g++" [b!"-O2 -g"] ∧ m.type = .executable ∧
    Program b!"g++" ∧ Program (linkTool m) ∧ Tame (objectFile m src) ∧ Tame (outputFile m) ∧
    Bare (u.preprocessorFlags ++ u.includeDirs ++ u.commonCompileFlags ++ u.pchObjectFlags ++
      [b!"-O2 -g"]) ∧ Bare [src] ∧ c!" " ∈ src ∧ src ≠ b!"g++" ∧
    src ≠ Path.toPathString (objectFile m src) ∧
    Bare (u.linkFlags ++ u.externalLibs ++ u.libDirs ++ u.libs.map (·.path)) ∧
    (∀ l ∈ u.libs, c!" " ∈ l.path ∧ l.path ≠ Path.toPathString (outputFile m)) := by
  refine ⟨(exArgvMade b!"/my p" b!"/my p/out").get (by decide +kernel), by simp, ?_, .cpp ?_, ?_⟩
  · exact exArgv_shipped (Option.some_get _).symm (by decide +kernel) (by decide +kernel) (by decide +kernel)
  · decide +kernel
  · decide +kernel

end Verif.Target
