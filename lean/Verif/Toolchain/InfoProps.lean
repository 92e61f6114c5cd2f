import Verif.Toolchain.Info
import Verif.Toolchain.FindProps
import Verif.Toolchain.CreateProps
import Verif.Command.Props

/-!
# What `Verify` reports about the compiler (C77)
-/

namespace Verif.Toolchain
open Verif Verif.Env Verif.Target

theorem construct_query (compiler s : Str) (h1 : c!"{" ∉ s) (h2 : c!"}" ∉ s) :
    Command.construct (Command.addDefault [] b!"compiler" compiler) (b!"{compiler}" ++ s) [] =
      .value (compiler ++ s) := by
  rw [Command.construct_value_iff]
  refine ⟨[.field b!"compiler", .text s], ?_, ?_, ?_⟩
  · intro x hx
    simp only [List.mem_cons, List.not_mem_nil, or_false] at hx
    rcases hx with rfl | rfl
    · simp only [Command.Seg.Ok]; decide
    · exact ⟨h1, h2⟩
  · simp [Command.srcs, Command.Seg.src]
  · simp [Command.vals, Command.Seg.val, Command.bound, Command.addDefault, Command.lookupArg,
      Command.getDefault]

/-- The first piece of what a successful command writes. -/
def firstPiece (sh : Shell) (command : Str) : Option Str :=
  if (sh command none).ok then (sh command none).out.head? else none

theorem gccQuery_eq (sh : Shell) (compiler s : Str) (hs : s ≠ []) (h1 : c!"{" ∉ s) (h2 : c!"}" ∉ s) :
    gccQuery sh (Command.addDefault [] b!"compiler" compiler) (b!"{compiler}" ++ s) =
      some (firstPiece sh (compiler ++ s)) := by
  simp only [gccQuery, construct_query compiler s h1 h2, execute, firstPiece]
  rw [if_neg (by simp [hs])]
  simp only
  cases hok : (sh (compiler ++ s) none).ok <;>
    cases ho : (sh (compiler ++ s) none).out <;> simp

/-- The queries are never fatal. -/
theorem gccInfo_eq (sh : Shell) (e : Executables) :
    gccInfo sh e = some
      (match firstPiece sh (e.cppCompiler ++ b!" -dumpversion"),
        firstPiece sh (e.cppCompiler ++ b!" -dumpmachine") with
      | some v, some a => some ⟨[], v, a⟩
      | _, _ => none) := by
  have q1 := gccQuery_eq sh e.cppCompiler b!" -dumpversion" (by simp) (by decide) (by decide)
  have q2 := gccQuery_eq sh e.cppCompiler b!" -dumpmachine" (by simp) (by decide) (by decide)
  simp only [List.cons_append, List.nil_append] at q1 q2
  simp only [gccInfo, q1, q2]
  split <;> simp_all

/-- Where `Verify` looks: the first searched directory with a file for every executable. -/
def FirstDir (h : Host) (cfg : FindConfig) (exes : Executables) (d : Str) : Prop :=
  ∃ before after, Searched h cfg (before ++ d :: after) ∧
    (∀ b ∈ before, ¬ HasAll h exes b) ∧ HasAll h exes d

/-- The executables inside a directory. -/
def inside (h : Host) (d : Str) (e : Executables) : Executables :=
  ⟨Path.append d (e.assembler ++ h.exeExt), Path.append d (e.cCompiler ++ h.exeExt),
    Path.append d (e.cppCompiler ++ h.exeExt), Path.append d (e.archiver ++ h.exeExt),
    Path.append d (e.linker ++ h.exeExt)⟩

theorem firstDir_eq {h : Host} {exes : Executables} :
    ∀ (a a' c c' : List Str) (x y : Str), (∀ b ∈ a, ¬ HasAll h exes b) →
      (∀ b ∈ a', ¬ HasAll h exes b) → HasAll h exes x → HasAll h exes y →
      a ++ x :: c = a' ++ y :: c' → x = y := by
  intro a
  induction a with
  | nil =>
    intro a' c c' x y _ ha' hx _ he
    cases a' with
    | nil => simp only [List.nil_append, List.cons.injEq] at he; exact he.1
    | cons z a' =>
      simp only [List.nil_append, List.cons_append, List.cons.injEq] at he
      exact absurd hx (he.1 ▸ ha' z (by simp))
  | cons w a ih =>
    intro a' c c' x y ha ha' hx hy he
    cases a' with
    | nil =>
      simp only [List.nil_append, List.cons_append, List.cons.injEq] at he
      exact absurd hy (he.1 ▸ ha w (by simp))
    | cons z a' =>
      simp only [List.cons_append, List.cons.injEq] at he
      exact ih a' c c' x y (fun b hb => ha b (by simp [hb]))
        (fun b hb => ha' b (by simp [hb])) hx hy he.2

theorem verify_iff {h : Host} (hw : h.WF) (exes : Executables) (f : InfoCb) (cfg : FindConfig)
    (info : CompilerInfo) (new : Executables) :
    verify h exes (some f) cfg = some (info, new) ↔
      (∃ paths, Searched h cfg paths ∧ ∀ p ∈ paths, h.dir p ≠ .statError) ∧
      ∃ d, FirstDir h cfg exes d ∧ new = inside h d exes ∧
        ∃ i, f new = some i ∧ info = { i with path := d } := by
  constructor
  · intro hv
    have hf : ∃ r, find h exes cfg = some r := by
      rw [verify] at hv
      split at hv
      · simp at hv
      · exact ⟨_, by assumption⟩
      · exact ⟨_, by assumption⟩
    obtain ⟨r, hf⟩ := hf
    obtain ⟨paths, hs', hp, -⟩ := (C46_find_partial hw _ _ _).1 hf
    obtain ⟨before, d, after, f', hs, hb, hd, hnew, hcb, i, hi, h1, h2, h3⟩ := C47_verify hw hv
    cases hcb
    refine ⟨⟨paths, hs', hp⟩, d, ⟨before, after, hs, hb, hd⟩, hnew, i, hi, ?_⟩
    cases info; cases i; simp_all
  · rintro ⟨hp, d, hd, rfl, i, hi, rfl⟩
    cases hv : verify h exes (some f) cfg with
    | none =>
      exfalso
      have huniq : ∀ p q, Searched h cfg p → Searched h cfg q → p = q := by
        intro p q h1 h2
        have h1 := (searchPaths_iff h _ _ _).2 h1
        have h2 := (searchPaths_iff h _ _ _).2 h2
        rw [h1] at h2
        simpa using h2
      obtain ⟨before, after, hs, hb, hd⟩ := hd
      rcases (C47_fatal hw _ _ _).1 hv with h1 | ⟨p, h1, h2⟩ | h1 | ⟨f', b', d', a', h1, h2, h3, h4, h5⟩
      · exact h1 hp
      · rw [huniq _ _ h1 hs] at h2
        exact h2 d (by simp) hd
      · cases h1
      · cases h1
        have := firstDir_eq b' before a' after d' d h3 hb h4 hd (huniq _ _ h2 hs)
        subst this
        have : createExecutables h d' exes = inside h d' exes := rfl
        rw [this, hi] at h5
        cases h5
    | some x =>
      obtain ⟨info', new'⟩ := x
      have huniq : ∀ p q, Searched h cfg p → Searched h cfg q → p = q := by
        intro p q h1 h2
        have h1 := (searchPaths_iff h _ _ _).2 h1
        have h2 := (searchPaths_iff h _ _ _).2 h2
        rw [h1] at h2
        simpa using h2
      obtain ⟨b', d', a', f', h1, h2, h3, h4, h5, i', h6, h7, h8, h9⟩ := C47_verify hw hv
      cases h5
      obtain ⟨before, after, hs, hb, hd⟩ := hd
      have := firstDir_eq b' before a' after d' d h2 hb h3 hd (huniq _ _ h1 hs)
      subst this
      have hn : new' = inside h d' exes := h4
      subst hn
      rw [hi] at h6
      cases h6
      cases info'; cases i; simp_all

/-! ## C77 -/

/-- The command succeeds and writes at least something; `piece` is the first piece that
arrives. -/
def Says (sh : Shell) (command piece : Str) : Prop :=
  (sh command none).ok = true ∧ ∃ rest, (sh command none).out = piece :: rest

theorem says_iff {sh : Shell} {command piece : Str} :
    firstPiece sh command = some piece ↔ Says sh command piece := by
  rw [Says, firstPiece]
  cases (sh command none).ok <;> cases (sh command none).out <;> simp

/-- C77, partly: `Verify` of a GCC, MinGW or Clang toolchain.  It reports the first directory
that has all executables, the toolchain now names the executables in it, and version and
architecture are what the compiler *in this directory* answers to `-dumpversion` and
`-dumpmachine`.  It fails when there is no directory or one of the queries fails or writes
nothing.  Missing: of the answer only the first piece is used, as it is written, with its newline
(`C77_newline_false`), and the compiler is not quoted (`C77_space_false`). -/
theorem C77_gcc_partial {h : Host} (hw : h.WF) (sh : Shell) (id : ToolchainId)
    (hid : id = .gcc ∨ id = .mingw ∨ id = .clang) (name : Str) (exe : Executables)
    (config : Option Config) (cfg : FindConfig) (info : CompilerInfo) (t' : Toolchain) :
    verifyToolchain h sh (toolchainCustom id name exe config) cfg = some (info, t') ↔
      (∃ paths, Searched h cfg paths ∧ ∀ p ∈ paths, h.dir p ≠ .statError) ∧
      FirstDir h cfg exe info.path ∧
      t' = { toolchainCustom id name exe config with executables := inside h info.path exe } ∧
      Says sh (Path.append info.path (exe.cppCompiler ++ h.exeExt) ++ b!" -dumpversion")
        info.compilerVersion ∧
      Says sh (Path.append info.path (exe.cppCompiler ++ h.exeExt) ++ b!" -dumpmachine")
        info.targetArch := by
  have hcb : infoCb h sh (toolchainCustom id name exe config).infoCb =
      some fun e => (gccInfo sh e).join := by
    rcases hid with rfl | rfl | rfl <;> rfl
  have hexe : (toolchainCustom id name exe config).executables = exe := rfl
  have key : ∀ new, verify h exe (some fun e => (gccInfo sh e).join) cfg = some (info, new) ↔
      (∃ paths, Searched h cfg paths ∧ ∀ p ∈ paths, h.dir p ≠ .statError) ∧
      FirstDir h cfg exe info.path ∧ new = inside h info.path exe ∧
      Says sh (Path.append info.path (exe.cppCompiler ++ h.exeExt) ++ b!" -dumpversion")
        info.compilerVersion ∧
      Says sh (Path.append info.path (exe.cppCompiler ++ h.exeExt) ++ b!" -dumpmachine")
        info.targetArch := by
    intro new
    rw [verify_iff hw]
    simp only [gccInfo_eq, Option.join_some]
    constructor
    · rintro ⟨hp, d, hd, rfl, i, hi, rfl⟩
      split at hi
      · rename_i v a hv ha
        cases hi
        exact ⟨hp, hd, rfl, says_iff.1 hv, says_iff.1 ha⟩
      · cases hi
    · rintro ⟨hp, hd, rfl, hv, ha⟩
      refine ⟨hp, info.path, hd, rfl, ⟨[], info.compilerVersion, info.targetArch⟩, ?_, rfl⟩
      have e1 := says_iff.2 hv
      have e2 := says_iff.2 ha
      simp only [inside]
      rw [e1, e2]
  rw [verifyToolchain, hcb, hexe]
  constructor
  · intro hv
    split at hv
    · cases hv
    · rename_i i new hv'
      cases hv
      obtain ⟨h1, h2, h3, h4, h5⟩ := (key _).1 hv'
      exact ⟨h1, h2, by rw [h3], h4, h5⟩
  · rintro ⟨h1, h2, rfl, h4, h5⟩
    rw [(key _).2 ⟨h1, h2, rfl, h4, h5⟩]

/-- C77, for MSVC: the version and the architecture come from the environment of the
developer prompt; the compiler itself is not asked. -/
theorem C77_msvc {h : Host} (hw : h.WF) (sh : Shell) (name : Str) (exe : Executables)
    (config : Option Config) (cfg : FindConfig) (info : CompilerInfo) (t' : Toolchain) :
    verifyToolchain h sh (toolchainCustom .msvc name exe config) cfg = some (info, t') ↔
      (∃ paths, Searched h cfg paths ∧ ∀ p ∈ paths, h.dir p ≠ .statError) ∧
      FirstDir h cfg exe info.path ∧
      t' = { toolchainCustom .msvc name exe config with executables := inside h info.path exe } ∧
      h.getenv b!"VSCMD_VER" = some info.compilerVersion ∧
      ∃ host target, h.getenv b!"VSCMD_ARG_HOST_ARCH" = some host ∧
        h.getenv b!"VSCMD_ARG_TGT_ARCH" = some target ∧
        info.targetArch = host ++ b!"_" ++ target := by
  have hcb : infoCb h sh (toolchainCustom .msvc name exe config).infoCb =
      some fun _ => msvcInfo h.getenv := rfl
  have hexe : (toolchainCustom .msvc name exe config).executables = exe := rfl
  rw [verifyToolchain, hcb, hexe]
  have hm : ∀ i, msvcInfo h.getenv = some i ↔ i.path = [] ∧
      h.getenv b!"VSCMD_VER" = some i.compilerVersion ∧
      ∃ host target, h.getenv b!"VSCMD_ARG_HOST_ARCH" = some host ∧
        h.getenv b!"VSCMD_ARG_TGT_ARCH" = some target ∧
        i.targetArch = host ++ b!"_" ++ target := by
    intro i
    rw [msvcInfo]
    constructor
    · intro hi
      split at hi
      · rename_i v a t h1 h2 h3
        cases hi
        exact ⟨rfl, h1, a, t, h2, h3, rfl⟩
      · cases hi
    · rintro ⟨h0, h1, a, t, h2, h3, h4⟩
      rw [h1, h2, h3]
      cases i
      simp_all
  constructor
  · intro hv
    split at hv
    · cases hv
    · rename_i i new hv'
      cases hv
      obtain ⟨hp, d, hd, rfl, i, hi, rfl⟩ := (verify_iff hw _ _ _ _ _).1 hv'
      obtain ⟨-, h1, h2⟩ := (hm i).1 hi
      exact ⟨hp, hd, rfl, h1, h2⟩
  · rintro ⟨hp, hd, rfl, h1, h2⟩
    rw [(verify_iff hw exe (fun _ => msvcInfo h.getenv) cfg info _).2
      ⟨hp, info.path, hd, rfl, ⟨[], info.compilerVersion, info.targetArch⟩,
        (hm _).2 ⟨rfl, h1, h2⟩, rfl⟩]

/-- A developer prompt with the compiler in `/bin`. -/
def exMsvcHost : Host where
  getenv v :=
    if v = b!"PATH" then some b!"/bin" else if v = b!"VSCMD_VER" then some b!"17.1"
    else if v = b!"VSCMD_ARG_HOST_ARCH" then some b!"x64"
    else if v = b!"VSCMD_ARG_TGT_ARCH" then some b!"x86" else none
  dir d := if d = b!"/bin" then
    .entries [(b!"cl.exe", true), (b!"lib.exe", true), (b!"link.exe", true)] else .missing
  exeExt := b!".exe"

example : (verifyToolchain exMsvcHost (fun _ _ => ⟨[], [], false⟩)
    (toolchainMsvc b!"msvc" none none) {}).map (fun r => (r.1, r.2.executables.linker)) =
      some (⟨b!"/bin", b!"17.1", b!"x64_x86"⟩, b!"/bin/link.exe") := by decide

/-- C77: a custom toolchain can not be verified before a callback is set. -/
theorem C77_custom {h : Host} (hw : h.WF) (sh : Shell) (id : ToolchainId)
    (hid : id = .custom ∨ id = .undefined) (name : Str) (exe : Executables)
    (config : Option Config) (cfg : FindConfig) :
    verifyToolchain h sh (toolchainCustom id name exe config) cfg = none := by
  have hcb : infoCb h sh (toolchainCustom id name exe config).infoCb = some fun _ => none := by
    rcases hid with rfl | rfl <;> rfl
  rw [verifyToolchain, hcb]
  split
  · rfl
  · rename_i i new hv
    obtain ⟨-, d, -, -, i, hi, -⟩ := (verify_iff hw _ _ _ _ _).1 hv
    cases hi

/-- A compiler that answers both queries with a line. -/
def exShell (version arch : Str) : Shell := fun c _ =>
  if c = b!"/bin/g++ -dumpversion" then ⟨[version ++ [10]], [], true⟩
  else if c = b!"/bin/g++ -dumpmachine" then ⟨[arch ++ [10]], [], true⟩
  else ⟨[], [], false⟩

theorem exSearched : Searched (exHost exFiles) {} [b!"/none", b!"/bin"] :=
  ⟨[[b!"/none", b!"/bin"]], rfl, by
    intro i v l hv hl
    cases i with
    | zero => cases hv; cases hl; exact ⟨b!"/none:/bin", by decide, by decide⟩
    | succ i => simp at hl, rfl⟩

/-- The version that is reported is the line with its newline: two pieces of information that
differ from what every compiler means, for every version. -/
theorem C77_newline_false (version arch : Str) (name : Str) :
    ∃ info t', verifyToolchain (exHost exFiles) (exShell version arch)
        (toolchainGcc name none none) {} = some (info, t') ∧
      info.compilerVersion ≠ version ∧ info.targetArch ≠ arch ∧
      info.compilerVersion = version ++ [10] ∧ info.targetArch = arch ++ [10] := by
  refine ⟨⟨b!"/bin", version ++ [10], arch ++ [10]⟩,
    { toolchainGcc name none none with executables := inside (exHost exFiles) b!"/bin" exGcc },
    ?_, by simp, by simp, rfl, rfl⟩
  have hw : (exHost exFiles).WF := exHost_wf (by decide)
  refine (C77_gcc_partial hw (exShell version arch) .gcc (.inl rfl) name exGcc none {} _ _).2 ?_
  refine ⟨?_, ?_, rfl, ⟨rfl, [], rfl⟩, ⟨rfl, [], rfl⟩⟩
  · exact ⟨_, exSearched, by decide⟩
  · refine ⟨[b!"/none"], [], exSearched, ?_, ?_⟩
    · intro b hb
      simp only [List.mem_singleton] at hb
      subst hb
      rintro ⟨l, hl, -⟩
      cases hl
    · exact ⟨exFiles, rfl, by
        intro e he
        simp only [exGcc, List.mem_cons, List.not_mem_nil, or_false] at he
        rcases he with rfl | rfl | rfl | rfl | rfl <;>
          exact ⟨_, by decide, .inl ⟨rfl, by decide⟩⟩⟩

/-- The compiler is not quoted: if the directory of the toolchain has a space, the first word of
the query is not the compiler, which is in the directory. -/
theorem C77_space_false {a b : Str} (ha : c!" " ∉ a) (e : Executables)
    (he : e.cppCompiler = a ++ c!" " :: b) (sh : Shell)
    (hshell : ∀ c, (sh c none).ok = true → c.takeWhile (· ≠ c!" ") = e.cppCompiler) :
    gccInfo sh e = some none := by
  have hw : ∀ s : Str, ((a ++ c!" " :: b) ++ s).takeWhile (· ≠ c!" ") = a := by
    intro s
    rw [List.append_assoc, List.takeWhile_append_of_pos]
    · simp
    · intro x hx
      simp only [decide_eq_true_eq]
      rintro rfl
      exact ha hx
  have hno : ∀ s, firstPiece sh (e.cppCompiler ++ s) = none := by
    intro s
    rw [firstPiece, if_neg]
    intro hok
    have := hshell _ hok
    rw [he, hw] at this
    have := congrArg List.length this
    simp only [List.length_append, List.length_cons] at this
    omega
  rw [gccInfo_eq, hno]

/-- A host on which the compiler is the only program. -/
example : gccInfo (fun c _ => ⟨[b!"12\n"], [], c.takeWhile (· ≠ c!" ") = b!"/my tools/g++"⟩)
    ⟨b!"", b!"", b!"/my tools/g++", b!"", b!""⟩ = some none :=
  C77_space_false (a := b!"/my") (b := b!"tools/g++") (by decide) _ rfl _ (by
    intro c hc
    simpa using hc)
example : gccInfo (fun c _ => ⟨[b!"12\n"], [], c.takeWhile (· ≠ c!" ") = b!"/tools/g++"⟩)
    ⟨b!"", b!"", b!"/tools/g++", b!"", b!""⟩ = some (some ⟨[], b!"12\n", b!"12\n"⟩) := by decide

end Verif.Toolchain
