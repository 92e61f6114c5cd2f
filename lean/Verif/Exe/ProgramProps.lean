import Verif.Exe.Program
import Verif.Cli.Props
import Verif.Toolchain.InfoProps

/-! # `buildexe` from the command line to its end (C90) -/

namespace Verif.Exe
open Verif Verif.Env Verif.Schema Verif.Target Verif.Toolchain

/-! ## Specification -/

/-- `text` names the mode, in upper or lower case, or is its number. -/
inductive NamesMode : Mode → Str → Prop where
  | immediate (s) : s.map Cli.lower = b!"immediate" → NamesMode .immediate s
  | script (s) : s.map Cli.lower = b!"script" → NamesMode .script s
  | number : NamesMode .immediate b!"0"
  | number1 : NamesMode .script b!"1"

/-- `text` names the type of target, in upper or lower case, or is its number. -/
inductive NamesType : TargetType → Str → Prop where
  | executable (s) : s.map Cli.lower = b!"executable" → NamesType .executable s
  | staticLibrary (s) : s.map Cli.lower = b!"staticlibrary" → NamesType .staticLibrary s
  | dynamicLibrary (s) : s.map Cli.lower = b!"dynamiclibrary" → NamesType .dynamicLibrary s
  | number : NamesType .executable b!"0"
  | number1 : NamesType .staticLibrary b!"1"
  | number2 : NamesType .dynamicLibrary b!"2"

/-- `BUILDCC_HOME` is set and has its three directories. -/
structure HomeAt (mach : Machine) (home : Str) : Prop where
  set : mach.host.getenv b!"BUILDCC_HOME" = some home
  here : mach.present home = true
  base : mach.present (Path.append home b!"buildcc") = true
  libs : mach.present (Path.append home b!"libs") = true
  extensions : mach.present (Path.append home b!"extensions") = true

/-- The command line asks for this target and this mode. -/
structure Asks (line : ExeLine) (a : ExeArgs) : Prop where
  name : line.value b!"--name" = some a.name
  type : ∃ t, line.value b!"--type" = some t ∧ NamesType a.type t
  relative : line.value b!"--relative_to_root" = some a.relativeToRoot
  mode : ∃ t, line.value b!"--mode" = some t ∧ NamesMode a.mode t
  inputs : a.inputs =
    { sources := line.values b!"--srcs", includeDirs := line.values b!"--includes"
      libDirs := line.values b!"--lib_dirs", externalLibs := line.values b!"--external_libs"
      preprocessorFlags := line.values b!"--preprocessor_flags"
      commonCompileFlags := line.values b!"--common_compile_flags"
      asmCompileFlags := line.values b!"--asm_compile_flags"
      cCompileFlags := line.values b!"--c_compile_flags"
      cppCompileFlags := line.values b!"--cpp_compile_flags"
      linkFlags := line.values b!"--link_flags" }
  configs : a.configs = line.configs

/-- The libraries in `libs` and their files that are asked for. -/
structure Offers (line : ExeLine) (dir : Str) (entries : List (Str × Bool)) (a : ExeArgs) : Prop where
  libs : a.libs = (entries.filter (·.2)).map fun e => ⟨e.1, Path.displayString (Path.append dir e.1)⟩
  files : a.libFiles = (entries.filter (·.2)).flatMap fun e =>
    (line.libs e.1).map fun f => Path.append (Path.append dir e.1) f

/-- The five executables that are given for the toolchain; one that is not given has no name. -/
def givenExes (g : Cli.Given) : Executables :=
  ⟨(g.value b!"--asm_compiler").getD [], (g.value b!"--c_compiler").getD [],
    (g.value b!"--cpp_compiler").getD [], (g.value b!"--archiver").getD [],
    (g.value b!"--linker").getD []⟩

/-- What the command line says about the toolchain. -/
structure Wanted (g : Cli.Given) (a : Cli.ArgToolchain) : Prop where
  id : (g.value b!"--id" = none ∧ a.id = .undefined) ∨
    ∃ text, g.value b!"--id" = some text ∧ Cli.Names a.id text
  name : a.name = (g.value b!"--name").getD []
  exes : a.executables = givenExes g
  state : a.build = (g.flag b!"--build").getD false ∧ a.test = (g.flag b!"--test").getD false
  config : a.config = {}

/-- The compiler tells what it is. -/
def Answers (mach : Machine) (id : ToolchainId) (compiler : Str) : Prop :=
  ((id = .gcc ∨ id = .mingw ∨ id = .clang) ∧
    (∃ v, Says mach.shell (compiler ++ b!" -dumpversion") v) ∧
    ∃ v, Says mach.shell (compiler ++ b!" -dumpmachine") v) ∨
  (id = .msvc ∧ ∀ x ∈ [b!"VSCMD_VER", b!"VSCMD_ARG_HOST_ARCH", b!"VSCMD_ARG_TGT_ARCH"],
    (mach.host.getenv x).isSome = true)

/-- The toolchain was found: it has the id and the name that are asked for, the configuration of its
kind, no flags, and the executables of the first directory of `PATH` that has all that are asked for;
the compiler there tells what it is. -/
structure Found (mach : Machine) (a : Cli.ArgToolchain) (t : Toolchain) : Prop where
  same : t.id = a.id ∧ t.name = a.name ∧ t.config = globalConfig a.id ∧ t.user = {} ∧
    t.infoCb = globalInfo a.id
  search : ∃ paths, Searched mach.host {} paths ∧ ∀ p ∈ paths, mach.host.dir p ≠ .statError
  exes : ∃ d, FirstDir mach.host {} a.executables d ∧ t.executables = inside mach.host d a.executables
  answers : Answers mach a.id t.executables.cppCompiler

/-! ## Lemmas -/

theorem modeOf_some {s : Str} {m : Mode} : modeOf s = some m ↔ NamesMode m s := by
  rw [modeOf]
  constructor
  · intro h
    split at h
    · rename_i h1; cases h
      rcases h1 with h1 | rfl
      · exact .immediate _ h1
      · exact .number
    · split at h
      · rename_i h1; cases h
        rcases h1 with h1 | rfl
        · exact .script _ h1
        · exact .number1
      · cases h
  · intro h
    cases h with
    | immediate _ h => rw [if_pos (.inl h)]
    | script _ h =>
      rw [if_neg, if_pos (.inl h)]
      rintro (e | rfl)
      · rw [h] at e; exact absurd e (by decide)
      · exact absurd h (by decide)
    | number => decide
    | number1 => decide

theorem typeOf_some {s : Str} {t : TargetType} : typeOf s = some t ↔ NamesType t s := by
  rw [typeOf]
  constructor
  · intro h
    split at h
    · rename_i h1; cases h
      rcases h1 with h1 | rfl
      · exact .executable _ h1
      · exact .number
    · split at h
      · rename_i h1; cases h
        rcases h1 with h1 | rfl
        · exact .staticLibrary _ h1
        · exact .number1
      · split at h
        · rename_i h1; cases h
          rcases h1 with h1 | rfl
          · exact .dynamicLibrary _ h1
          · exact .number2
        · cases h
  · intro h
    cases h with
    | executable _ h => rw [if_pos (.inl h)]
    | staticLibrary _ h =>
      rw [if_neg, if_pos (.inl h)]
      rintro (e | rfl)
      · rw [h] at e; exact absurd e (by decide)
      · exact absurd h (by decide)
    | dynamicLibrary _ h =>
      rw [if_neg, if_neg, if_pos (.inl h)]
      · rintro (e | rfl)
        · rw [h] at e; exact absurd e (by decide)
        · exact absurd h (by decide)
      · rintro (e | rfl)
        · rw [h] at e; exact absurd e (by decide)
        · exact absurd h (by decide)
    | number => decide
    | number1 => decide
    | number2 => decide

theorem homeInit_at {mach : Machine} {home : Home} :
    homeInit mach.host.getenv mach.present = some home ↔
      HomeAt mach home.home ∧ home.base = Path.append home.home b!"buildcc" ∧
        home.libs = Path.append home.home b!"libs" ∧
        home.extensions = Path.append home.home b!"extensions" := by
  rw [homeInit]
  constructor
  · intro h
    split at h
    · cases h
    · rename_i s hs
      simp only [Option.ite_none_right_eq_some, Bool.and_eq_true] at h
      obtain ⟨⟨⟨⟨h1, h2⟩, h3⟩, h4⟩, h5⟩ := h
      cases h5
      exact ⟨⟨hs, h1, h2, h3, h4⟩, rfl, rfl, rfl⟩
  · rintro ⟨⟨h1, h2, h3, h4, h5⟩, h6, h7, h8⟩
    obtain ⟨_, _, _, _⟩ := home
    simp only at h1 h2 h3 h4 h5 h6 h7 h8
    subst h6 h7 h8
    rw [h1]
    simp [h2, h3, h4, h5]

theorem libs_eq {libs : Str} {dirs : List (Str × Bool)} (hd : ∀ e ∈ dirs, EntryName e.1) :
    libsInfo libs dirs =
      (dirs.filter (·.2)).map fun e => ⟨e.1, Path.displayString (Path.append libs e.1)⟩ := by
  rw [libsInfo]
  refine List.map_congr_left fun e he => ?_
  simp only [filename_entry (hd e (List.mem_filter.1 he).1)]

theorem getD_of {o : Option Str} {x : Str} (hx : Cli.Chosen o [] x) : x = o.getD [] := by
  cases o with
  | none => exact hx.2 rfl
  | some y => exact hx.1 y rfl

theorem flag_of {o : Option Bool} {x : Bool} (hx : Cli.Chosen o false x) : x = o.getD false := by
  cases o with
  | none => exact hx.2 rfl
  | some y => exact hx.1 y rfl

theorem wanted_unique {g : Cli.Given} {a b : Cli.ArgToolchain} (ha : Wanted g a) (hb : Wanted g b) :
    a = b := by
  have hid : a.id = b.id := by
    rcases ha.id with ⟨h1, h2⟩ | ⟨t, h1, h2⟩ <;> rcases hb.id with ⟨h3, h4⟩ | ⟨u, h3, h4⟩
    · rw [h2, h4]
    · rw [h1] at h3; cases h3
    · rw [h1] at h3; cases h3
    · rw [h1] at h3
      cases h3
      have e1 := Cli.idOf_names h2
      rw [Cli.idOf_names h4] at e1
      exact (Option.some.inj e1).symm
  have h1 := ha.name.trans hb.name.symm
  have h2 := ha.exes.trans hb.exes.symm
  have h3 := ha.state.1.trans hb.state.1.symm
  have h4 := ha.state.2.trans hb.state.2.symm
  have h5 := ha.config.trans hb.config.symm
  cases a; cases b
  simp_all

def lineVars (g : Cli.Given) : Option Cli.Vars :=
  Cli.args ⟨fun _ => g, fun _ => ⟨fun _ => none, fun _ => none⟩⟩ ⟨fun _ => {}, fun _ => {}⟩
    [.toolchain b!"host" 0 {}]

/-- The toolchain of the command line. -/
theorem vars_wanted {g : Cli.Given} {w : Cli.Vars} (h : lineVars g = some w) :
    Wanted g (w.toolchains 0) := by
  have hm : Cli.Decl.toolchain b!"host" 0 {} ∈ [Cli.Decl.toolchain b!"host" 0 {}] := by simp
  have ho : Cli.OwnVars [Cli.Decl.toolchain b!"host" 0 {}] := by simp [Cli.OwnVars]
  obtain ⟨h1, h2, h3, h4, h5, h6, h7, h8, h9, h10⟩ := Cli.C89_toolchain_partial h ho hm
  have hc := (Cli.C89_config_false h ho hm).1
  refine ⟨?_, getD_of h3, ?_, ⟨flag_of h9, flag_of h10⟩, hc⟩
  · cases hv : g.value b!"--id" with
    | none => exact .inl ⟨rfl, h2 hv⟩
    | some t => exact .inr ⟨t, rfl, h1 t hv⟩
  · have e4 := getD_of h4
    have e5 := getD_of h5
    have e6 := getD_of h6
    have e7 := getD_of h7
    have e8 := getD_of h8
    generalize (w.toolchains 0).executables = e at *
    obtain ⟨_, _, _, _, _⟩ := e
    simp only at e4 e5 e6 e7 e8
    rw [givenExes, ← e4, ← e5, ← e6, ← e7, ← e8]

theorem vars_some {g : Cli.Given} {a : Cli.ArgToolchain} :
    (∃ w, lineVars g = some w ∧ w.toolchains 0 = a) ↔ Wanted g a := by
  constructor
  · rintro ⟨w, h, rfl⟩
    exact vars_wanted h
  · intro h
    cases hv : lineVars g with
    | some w => exact ⟨w, rfl, wanted_unique (vars_wanted hv) h⟩
    | none =>
      exfalso
      rw [lineVars, Cli.C89_fatal] at hv
      simp [Cli.toolchainNames, Cli.targetNames] at hv
      obtain ⟨t, h1, h2⟩ := hv
      rcases h.id with ⟨h3, -⟩ | ⟨u, h3, h4⟩
      · rw [h1] at h3; cases h3
      · rw [h1] at h3; cases h3
        exact h2 _ h4

/-- What the command line is read as. -/
structure Reads (mach : Machine) (home : Home) (line : ExeLine) (r : Read) : Prop where
  asks : Asks line r.args
  offers : ∃ dirs, mach.entries home.libs = some dirs ∧ Offers line home.libs dirs r.args ∧
    ∀ e ∈ dirs, e.2 = true → mach.accepts (b!"--" ++ e.1) = true
  project : ∃ root build, line.root = some root ∧ line.build = some build ∧
    r.project = ⟨true, Path.append mach.cwd root, Path.append mach.cwd build⟩
  clean : r.clean = line.clean
  toolchain : Wanted line.toolchain r.toolchain

theorem readArgs_some {mach : Machine} {home : Home} {line : ExeLine} {r : Read}
    (hd : ∀ dirs, mach.entries home.libs = some dirs → ∀ e ∈ dirs, EntryName e.1) :
    readArgs mach home line = some r ↔ Reads mach home line r := by
  have hfiles : ∀ dirs, (∀ e ∈ dirs, EntryName e.1) →
      libFiles home.libs ((libsInfo home.libs dirs).map fun l => (l.name, line.libs l.name)) =
      (dirs.filter (·.2)).flatMap fun e =>
        (line.libs e.1).map fun f => Path.append (Path.append home.libs e.1) f := by
    intro dirs h
    rw [libs_eq h, libFiles, List.map_map, List.flatMap_map]
    rfl
  have hall : ∀ dirs, (∀ e ∈ dirs, EntryName e.1) →
      (((libsInfo home.libs dirs).all fun l => mach.accepts (b!"--" ++ l.name)) = true ↔
        ∀ e ∈ dirs, e.2 = true → mach.accepts (b!"--" ++ e.1) = true) := by
    intro dirs h
    rw [libs_eq h]
    simp only [List.all_map, List.all_eq_true, List.mem_filter, Function.comp_def, and_imp]
  constructor
  · intro h
    simp only [readArgs, Option.bind_eq_bind, Option.bind_eq_some_iff] at h
    obtain ⟨dirs, h1, h⟩ := h
    split at h
    · rename_i hacc
      simp only [Option.bind_eq_some_iff, Option.pure_def, Option.some.injEq] at h
      obtain ⟨root, h2, build, h3, name, h4, type, ⟨tt, h5, h6⟩, rel, h7, mode, ⟨tm, h8, h9⟩, w, h10,
        rfl⟩ := h
      have hn := hd dirs h1
      exact ⟨⟨h4, ⟨tt, h5, typeOf_some.1 h6⟩, h7, ⟨tm, h8, modeOf_some.1 h9⟩, rfl, rfl⟩,
        ⟨dirs, h1, ⟨libs_eq hn, hfiles dirs hn⟩, (hall dirs hn).1 hacc⟩,
        ⟨root, build, h2, h3, rfl⟩, rfl, vars_wanted h10⟩
    · cases h
  · rintro ⟨⟨a1, ⟨tt, a2, a3⟩, a4, ⟨tm, a5, a6⟩, a7, a8⟩, ⟨dirs, h1, ⟨o1, o2⟩, hacc⟩,
      ⟨root, build, h2, h3, h4⟩, h5, h6⟩
    have hn := hd dirs h1
    obtain ⟨w, hw, hw0⟩ := vars_some.2 h6
    rw [lineVars] at hw
    simp only [readArgs, Option.bind_eq_bind, h1, Option.bind_some, if_pos ((hall dirs hn).2 hacc),
      h2, h3, a1, a2, typeOf_some.2 a3, a4, a5, modeOf_some.2 a6, hw, Option.pure_def]
    rw [hfiles dirs hn, libs_eq hn]
    obtain ⟨⟨_, _, _, _, _, _, _, _⟩, _, _, _⟩ := r
    simp only at *
    subst a7 a8 o1 o2 h4 h5 hw0
    rfl

theorem construct_some {a : Cli.ArgToolchain} {t : Toolchain} :
    (∃ obj s, Cli.construct Storage.init a = some (t, obj, s)) ↔
      a.id ≠ .undefined ∧ t = toolchainCustom a.id a.name a.executables (some a.config) := by
  rw [Cli.construct]
  have hadd : ∀ ty t', ∃ obj s, addIf Storage.init a.name ty t' = some (t', obj, s) := by
    intro ty t'
    rw [addIf]
    exact ⟨_, _, rfl⟩
  have key : ∀ ty t', (∃ obj s, addIf Storage.init a.name ty t' = some (t, obj, s)) ↔ t = t' := by
    intro ty t'
    obtain ⟨o, s, h⟩ := hadd ty t'
    rw [h]
    constructor
    · rintro ⟨_, _, e⟩; cases e; rfl
    · rintro rfl; exact ⟨o, s, rfl⟩
  cases hid : a.id <;> simp only [newToolchain.eq_def, ne_eq, reduceCtorEq, not_false_eq_true, true_and,
    not_true_eq_false, false_and, exists_false, iff_false, not_exists]
  all_goals first | exact key _ _ | simp

theorem hostToolchain_some {mach : Machine} (hw : mach.host.WF) {a : Cli.ArgToolchain} {t : Toolchain} :
    hostToolchain mach a = some t ↔ Found mach a t := by
  have hh : hostToolchain mach a = some t ↔ a.id ≠ .undefined ∧ ∃ info,
      verifyToolchain mach.host mach.shell
        (toolchainCustom a.id a.name a.executables (some a.config)) {} = some (info, t) := by
    simp only [hostToolchain, Option.bind_eq_bind, Option.bind_eq_some_iff, Option.pure_def,
      Prod.exists, Option.some.injEq]
    constructor
    · rintro ⟨t0, o, s, h1, i, t1, h2, rfl⟩
      obtain ⟨h3, rfl⟩ := construct_some.1 ⟨o, s, h1⟩
      exact ⟨h3, i, h2⟩
    · rintro ⟨h1, i, h2⟩
      obtain ⟨o, s, h3⟩ := construct_some.2 ⟨h1, rfl⟩
      exact ⟨_, o, s, h3, i, t, h2, rfl⟩
  have hext : ∀ d, t = { toolchainCustom a.id a.name a.executables (some a.config) with
        executables := inside mach.host d a.executables } ↔
      (t.id = a.id ∧ t.name = a.name ∧ t.config = globalConfig a.id ∧ t.user = {} ∧
        t.infoCb = globalInfo a.id) ∧ t.executables = inside mach.host d a.executables := by
    intro d
    constructor
    · rintro rfl; exact ⟨⟨rfl, rfl, rfl, rfl, rfl⟩, rfl⟩
    · rintro ⟨⟨h1, h2, h3, h4, h5⟩, h6⟩
      cases t
      simp only at h1 h2 h3 h4 h5 h6
      subst h1 h2 h3 h4 h5 h6
      rfl
  rw [hh]
  by_cases hg : a.id = .gcc ∨ a.id = .mingw ∨ a.id = .clang
  · constructor
    · rintro ⟨-, i, h⟩
      obtain ⟨h1, h2, h3, h4, h5⟩ := (C77_gcc_partial hw mach.shell a.id hg _ _ _ _ _ _).1 h
      obtain ⟨h6, h7⟩ := (hext _).1 h3
      refine ⟨h6, h1, ⟨_, h2, h7⟩, .inl ⟨hg, ⟨i.compilerVersion, ?_⟩, i.targetArch, ?_⟩⟩
      · rw [h7]; exact h4
      · rw [h7]; exact h5
    · rintro ⟨h1, h2, ⟨d, h3, h4⟩, h5⟩
      rcases h5 with ⟨-, ⟨v, h5⟩, u, h6⟩ | ⟨h5, -⟩
      · rw [h4] at h5 h6
        refine ⟨by rcases hg with h | h | h <;> rw [h] <;> simp, ⟨d, v, u⟩, ?_⟩
        exact (C77_gcc_partial hw mach.shell a.id hg _ _ _ _ _ _).2
          ⟨h2, h3, (hext d).2 ⟨h1, h4⟩, h5, h6⟩
      · rw [h5] at hg; simp at hg
  · by_cases hm : a.id = .msvc
    · constructor
      · rintro ⟨-, i, h⟩
        rw [hm] at h
        obtain ⟨h1, h2, h3, h4, x, y, h5, h6, -⟩ := (C77_msvc hw mach.shell _ _ _ _ _ _).1 h
        rw [← hm] at h3
        obtain ⟨h7, h8⟩ := (hext _).1 h3
        refine ⟨h7, h1, ⟨_, h2, h8⟩, .inr ⟨hm, ?_⟩⟩
        simp [h4, h5, h6]
      · rintro ⟨h1, h2, ⟨d, h3, h4⟩, h5⟩
        rcases h5 with ⟨h5, -⟩ | ⟨-, h5⟩
        · exact absurd h5 hg
        · simp only [List.mem_cons, List.not_mem_nil, or_false, forall_eq_or_imp, forall_eq,
            Option.isSome_iff_exists] at h5
          obtain ⟨⟨v, h5⟩, ⟨x, h6⟩, y, h7⟩ := h5
          refine ⟨by rw [hm]; simp, ⟨d, v, x ++ b!"_" ++ y⟩, ?_⟩
          have := (hext d).2 ⟨h1, h4⟩
          rw [hm] at this ⊢
          exact (C77_msvc hw mach.shell _ _ _ _ _ _).2 ⟨h2, h3, this, h5, x, y, h6, h7, rfl⟩
    · constructor
      · rintro ⟨hne, i, h⟩
        have : a.id = .custom ∨ a.id = .undefined := by
          cases hid : a.id <;> simp_all
        rw [C77_custom hw mach.shell a.id this] at h
        cases h
      · rintro ⟨-, -, -, h5⟩
        rcases h5 with ⟨h5, -⟩ | ⟨h5, -⟩
        · exact absurd h5 hg
        · exact absurd h5 hm

/-- The directories of `BUILDCC_HOME`. -/
def homeOf (home : Str) : Home :=
  ⟨home, Path.append home b!"buildcc", Path.append home b!"libs", Path.append home b!"extensions"⟩

theorem homeInit_of {mach : Machine} {home : Home} :
    homeInit mach.host.getenv mach.present = some home ↔
      ∃ h, HomeAt mach h ∧ home = homeOf h := by
  rw [homeInit_at]
  constructor
  · rintro ⟨h, h1, h2, h3⟩
    refine ⟨home.home, h, ?_⟩
    obtain ⟨_, _, _, _⟩ := home
    simp only at h1 h2 h3
    subst h1 h2 h3
    rfl
  · rintro ⟨h, h1, rfl⟩
    exact ⟨h1, rfl, rfl, rfl⟩

theorem exeMain_immediate {junk : Nat → TargetSchema} {w : World} {p : Project} {clean : Bool}
    {a : ExeArgs} {b : Buildcc} {did : List ExeDid} (hm : a.mode = .immediate) :
    exeMain junk w p clean a b = (did, 0) ↔ w.buildOk = true ∧ ∃ tc m u, w.toolchain = some tc ∧
      setup junk p w.list tc a b = some (m, u) ∧
      did = (if clean then [ExeDid.cleaned p.buildDir] else []) ++
        [.built (outputPath m.fixed), .compileCommands] := by
  rw [exeMain]
  cases ht : w.toolchain with
  | none => simp
  | some tc =>
    simp only [hm, reduceCtorEq, false_and, if_false, Option.some.injEq, List.append_nil]
    cases hs : setup junk p w.list tc a b with
    | none => simp [hs]
    | some x =>
      obtain ⟨m, u⟩ := x
      cases hb : w.buildOk with
      | false => simp
      | true =>
        simp only [Bool.true_eq_false, if_false, Prod.mk.injEq, and_true, true_and, List.append_assoc,
          List.cons_append, List.nil_append]
        constructor
        · rintro rfl; exact ⟨tc, m, u, rfl, hs, rfl⟩
        · rintro ⟨_, m', u', rfl, h1, rfl⟩
          rw [hs] at h1; cases h1; rfl

theorem exeMain_script {junk : Nat → TargetSchema} {w : World} {p : Project} {clean : Bool}
    {a : ExeArgs} {b : Buildcc} {did : List ExeDid} (hm : a.mode = .script) :
    exeMain junk w p clean a b = (did, 0) ↔ w.buildOk = true ∧ w.hostOk = true ∧
      ∃ tc m u, w.toolchain = some tc ∧ setup junk p w.list tc a b = some (m, u) ∧
      did = (if clean then [ExeDid.cleaned p.buildDir] else []) ++
        [.header (libDirsFile m.buildDir) (libDirsText a.libs), .built (outputPath m.fixed),
          .ran (spaced (Path.displayString (outputPath m.fixed) ::
            if a.configs = [] then [b!""] else a.configs.flatMap fun c => [b!"--config", c])),
          .compileCommands] := by
  rw [exeMain]
  simp only [execute_script]
  simp only [scriptCommand_eq]
  cases ht : w.toolchain with
  | none => simp
  | some tc =>
    cases hh : w.hostOk with
    | false => simp [hm]
    | true =>
      simp only [hm, Bool.true_eq_false, and_false, if_false, Option.some.injEq, if_true]
      cases hs : setup junk p w.list tc a b with
      | none => simp [hs]
      | some x =>
        obtain ⟨m, u⟩ := x
        cases hb : w.buildOk with
        | false => simp
        | true =>
          simp only [Bool.true_eq_false, if_false, Prod.mk.injEq, and_true, true_and,
            List.append_assoc, List.cons_append, List.nil_append]
          constructor
          · rintro rfl; exact ⟨tc, m, u, rfl, hs, rfl⟩
          · rintro ⟨_, m', u', rfl, h1, rfl⟩
            rw [hs] at h1; cases h1; rfl

/-- The check of the toolchain passes: its target can be made, is built, and runs. -/
def HostChecked (junk : Nat → TargetSchema) (mach : Machine) (p : Project)
    (hostRun : Made → TargetSchema → Sys) (tc : Toolchain) : Prop :=
  ∃ m u, hostTarget junk p mach.list tc = some (m, u) ∧ hostPasses mach.shell m (hostRun m u) = true

theorem hostOk_iff {junk : Nat → TargetSchema} {mach : Machine} {p : Project}
    {hostRun : Made → TargetSchema → Sys} {tc : Toolchain} :
    hostOk junk mach p hostRun tc = true ↔ HostChecked junk mach p hostRun tc := by
  rw [hostOk, HostChecked]
  cases hostTarget junk p mach.list tc with
  | none => simp
  | some x =>
    obtain ⟨m, u⟩ := x
    simp only [Option.some.injEq, Prod.mk.injEq]
    constructor
    · intro h; exact ⟨m, u, ⟨rfl, rfl⟩, h⟩
    · rintro ⟨_, _, ⟨rfl, rfl⟩, h⟩; exact h

/-! ## Theorems -/

/-- C90: `buildexe` ends with status 0 if and only if the environment has a home, the command line
says all that is needed, the toolchain is found, the target can be made and is built, and, in script
mode, the toolchain passed its check and the library could be set up; it did then exactly this: clean
if asked to, build, run what was built with all configuration files (script mode only), write
`compile_commands.json`. -/
theorem C90_program {junk : Nat → TargetSchema} {mach : Machine} {hostRun : Made → TargetSchema → Sys}
    {buildOk : Bool} {line : ExeLine} {did : List ExeDid} (hw : mach.host.WF)
    (hd : ∀ d l, mach.entries d = some l → ∀ e ∈ l, EntryName e.1) (h0 : line.ends = none) :
    exeProgram junk mach hostRun buildOk line = (did, 0) ↔
      buildOk = true ∧ ∃ home r tc m u, HomeAt mach home ∧ Reads mach (homeOf home) line r ∧
      Found mach r.toolchain tc ∧
      ((r.args.mode = .immediate ∧ setup junk r.project mach.list tc r.args ⟨[], .empty⟩ = some (m, u) ∧
        did = (if r.clean then [ExeDid.cleaned r.project.buildDir] else []) ++
          [.built (outputPath m.fixed), .compileCommands]) ∨
       (r.args.mode = .script ∧ HostChecked junk mach r.project hostRun tc ∧
        ∃ pkg, Boot.buildBuildCC junk r.project ⟨(homeOf home).base, homeBuild (homeOf home)⟩ mach.list tc
            = some pkg ∧
        setup junk r.project mach.list tc r.args
            ⟨outputPath pkg.buildcc.made.fixed, pkg.buildcc.cfg⟩ = some (m, u) ∧
        did = (if r.clean then [ExeDid.cleaned r.project.buildDir] else []) ++
          [.header (libDirsFile m.buildDir) (libDirsText r.args.libs), .built (outputPath m.fixed),
            .ran (spaced (Path.displayString (outputPath m.fixed) ::
              if r.args.configs = [] then [b!""]
              else r.args.configs.flatMap fun c => [b!"--config", c])),
            .compileCommands])) := by
  rw [exeProgram]
  cases hh : homeInit mach.host.getenv mach.present with
  | none =>
    simp only [Prod.mk.injEq, Nat.one_ne_zero, and_false, false_iff, not_and, not_exists]
    intro _ home r tc m u hhome
    rw [homeInit_of.2 ⟨home, hhome, rfl⟩] at hh
    cases hh
  | some H =>
    obtain ⟨home, hhome, rfl⟩ := homeInit_of.1 hh
    have huniq : ∀ home', HomeAt mach home' → home' = home := by
      intro home' h'
      have := h'.set
      rw [hhome.set] at this
      exact (Option.some.inj this).symm
    cases he : mach.entries (homeOf home).libs with
    | none =>
      simp only [h0, he, Prod.mk.injEq, Nat.one_ne_zero, and_false, false_iff, not_and, not_exists]
      intro _ home' r tc m u h1 h2
      obtain rfl := huniq _ h1
      obtain ⟨dirs, h3, -⟩ := h2.offers
      rw [he] at h3
      cases h3
    | some dirs =>
      simp only [h0, he]
      have hr := fun r => readArgs_some (mach := mach) (home := homeOf home) (line := line) (r := r)
        (hd _)
      cases hread : readArgs mach (homeOf home) line with
      | none =>
        simp only [Prod.mk.injEq, Nat.one_ne_zero, and_false, false_iff, not_and, not_exists]
        intro _ home' r tc m u h1 h2
        obtain rfl := huniq _ h1
        rw [(hr r).2 h2] at hread
        cases hread
      | some r =>
        have hrr := (hr r).1 hread
        have hru : ∀ r', Reads mach (homeOf home) line r' → r' = r := by
          intro r' h'
          have := (hr r').2 h'
          rw [hread] at this
          exact (Option.some.inj this).symm
        simp only
        cases ht : hostToolchain mach r.toolchain with
        | none =>
          have : ∀ b, exeMain junk ⟨mach.list, none, false, buildOk, mach.shell⟩ r.project r.clean r.args b ≠
              (did, 0) := by
            intro b h
            simp [exeMain] at h
          constructor
          · intro h
            cases hm : r.args.mode <;> rw [hm] at h <;> exact absurd h (this _)
          · rintro ⟨_, home', r', tc, m, u, h1, h2, h3, -⟩
            obtain rfl := huniq _ h1
            obtain rfl := hru _ h2
            rw [(hostToolchain_some hw).2 h3] at ht
            cases ht
        | some tc =>
          have hf := (hostToolchain_some hw).1 ht
          have htu : ∀ tc', Found mach r.toolchain tc' → tc' = tc := by
            intro tc' h'
            have := (hostToolchain_some hw).2 h'
            rw [ht] at this
            exact (Option.some.inj this).symm
          cases hm : r.args.mode with
          | immediate =>
            simp only
            rw [exeMain_immediate hm]
            constructor
            · rintro ⟨hb, _, m, u, h1, h2, h3⟩
              cases h1
              exact ⟨hb, home, r, tc, m, u, hhome, hrr, hf, .inl ⟨hm, h2, h3⟩⟩
            · rintro ⟨hb, home', r', tc', m, u, h1, h2, h3, h4⟩
              obtain rfl := huniq _ h1
              obtain rfl := hru _ h2
              obtain rfl := htu _ h3
              rcases h4 with ⟨-, h5, h6⟩ | ⟨h5, -⟩
              · exact ⟨hb, _, m, u, rfl, h5, h6⟩
              · rw [hm] at h5; cases h5
          | script =>
            simp only
            cases hp : Boot.buildBuildCC junk r.project
                ⟨(homeOf home).base, homeBuild (homeOf home)⟩ mach.list tc with
            | none =>
              simp only [Prod.mk.injEq, Nat.one_ne_zero, and_false, false_iff, not_and, not_exists]
              intro _ home' r' tc' m u h1 h2 h3 h4
              obtain rfl := huniq _ h1
              obtain rfl := hru _ h2
              obtain rfl := htu _ h3
              rcases h4 with ⟨h5, -⟩ | ⟨-, -, pkg, h5, -⟩
              · rw [hm] at h5; cases h5
              · rw [hp] at h5; cases h5
            | some pkg =>
              simp only
              rw [exeMain_script hm]
              simp only [hostOk_iff]
              constructor
              · rintro ⟨hb, hok, _, m, u, h1, h2, h3⟩
                cases h1
                exact ⟨hb, home, r, tc, m, u, hhome, hrr, hf, .inr ⟨hm, hok, pkg, hp, h2, h3⟩⟩
              · rintro ⟨hb, home', r', tc', m, u, h1, h2, h3, h4⟩
                obtain rfl := huniq _ h1
                obtain rfl := hru _ h2
                obtain rfl := htu _ h3
                rcases h4 with ⟨h5, -⟩ | ⟨-, hok, pkg', h5, h6, h7⟩
                · rw [hm] at h5; cases h5
                · rw [hp] at h5
                  cases h5
                  exact ⟨hb, hok, _, m, u, rfl, h6, h7⟩

/-- C90: with another status nothing was built and nothing was run; at most the build directory was
cleaned and the header with the directories of the libraries was written. -/
theorem C90_failed {junk : Nat → TargetSchema} {mach : Machine} {hostRun : Made → TargetSchema → Sys}
    {buildOk : Bool} {line : ExeLine} (h : (exeProgram junk mach hostRun buildOk line).2 ≠ 0) :
    ∀ x ∈ (exeProgram junk mach hostRun buildOk line).1,
      (∃ d, x = .cleaned d) ∨ ∃ f t, x = .header f t := by
  have hmain : ∀ w p clean a b, (exeMain junk w p clean a b).2 ≠ 0 →
      ∀ x ∈ (exeMain junk w p clean a b).1, (∃ d, x = .cleaned d) ∨ ∃ f t, x = .header f t := by
    intro w p clean a b
    rw [exeMain]
    simp only [execute_script]
    cases w.toolchain with
    | none => cases clean <;> simp
    | some tc =>
      by_cases hh : a.mode = .script ∧ w.hostOk = false
      · simp only [if_pos hh]
        cases clean <;> simp
      · simp only [if_neg hh]
        cases setup junk p w.list tc a b with
        | none => cases clean <;> simp
        | some x => cases w.buildOk <;> cases clean <;> cases a.mode <;> simp
  revert h
  rw [exeProgram]
  split
  · simp
  · split
    · simp
    · simp
    · split
      · simp
      · rename_i home _ _ _ _ _ _ _ r _
        cases hostToolchain mach r.toolchain with
        | none => cases r.args.mode <;> exact hmain _ _ _ _ _
        | some tc =>
          cases r.args.mode with
          | immediate => exact hmain _ _ _ _ _
          | script =>
            simp only
            cases Boot.buildBuildCC junk r.project ⟨home.base, homeBuild home⟩ mach.list tc with
            | none => cases r.clean <;> simp
            | some pkg => exact hmain _ _ _ _ _

/-- C90: when an executable is not given, `buildexe` ends with another status than 0, on every
machine: the executables of the toolchain have no defaults. -/
theorem C90_executables {junk : Nat → TargetSchema} {mach : Machine}
    {hostRun : Made → TargetSchema → Sys} {buildOk : Bool} {line : ExeLine} (hw : mach.host.WF)
    (hd : ∀ d l, mach.entries d = some l → ∀ e ∈ l, EntryName e.1) (h0 : line.ends = none)
    (hno : ∃ o ∈ [b!"--asm_compiler", b!"--c_compiler", b!"--cpp_compiler", b!"--archiver", b!"--linker"],
      line.toolchain.value o = none) :
    (exeProgram junk mach hostRun buildOk line).2 ≠ 0 := by
  intro h
  have := (C90_program hw hd h0 (did := (exeProgram junk mach hostRun buildOk line).1)).1
    (Prod.ext rfl h)
  obtain ⟨-, home, r, tc, m, u, -, hr, hf, -⟩ := this
  obtain ⟨d, ⟨_, _, -, -, l, hl, hall⟩, -⟩ := hf.exes
  rw [hr.toolchain.exes] at hall
  have hnil : [] ∈ [(givenExes line.toolchain).assembler, (givenExes line.toolchain).cCompiler,
      (givenExes line.toolchain).cppCompiler, (givenExes line.toolchain).archiver,
      (givenExes line.toolchain).linker] := by
    obtain ⟨o, ho, hv⟩ := hno
    simp only [List.mem_cons, List.not_mem_nil, or_false] at ho
    rcases ho with rfl | rfl | rfl | rfl | rfl <;> simp [givenExes, hv]
  obtain ⟨f, hf, hff⟩ := hall [] hnil
  rcases hff with ⟨rfl, -⟩ | ⟨hne, -⟩
  · exact (hw d l hl _ hf).1 rfl
  · exact hne rfl

/-- C90: `--id clang`, `--id custom` and `--id undefined` are taken, but no run ends with status
0. -/
theorem C90_kinds {junk : Nat → TargetSchema} {mach : Machine}
    {hostRun : Made → TargetSchema → Sys} {buildOk : Bool} {line : ExeLine} (hw : mach.host.WF)
    (hd : ∀ d l, mach.entries d = some l → ∀ e ∈ l, EntryName e.1) (h0 : line.ends = none)
    {text : Str} {id : ToolchainId} (ht : line.toolchain.value b!"--id" = some text)
    (hid : Cli.Names id text) (hk : id = .clang ∨ id = .custom ∨ id = .undefined) :
    (exeProgram junk mach hostRun buildOk line).2 ≠ 0 := by
  intro h
  have := (C90_program hw hd h0 (did := (exeProgram junk mach hostRun buildOk line).1)).1
    (Prod.ext rfl h)
  obtain ⟨-, home, r, tc, m, u, -, hr, hf, hs⟩ := this
  have hi : tc.id = id := by
    rw [hf.same.1]
    rcases hr.toolchain.id with ⟨h1, -⟩ | ⟨t', h1, h2⟩
    · rw [ht] at h1; cases h1
    · rw [ht] at h1
      cases h1
      have e1 := Cli.idOf_names h2
      rw [Cli.idOf_names hid] at e1
      exact (Option.some.inj e1).symm
  have hsup : ¬ Supported tc.id := by
    rw [hi]
    rcases hk with rfl | rfl | rfl <;> simp [Supported]
  have hnone := fun b => (C78_refused junk r.project mach.list tc r.args b).2 (.inr (.inr (.inl hsup)))
  rcases hs with ⟨-, h1, -⟩ | ⟨-, -, pkg, -, h1, -⟩
  · rw [hnone] at h1; cases h1
  · rw [hnone] at h1; cases h1

/-- C90: a command line that is refused by the parser, or asks for help, has no effect.  The program
ends with the status of the parser, unless there is no home or its libraries cannot be listed, which is
fatal before the command line is read. -/
theorem C90_ends {junk : Nat → TargetSchema} {mach : Machine}
    {hostRun : Made → TargetSchema → Sys} {buildOk : Bool} {line : ExeLine} {status : Nat}
    (h0 : line.ends = some status) :
    (exeProgram junk mach hostRun buildOk line).1 = [] ∧
    ((∃ home l, HomeAt mach home ∧ mach.entries (Path.append home b!"libs") = some l) →
      (exeProgram junk mach hostRun buildOk line).2 = status) ∧
    ((¬ ∃ home l, HomeAt mach home ∧ mach.entries (Path.append home b!"libs") = some l) →
      (exeProgram junk mach hostRun buildOk line).2 = 1) := by
  rw [exeProgram]
  cases hh : homeInit mach.host.getenv mach.present with
  | none =>
    refine ⟨rfl, ?_, fun _ => rfl⟩
    rintro ⟨home, l, h1, -⟩
    rw [homeInit_of.2 ⟨home, h1, rfl⟩] at hh
    cases hh
  | some H =>
    obtain ⟨home, hhome, rfl⟩ := homeInit_of.1 hh
    have huniq : ∀ home', HomeAt mach home' → home' = home := by
      intro home' h'
      have := h'.set
      rw [hhome.set] at this
      exact (Option.some.inj this).symm
    have hl : (homeOf home).libs = Path.append home b!"libs" := rfl
    cases he : mach.entries (Path.append home b!"libs") with
    | none =>
      simp only [h0, hl, he]
      refine ⟨trivial, ?_, fun _ => trivial⟩
      rintro ⟨home', l, h1, h2⟩
      obtain rfl := huniq _ h1
      rw [he] at h2
      cases h2
    | some l =>
      simp only [h0, hl, he]
      exact ⟨trivial, fun _ => trivial, fun h => absurd ⟨home, l, hhome, he⟩ h⟩

/-- C90: the build directory is removed exactly when `--clean` is given and the command line says all
that is needed, whatever fails later. -/
theorem C90_cleaned {junk : Nat → TargetSchema} {mach : Machine}
    {hostRun : Made → TargetSchema → Sys} {buildOk : Bool} {line : ExeLine} {d : Str}
    (hd : ∀ d l, mach.entries d = some l → ∀ e ∈ l, EntryName e.1) (h0 : line.ends = none) :
    .cleaned d ∈ (exeProgram junk mach hostRun buildOk line).1 ↔
      line.clean = true ∧ ∃ home r, HomeAt mach home ∧ Reads mach (homeOf home) line r ∧
        d = r.project.buildDir := by
  have hmain : ∀ w p clean a b, .cleaned d ∈ (exeMain junk w p clean a b).1 ↔
      clean = true ∧ d = p.buildDir := by
    intro w p clean a b
    rw [exeMain]
    simp only [execute_script]
    cases w.toolchain with
    | none => cases clean <;> simp
    | some tc =>
      by_cases hh : a.mode = .script ∧ w.hostOk = false
      · simp only [if_pos hh]
        cases clean <;> simp
      · simp only [if_neg hh]
        cases setup junk p w.list tc a b with
        | none => cases clean <;> simp
        | some x => cases w.buildOk <;> cases clean <;> cases a.mode <;> simp
  rw [exeProgram]
  cases hh : homeInit mach.host.getenv mach.present with
  | none =>
    simp only [List.not_mem_nil, false_iff, not_and, not_exists]
    intro _ home r hhome
    rw [homeInit_of.2 ⟨home, hhome, rfl⟩] at hh
    cases hh
  | some H =>
    obtain ⟨home, hhome, rfl⟩ := homeInit_of.1 hh
    have huniq : ∀ home', HomeAt mach home' → home' = home := by
      intro home' h'
      have := h'.set
      rw [hhome.set] at this
      exact (Option.some.inj this).symm
    have hr := fun r => readArgs_some (mach := mach) (home := homeOf home) (line := line) (r := r)
      (hd _)
    cases he : mach.entries (homeOf home).libs with
    | none =>
      simp only [h0, he, List.not_mem_nil, false_iff, not_and, not_exists]
      intro _ home' r h1 h2
      obtain rfl := huniq _ h1
      obtain ⟨dirs, h3, -⟩ := h2.offers
      rw [he] at h3
      cases h3
    | some dirs =>
      simp only [h0, he]
      cases hread : readArgs mach (homeOf home) line with
      | none =>
        simp only [List.not_mem_nil, false_iff, not_and, not_exists]
        intro _ home' r h1 h2
        obtain rfl := huniq _ h1
        rw [(hr r).2 h2] at hread
        cases hread
      | some r =>
        have hrr := (hr r).1 hread
        have hru : ∀ r', Reads mach (homeOf home) line r' → r' = r := by
          intro r' h'
          have := (hr r').2 h'
          rw [hread] at this
          exact (Option.some.inj this).symm
        have hiff : (r.clean = true ∧ d = r.project.buildDir) ↔ (line.clean = true ∧ ∃ home r,
            HomeAt mach home ∧ Reads mach (homeOf home) line r ∧ d = r.project.buildDir) := by
          rw [hrr.clean]
          constructor
          · rintro ⟨h1, h2⟩; exact ⟨h1, home, r, hhome, hrr, h2⟩
          · rintro ⟨h1, home', r', h2, h3, h4⟩
            obtain rfl := huniq _ h2
            obtain rfl := hru _ h3
            exact ⟨h1, h4⟩
        rw [← hiff]
        simp only
        cases hostToolchain mach r.toolchain with
        | none => cases r.args.mode <;> exact hmain _ _ _ _ _
        | some tc =>
          cases r.args.mode with
          | immediate => exact hmain _ _ _ _ _
          | script =>
            simp only
            cases Boot.buildBuildCC junk r.project ⟨(homeOf home).base, homeBuild (homeOf home)⟩ mach.list tc with
            | none => cases r.clean <;> simp
            | some pkg => exact hmain _ _ _ _ _

end Verif.Exe
