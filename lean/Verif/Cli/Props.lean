import Verif.Cli.Model
import Verif.Toolchain.CreateProps

/-! # Toolchains and targets from the command line (C89) -/

namespace Verif.Cli
open Verif Verif.Env Verif.Target Verif.Toolchain

/-! ## Specification -/

/-- No two calls are given the same variable. -/
def OwnVars : List Decl → Prop
  | [] => True
  | d :: l => OwnVars l ∧ ∀ e ∈ l, match d, e with
    | .toolchain _ a _, .toolchain _ b _ => a ≠ b
    | .target _ a _, .target _ b _ => a ≠ b
    | _, _ => True

/-- `x` is what is given, or else `fallback`. -/
def Chosen {α : Type} (given : Option α) (fallback x : α) : Prop :=
  (∀ y, given = some y → x = y) ∧ (given = none → x = fallback)

/-- `text` names the kind of toolchain, in upper or lower case, or is its number. -/
inductive Names : ToolchainId → Str → Prop where
  | gcc (s) : s.map lower = b!"gcc" → Names .gcc s
  | msvc (s) : s.map lower = b!"msvc" → Names .msvc s
  | clang (s) : s.map lower = b!"clang" → Names .clang s
  | mingw (s) : s.map lower = b!"mingw" → Names .mingw s
  | custom (s) : s.map lower = b!"custom" → Names .custom s
  | undefined (s) : s.map lower = b!"undefined" → Names .undefined s
  | number : Names .gcc b!"0"
  | number1 : Names .msvc b!"1"
  | number2 : Names .clang b!"2"
  | number3 : Names .mingw b!"3"
  | number4 : Names .custom b!"4"
  | number5 : Names .undefined b!"5"

/-! ## Lemmas -/

theorem chosen_getD {α : Type} (o : Option α) (d : α) : Chosen o d (o.getD d) := by
  cases o <;> simp [Chosen]

theorem names_of {s : Str} {id : ToolchainId} (h : idOf s = some id) : Names id s := by
  rw [idOf, Option.map_eq_some_iff] at h
  obtain ⟨x, hx, rfl⟩ := h
  have h1 := List.mem_of_find?_eq_some hx
  have h2 := List.find?_some hx
  simp only [decide_eq_true_eq] at h2
  simp only [idNames, List.mem_cons, List.not_mem_nil, or_false] at h1
  rcases h1 with rfl | rfl | rfl | rfl | rfl | rfl <;> rcases h2 with h2 | h2
  all_goals first
    | exact .gcc _ h2.symm
    | exact .msvc _ h2.symm
    | exact .clang _ h2.symm
    | exact .mingw _ h2.symm
    | exact .custom _ h2.symm
    | exact .undefined _ h2.symm
    | (simp only at h2; subst h2; first
        | exact .number | exact .number1 | exact .number2 | exact .number3 | exact .number4
        | exact .number5)

theorem idOf_names {s : Str} {id : ToolchainId} (h : Names id s) : idOf s = some id := by
  cases h
  all_goals first
    | decide
    | (rename_i h
       rw [idOf, h]
       simp only [idNames]
       revert h
       intro h
       by_cases e : s ∈ [b!"0", b!"1", b!"2", b!"3", b!"4", b!"5"]
       · simp only [List.mem_cons, List.not_mem_nil, or_false] at e
         rcases e with rfl | rfl | rfl | rfl | rfl | rfl <;> exact absurd h (by decide)
       · simp only [List.mem_cons, List.not_mem_nil, or_false, not_or] at e
         obtain ⟨e0, e1, e2, e3, e4, e5⟩ := e
         simp [List.find?, Ne.symm e0, Ne.symm e1, Ne.symm e2, Ne.symm e3, Ne.symm e4, Ne.symm e5])

/-- A declaration does not touch the variables of others. -/
def Untouched (d : Decl) (v w : Vars) : Prop :=
  (∀ n, (∀ m o i, d = .toolchain m o i → o ≠ n) → w.toolchains n = v.toolchains n) ∧
  ∀ n, (∀ m o i, d = .target m o i → o ≠ n) → w.targets n = v.targets n

theorem declare_untouched (v : Vars) (d : Decl) : Untouched d v (declare v d) := by
  cases d with
  | toolchain m o i =>
    refine ⟨fun n h => ?_, fun n _ => rfl⟩
    have := h m o i rfl
    simp [declare, put, Ne.symm this]
  | target m o i =>
    refine ⟨fun n _ => rfl, fun n h => ?_⟩
    have := h m o i rfl
    simp [declare, put, Ne.symm this]

theorem read_untouched {line : Line} {v w : Vars} {d : Decl} (h : read line v d = some w) :
    Untouched d v w := by
  cases d with
  | toolchain m o i =>
    simp only [read, Option.map_eq_some_iff] at h
    obtain ⟨a, -, rfl⟩ := h
    refine ⟨fun n h => ?_, fun n _ => rfl⟩
    have := h m o i rfl
    simp [put, Ne.symm this]
  | target m o i =>
    simp only [read, Option.some.injEq] at h
    subst h
    refine ⟨fun n _ => rfl, fun n h => ?_⟩
    have := h m o i rfl
    simp [put, Ne.symm this]

/-- No declaration of the list has the variable. -/
def FreeT (ds : List Decl) (n : Nat) : Prop := ∀ m o i, .toolchain m o i ∈ ds → o ≠ n
def FreeG (ds : List Decl) (n : Nat) : Prop := ∀ m o i, .target m o i ∈ ds → o ≠ n

theorem declares_free : ∀ (ds : List Decl) (v : Vars),
    (∀ n, FreeT ds n → (ds.foldl declare v).toolchains n = v.toolchains n) ∧
    ∀ n, FreeG ds n → (ds.foldl declare v).targets n = v.targets n
  | [], _ => ⟨fun _ _ => rfl, fun _ _ => rfl⟩
  | d :: l, v => by
    have ih := declares_free l (declare v d)
    have hd := declare_untouched v d
    refine ⟨fun n h => ?_, fun n h => ?_⟩
    · rw [List.foldl_cons, ih.1 n fun m o i hm => h m o i (by simp [hm])]
      exact hd.1 n fun m o i e => h m o i (by simp [e])
    · rw [List.foldl_cons, ih.2 n fun m o i hm => h m o i (by simp [hm])]
      exact hd.2 n fun m o i e => h m o i (by simp [e])

theorem reads_free {line : Line} : ∀ (ds : List Decl) {v w : Vars}, readAll line v ds = some w →
    (∀ n, FreeT ds n → w.toolchains n = v.toolchains n) ∧
    ∀ n, FreeG ds n → w.targets n = v.targets n
  | [], v, w, h => by cases h; exact ⟨fun _ _ => rfl, fun _ _ => rfl⟩
  | d :: l, v, w, h => by
    rw [readAll] at h
    split at h
    · cases h
    · rename_i u hu
      have ih := reads_free l h
      have hd := read_untouched hu
      refine ⟨fun n h => ?_, fun n h => ?_⟩
      · rw [ih.1 n fun m o i hm => h m o i (by simp [hm])]
        exact hd.1 n fun m o i e => h m o i (by simp [e])
      · rw [ih.2 n fun m o i hm => h m o i (by simp [hm])]
        exact hd.2 n fun m o i e => h m o i (by simp [e])

theorem declared_toolchain {n : Str} {out : Nat} {ini : ArgToolchain} : ∀ (ds : List Decl) (v : Vars),
    OwnVars ds → .toolchain n out ini ∈ ds → (ds.foldl declare v).toolchains out =
      { v.toolchains out with id := ini.id, name := ini.name, executables := ini.executables }
  | [], _, _, h => by simp at h
  | d :: l, v, ho, h => by
    rw [OwnVars] at ho
    rcases List.mem_cons.1 h with rfl | h'
    · rw [List.foldl_cons, (declares_free l _).1 out]
      · simp [declare, put]
      · intro m o i hm e
        exact ho.2 _ hm e.symm
    · rw [List.foldl_cons, declared_toolchain l _ ho.1 h', (declare_untouched v d).1 out]
      intro m o i e
      subst e
      exact ho.2 _ h'

theorem declared_target {n : Str} {out : Nat} {ini : ArgTarget} : ∀ (ds : List Decl) (v : Vars),
    OwnVars ds → .target n out ini ∈ ds → (ds.foldl declare v).targets out = ini
  | [], _, _, h => by simp at h
  | d :: l, v, ho, h => by
    rw [OwnVars] at ho
    rcases List.mem_cons.1 h with rfl | h'
    · rw [List.foldl_cons, (declares_free l _).2 out]
      · simp [declare, put]
      · intro m o i hm e
        exact ho.2 _ hm e.symm
    · rw [List.foldl_cons, declared_target l _ ho.1 h']

theorem read_toolchain {line : Line} {n : Str} {out : Nat} {ini : ArgToolchain} :
    ∀ (ds : List Decl) {v w : Vars}, OwnVars ds → .toolchain n out ini ∈ ds →
      readAll line v ds = some w →
      readToolchain (line.toolchain n) (v.toolchains out) = some (w.toolchains out)
  | [], _, _, _, h, _ => by simp at h
  | d :: l, v, w, ho, h, hr => by
    rw [OwnVars] at ho
    rw [readAll] at hr
    split at hr
    · cases hr
    · rename_i u hu
      rcases List.mem_cons.1 h with rfl | h'
      · rw [(reads_free l hr).1 out fun m o i hm e => ho.2 _ hm e.symm]
        simp only [read, Option.map_eq_some_iff] at hu
        obtain ⟨a, ha, rfl⟩ := hu
        rw [ha]; simp [put]
      · rw [← read_toolchain l ho.1 h' hr, (read_untouched hu).1 out]
        intro m o i e
        subst e
        exact ho.2 _ h'

theorem read_target {line : Line} {n : Str} {out : Nat} {ini : ArgTarget} :
    ∀ (ds : List Decl) {v w : Vars}, OwnVars ds → .target n out ini ∈ ds →
      readAll line v ds = some w → w.targets out = readTarget (line.target n) (v.targets out)
  | [], _, _, _, h, _ => by simp at h
  | d :: l, v, w, ho, h, hr => by
    rw [OwnVars] at ho
    rw [readAll] at hr
    split at hr
    · cases hr
    · rename_i u hu
      rcases List.mem_cons.1 h with rfl | h'
      · rw [(reads_free l hr).2 out fun m o i hm e => ho.2 _ hm e.symm]
        simp only [read, Option.some.injEq] at hu
        subst hu; simp [put]
      · rw [read_target l ho.1 h' hr, (read_untouched hu).2 out]
        intro m o i e
        subst e
        exact ho.2 _ h'

/-! ## C89 -/

/-- C89: the id, the name and the executables of a toolchain are what is given for it on the command
line and else those of `initial`; nothing that is given for other toolchains or targets matters.
Its state is what is given and else what the variable had.  Missing: the configuration, see
`C89_config_false`. -/
theorem C89_toolchain_partial {line : Line} {v w : Vars} {ds : List Decl}
    (h : args line v ds = some w) (ho : OwnVars ds) {n : Str} {out : Nat} {ini : ArgToolchain}
    (hd : .toolchain n out ini ∈ ds) :
    let g := line.toolchain n
    let a := w.toolchains out
    (∀ text, g.value b!"--id" = some text → Names a.id text) ∧
    (g.value b!"--id" = none → a.id = ini.id) ∧
    Chosen (g.value b!"--name") ini.name a.name ∧
    Chosen (g.value b!"--asm_compiler") ini.executables.assembler a.executables.assembler ∧
    Chosen (g.value b!"--c_compiler") ini.executables.cCompiler a.executables.cCompiler ∧
    Chosen (g.value b!"--cpp_compiler") ini.executables.cppCompiler a.executables.cppCompiler ∧
    Chosen (g.value b!"--archiver") ini.executables.archiver a.executables.archiver ∧
    Chosen (g.value b!"--linker") ini.executables.linker a.executables.linker ∧
    Chosen (g.flag b!"--build") (v.toolchains out).build a.build ∧
    Chosen (g.flag b!"--test") (v.toolchains out).test a.test := by
  rw [args] at h
  split at h
  · have hr := read_toolchain ds ho hd h
    rw [declared_toolchain ds v ho hd] at hr
    simp only [readToolchain, Option.map_eq_some_iff] at hr
    obtain ⟨id, hid, e⟩ := hr
    rw [← e]
    refine ⟨?_, ?_, chosen_getD _ _, chosen_getD _ _, chosen_getD _ _, chosen_getD _ _,
      chosen_getD _ _, chosen_getD _ _, chosen_getD _ _, chosen_getD _ _⟩
    · intro text ht
      rw [ht] at hid
      exact names_of hid
    · intro hn
      rw [hn] at hid
      exact (Option.some.inj hid).symm
  · cases h

/-- C89: the commands of a target are what is given for it and else those of `initial`. -/
theorem C89_target {line : Line} {v w : Vars} {ds : List Decl}
    (h : args line v ds = some w) (ho : OwnVars ds) {n : Str} {out : Nat} {ini : ArgTarget}
    (hd : .target n out ini ∈ ds) :
    let c := targetConfig (w.targets out)
    Chosen ((line.target n).value b!"--compile_command") ini.compileCommand c.compileCommand ∧
    Chosen ((line.target n).value b!"--link_command") ini.linkCommand c.linkCommand ∧
    c.pchCommand = defaultConfig.pchCommand ∧ c.targetExt = [] := by
  rw [args] at h
  split at h
  · rw [read_target ds ho hd h, declared_target ds v ho hd]
    exact ⟨chosen_getD _ _, chosen_getD _ _, rfl, rfl⟩
  · cases h

/-- C89: the program ends exactly when a name is declared twice or when a text that names no kind
of toolchain is given for a declared toolchain. -/
theorem C89_fatal (line : Line) (v : Vars) (ds : List Decl) :
    args line v ds = none ↔ ¬ (toolchainNames ds).Nodup ∨ ¬ (targetNames ds).Nodup ∨
      ∃ n ∈ toolchainNames ds, ∃ text, (line.toolchain n).value b!"--id" = some text ∧
        ∀ id, ¬ Names id text := by
  have key : ∀ (ds : List Decl) (v : Vars), readAll line v ds = none ↔
      ∃ n ∈ toolchainNames ds, ∃ text, (line.toolchain n).value b!"--id" = some text ∧
        ∀ id, ¬ Names id text := by
    intro ds
    induction ds with
    | nil => intro v; simp [readAll, toolchainNames]
    | cons d l ih =>
      intro v
      rw [readAll]
      cases d with
      | target n o i =>
        simp only [read]
        rw [ih]
        simp [toolchainNames]
      | toolchain n o i =>
        have hn : toolchainNames (.toolchain n o i :: l) = n :: toolchainNames l := by
          simp [toolchainNames]
        rw [hn]
        have hbad : read line v (.toolchain n o i) = none ↔
            ∃ text, (line.toolchain n).value b!"--id" = some text ∧ ∀ id, ¬ Names id text := by
          simp only [read, Option.map_eq_none_iff, readToolchain]
          cases hv : (line.toolchain n).value b!"--id" with
          | none => simp
          | some text =>
            simp only [Option.some.injEq, exists_eq_left']
            constructor
            · intro h id hid
              rw [idOf_names hid] at h; cases h
            · intro h
              cases hi : idOf text with
              | none => rfl
              | some id => exact absurd (names_of hi) (h id)
        split
        · rename_i hr
          exact ⟨fun _ => ⟨n, by simp, hbad.1 hr⟩, fun _ => rfl⟩
        · rename_i u hu
          rw [ih]
          constructor
          · rintro ⟨m, hm, h⟩
            exact ⟨m, by simp [hm], h⟩
          · rintro ⟨m, hm, h⟩
            rcases List.mem_cons.1 hm with rfl | hm
            · rw [hbad.2 h] at hu; cases hu
            · exact ⟨m, hm, h⟩
  rw [args]
  split
  · rename_i hn
    rw [key]
    constructor
    · exact fun h => .inr (.inr h)
    · rintro (h | h | h)
      · exact absurd hn.1 h
      · exact absurd hn.2 h
      · exact h
  · rename_i hn
    refine ⟨fun _ => ?_, fun _ => rfl⟩
    by_cases h1 : (toolchainNames ds).Nodup
    · exact .inr (.inl fun h2 => hn ⟨h1, h2⟩)
    · exact .inl h1

/-- C89: the toolchain that `ConstructToolchain` makes has the id, the name and the executables of
the variable. -/
theorem C89_constructed {ops : List StorageOp} {a : ArgToolchain} {t : Toolchain} {obj : Nat}
    {s : Storage} (h : construct (storageAfter ops) a = some (t, obj, s)) :
    t.id = a.id ∧ t.name = a.name ∧ t.executables = a.executables := by
  obtain ⟨h1, h2, h3, -⟩ := C66_new h
  exact ⟨h1, h2, h3 _ rfl⟩

/-- C89, what fails: the configuration of `initial` is not used, the variable keeps its own. -/
theorem C89_config_false {line : Line} {v w : Vars} {ds : List Decl}
    (h : args line v ds = some w) (ho : OwnVars ds) {n : Str} {out : Nat} {ini : ArgToolchain}
    (hd : .toolchain n out ini ∈ ds) :
    (w.toolchains out).config = (v.toolchains out).config ∧
    (ini.config ≠ (v.toolchains out).config → (w.toolchains out).config ≠ ini.config) := by
  suffices hs : (w.toolchains out).config = (v.toolchains out).config from
    ⟨hs, fun hne e => hne (e.symm.trans hs)⟩
  rw [args] at h
  split at h
  · have hr := read_toolchain ds ho hd h
    rw [declared_toolchain ds v ho hd] at hr
    simp only [readToolchain, Option.map_eq_some_iff] at hr
    obtain ⟨id, -, e⟩ := hr
    rw [← e]
  · cases h

/-- C89, what fails: without executables on the command line and in `initial`, the toolchain does
not get the executables of its kind but none at all. -/
theorem C89_defaults_false {line : Line} {v w : Vars} {ds : List Decl}
    (h : args line v ds = some w) (ho : OwnVars ds) {n : Str} {out : Nat}
    (hd : .toolchain n out {} ∈ ds)
    (hno : ∀ o ∈ [b!"--asm_compiler", b!"--c_compiler", b!"--cpp_compiler", b!"--archiver",
      b!"--linker"], (line.toolchain n).value o = none)
    {ops : List StorageOp} {t : Toolchain} {obj : Nat} {s : Storage}
    (hc : construct (storageAfter ops) (w.toolchains out) = some (t, obj, s)) :
    t.executables = ⟨[], [], [], [], []⟩ := by
  obtain ⟨-, -, -, h1, h2, h3, h4, h5, -⟩ := C89_toolchain_partial h ho hd
  rw [(C89_constructed hc).2.2]
  simp only [List.mem_cons, List.not_mem_nil, or_false, forall_eq_or_imp, forall_eq] at hno
  obtain ⟨n1, n2, n3, n4, n5⟩ := hno
  have e1 := h1.2 n1
  have e2 := h2.2 n2
  have e3 := h3.2 n3
  have e4 := h4.2 n4
  have e5 := h5.2 n5
  generalize (w.toolchains out).executables = e at e1 e2 e3 e4 e5
  obtain ⟨_, _, _, _, _⟩ := e
  simp only at e1 e2 e3 e4 e5
  rw [e1, e2, e3, e4, e5]

end Verif.Cli
