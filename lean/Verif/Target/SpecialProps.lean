import Verif.Target.Special
import Verif.Target.SyncProps
import Verif.Target.ApiProps
import Verif.Target.CommandProps
import Verif.Toolchain.FindProps

/-! # Constructors of targets (C70, C71) -/

namespace Verif.Target
open Verif Verif.Schema Verif.Toolchain

/-! ## Specification -/

/-- The toolchains that have specialised targets. -/
def Supported (id : ToolchainId) : Prop := id = .gcc ∨ id = .mingw ∨ id = .msvc

instance (id : ToolchainId) : Decidable (Supported id) := inferInstanceAs (Decidable (_ ∨ _))

/-- The name of the output of a target of this kind. -/
def outputExt : ToolchainId → TargetType → Str
  | .msvc, .executable => b!".exe"
  | .msvc, _ => b!".lib"
  | .mingw, .executable => b!".exe"
  | .mingw, .dynamicLibrary => b!".dll"
  | _, .executable => []
  | _, .dynamicLibrary => b!".so"
  | _, _ => b!".a"

/-- The command that links a target of this kind. -/
def linkTemplate : ToolchainId → TargetType → Str
  | .msvc, .executable => msvcExeTemplate
  | .msvc, .staticLibrary => msvcStaticTemplate
  | .msvc, _ => msvcDynamicTemplate
  | .mingw, .dynamicLibrary => mingwDynamicTemplate
  | _, .executable => gccExeTemplate
  | _, .staticLibrary => gccStaticTemplate
  | _, _ => gccDynamicTemplate

/-- The shipped configuration of a target of this kind. -/
def shipped (id : ToolchainId) (type : TargetType) : TargetConfig where
  targetExt := outputExt id type
  pchCommand := if id = .msvc then msvcPchTemplate else gccPchTemplate
  compileCommand := if id = .msvc then msvcCompileTemplate else gccCompileTemplate
  linkCommand := linkTemplate id type

/-- The flags that the specialised targets add to those of the toolchain; `header` and `pch`
are the generated header and its compiled form. -/
def extraFlags (id : ToolchainId) (type : TargetType) (header pch : Str) : FlagKind → List Str
  | .commonCompile => if id ≠ .msvc ∧ type = .dynamicLibrary then [b!"-fpic"] else []
  | .pchObject =>
    if id = .msvc then
      [b!"/Yu" ++ Path.displayString header, b!"/FI" ++ Path.displayString header,
       b!"/Fp" ++ Path.displayString pch]
    else [b!"-include " ++ Path.displayString (Path.replaceExtension pch []), b!"-H"]
  | .cCompile => if id = .msvc then [b!"/nologo"] else []
  | .cppCompile => if id = .msvc then [b!"/nologo", b!"/EHsc"] else []
  | .link => if id = .msvc then [b!"/nologo"] else []
  | _ => []

/-! ## Proofs -/

theorem addFlag_entries (t : TargetSchema) (x : Str) (k : FlagKind) (o : SyncOption) :
    entries o (addFlag t x k) = if o = k.option then entries o t ++ [.inr x] else entries o t := by
  cases k <;> cases o <;> simp [entries, addFlag, FlagKind.option]

theorem newTargetInfo_rest (f : Flags) : SameRest TargetSchema.empty (newTargetInfo f) := by
  have h : ∀ (k : FlagKind) (l : List Str) (t : TargetSchema),
      SameRest TargetSchema.empty t →
      SameRest TargetSchema.empty (l.foldl (fun t x => addFlag t x k) t) := by
    intro k l
    induction l with
    | nil => intro t h; exact h
    | cons x xs ih => intro t h; exact ih _ (by cases k <;> exact h)
  unfold newTargetInfo
  exact h _ _ _ (h _ _ _ (h _ _ _ (h _ _ _ (h _ _ _ (h _ _ _ (h _ _ _ (h _ _ _
    ⟨rfl, rfl, rfl, rfl⟩)))))))

/-- The specialised constructors, by kind. -/
def special (p : Project) (name : Str) (type : TargetType) (tc : Toolchain) (env : TargetEnv)
    (config : TargetConfig) : Option Made :=
  match type, tc.id with
  | .executable, .gcc => executableGcc p name tc env config
  | .executable, .mingw => executableMingw p name tc env config
  | .executable, .msvc => executableMsvc p name tc env config
  | .staticLibrary, .gcc => staticGcc p name tc env config
  | .staticLibrary, .mingw => staticMingw p name tc env config
  | .staticLibrary, .msvc => staticMsvc p name tc env config
  | .dynamicLibrary, .gcc => dynamicGcc p name tc env config
  | .dynamicLibrary, .mingw => dynamicMingw p name tc env config
  | .dynamicLibrary, .msvc => dynamicMsvc p name tc env config
  | _, _ => none

theorem copyFrom_eq (m : Made) (junk : Nat → TargetSchema) (o : Made) :
    m.copyFrom junk o = { m with info := copy m.info o.info genericCopyOptions } := by
  rw [Made.copyFrom, C45_copy_partial _ _ _ _ (by decide)]

/-- Copying the flags of a target with the same content except for flags other than
preprocessor flags gives that content. -/
theorem copy_generic {t o : TargetSchema} (h : ∀ x, x ∉ genericCopyOptions → entries x o = entries x t)
    (hr : SameRest t o) : copy t o genericCopyOptions = o := by
  have h0 := map_inr_inj (h .preprocessorFlags (by decide))
  have h8 := map_inl_inj (h .compileDeps (by decide))
  have h9 := map_inl_inj (h .linkDeps (by decide))
  have h10 := map_inl_inj (h .sources (by decide))
  have h11 := map_inl_inj (h .headers (by decide))
  have h12 := map_inl_inj (h .pchs (by decide))
  have h13 := map_inl_inj (h .libs (by decide))
  have h14 := map_inr_inj (h .includeDirs (by decide))
  have h15 := map_inr_inj (h .libDirs (by decide))
  have h16 := map_inr_inj (h .externalLibs (by decide))
  obtain ⟨r1, r2, r3, r4⟩ := hr
  cases t; cases o
  simp only at *
  simp [copy, genericCopyOptions, copyOne, *]

theorem makeTarget_some {p : Project} {name : Str} {type : TargetType} {tc : Toolchain}
    {env : TargetEnv} {config : TargetConfig} {m : Made}
    (h : makeTarget p name type tc env config = some m) :
    p.init = true ∧ validType type = true ∧ m =
      { name, type, toolchain := tc, rootDir := env.rootDir
        buildDir := Path.targetBuildDir env.buildDir tc.name name
        config, info := newTargetInfo tc.user } := by
  unfold makeTarget at h
  split at h
  · cases h
  · rename_i h1
    split at h
    · cases h
    · rename_i h2
      exact ⟨by simpa using h1, by simpa using h2, (Option.some.inj h).symm⟩

theorem addFlag_rest {t0 t : TargetSchema} (h : SameRest t0 t) (x : Str) (k : FlagKind) :
    SameRest t0 (addFlag t x k) := by cases k <;> exact h

/-- A list of flags added to a target. -/
def addFlags (t : TargetSchema) (l : List (FlagKind × Str)) : TargetSchema :=
  l.foldl (fun t x => addFlag t x.2 x.1) t

theorem addFlags_rest {t0 t : TargetSchema} (h : SameRest t0 t) (l : List (FlagKind × Str)) :
    SameRest t0 (addFlags t l) := by
  induction l generalizing t with
  | nil => exact h
  | cons x xs ih => exact ih (addFlag_rest h _ _)

theorem option_inj {k k' : FlagKind} (h : k.option = k'.option) : k = k' := by
  cases k <;> cases k' <;> first | rfl | cases h

theorem addFlags_kind (t : TargetSchema) (l : List (FlagKind × Str)) (k : FlagKind) :
    entries k.option (addFlags t l) = entries k.option t ++ (flagsAdded k l).map .inr := by
  induction l generalizing t with
  | nil => simp [addFlags, flagsAdded]
  | cons x xs ih =>
    obtain ⟨k', x⟩ := x
    rw [addFlags, List.foldl_cons, ← addFlags, ih, addFlag_entries]
    by_cases h : k' = k
    · subst h; simp [flagsAdded]
    · have : k.option ≠ k'.option := fun e => h (option_inj e).symm
      simp [flagsAdded, this, h]

theorem addFlags_other (t : TargetSchema) (l : List (FlagKind × Str)) (o : SyncOption)
    (ho : ∀ k : FlagKind, o ≠ k.option) : entries o (addFlags t l) = entries o t := by
  induction l generalizing t with
  | nil => rfl
  | cons x xs ih =>
    rw [addFlags, List.foldl_cons, ← addFlags, ih, addFlag_entries, if_neg (ho _)]

/-- The flags that a specialised target adds, in the order of the calls. -/
def kindFlags (msvc dynamic : Bool) (header pch : Str) : List (FlagKind × Str) :=
  if msvc then
    [(.cCompile, b!"/nologo"), (.cppCompile, b!"/nologo"), (.cppCompile, b!"/EHsc"),
     (.link, b!"/nologo"), (.pchObject, b!"/Yu" ++ Path.displayString header),
     (.pchObject, b!"/FI" ++ Path.displayString header),
     (.pchObject, b!"/Fp" ++ Path.displayString pch)]
  else
    (if dynamic then [(.commonCompile, b!"-fpic")] else []) ++
    [(.pchObject, b!"-include " ++ Path.displayString (Path.replaceExtension pch [])),
     (.pchObject, b!"-H")]

theorem kindFlags_added (id : ToolchainId) (type : TargetType) (header pch : Str) (k : FlagKind) :
    flagsAdded k (kindFlags (id = .msvc) (type = .dynamicLibrary) header pch) =
      extraFlags id type header pch k := by
  by_cases h1 : id = .msvc <;> by_cases h2 : type = .dynamicLibrary <;> cases k <;>
    simp [h1, h2, kindFlags, extraFlags, flagsAdded]

theorem gccOptions_eq (m : Made) : defaultGccOptions m =
    { m with info := (addFlags m.info (kindFlags false false m.pchHeaderPath m.pchCompilePath)) } := by
  simp [defaultGccOptions, Made.addFlag, addFlags, kindFlags]

theorem gccOptions_fpic_eq (m : Made) : defaultGccOptions (m.addFlag .commonCompile b!"-fpic") =
    { m with info := (addFlags m.info (kindFlags false true m.pchHeaderPath m.pchCompilePath)) } := by
  simp [defaultGccOptions, Made.addFlag, addFlags, kindFlags, Made.pchCompilePath]

theorem msvcOptions_eq (m : Made) : defaultMsvcOptions m =
    { m with info := (addFlags m.info (kindFlags true false m.pchHeaderPath m.pchCompilePath)) } := by
  simp [defaultMsvcOptions, Made.addFlag, addFlags, kindFlags, Made.pchHeaderPath,
    Made.pchCompilePath]

theorem kindFlags_msvc (header pch : Str) :
    kindFlags true true header pch = kindFlags true false header pch := rfl

theorem special_eq (p : Project) (name : Str) (type : TargetType) (tc : Toolchain)
    (env : TargetEnv) (config : TargetConfig) :
    special p name type tc env config =
      if type ≠ .undefined ∧ Supported tc.id then
        (makeTarget p name type tc env config).map fun m =>
          { m with info := (addFlags m.info
              (kindFlags (tc.id = .msvc) (type = .dynamicLibrary) m.pchHeaderPath
                m.pchCompilePath)) }
      else none := by
  cases type <;> cases hid : tc.id <;>
    simp only [special, hid, Supported, executableMingw, staticMingw, dynamicMingw, executableGcc,
      staticGcc, dynamicGcc, executableMsvc, staticMsvc, dynamicMsvc, reduceCtorEq, ne_eq,
      not_true_eq_false, not_false_eq_true, or_true, or_false, true_or, false_or, and_true,
      and_false, if_true, if_false, or_self, decide_true, decide_false, true_and, false_and,
      Bool.false_eq_true, gccOptions_fpic_eq] <;> try
    (generalize makeTarget p name _ tc env config = r
     cases r <;> simp only [Option.map_none, Option.map_some, gccOptions_eq, gccOptions_fpic_eq,
      msvcOptions_eq, kindFlags_msvc])

/-- A specialised target has the flags of its toolchain and the extra flags. -/
theorem special_some {p : Project} {name : Str} {type : TargetType} {tc : Toolchain}
    {env : TargetEnv} {config : TargetConfig} {m : Made}
    (h : special p name type tc env config = some m) :
    p.init = true ∧ Supported tc.id ∧ type ≠ .undefined ∧ m.name = name ∧ m.type = type ∧
      m.toolchain = tc ∧ m.rootDir = env.rootDir ∧
      m.buildDir = Path.targetBuildDir env.buildDir tc.name name ∧ m.config = config ∧
      SameRest TargetSchema.empty m.info ∧
      (∀ k : FlagKind, entries k.option m.info =
        (flagsOf tc.user k ++ extraFlags tc.id type m.pchHeaderPath m.pchCompilePath k).map .inr) ∧
      (∀ o : SyncOption, (∀ k : FlagKind, o ≠ k.option) → entries o m.info = []) := by
  have hn := newTargetInfo_rest tc.user
  have h50 := C50_new tc.user
  rw [special_eq] at h
  split at h
  · rename_i hs
    obtain ⟨m0, hm0, rfl⟩ := Option.map_eq_some_iff.1 h
    obtain ⟨hi, -, rfl⟩ := makeTarget_some hm0
    refine ⟨hi, hs.2, hs.1, rfl, rfl, rfl, rfl, rfl, rfl, addFlags_rest hn _, ?_, ?_⟩
    · intro k
      simp only [addFlags_kind, kindFlags_added, h50.1, List.map_append]
      rfl
    · intro o ho
      simp only [addFlags_other _ _ _ ho, h50.2 _ ho]
  · cases h

theorem special_none {p : Project} {name : Str} {type : TargetType} {tc : Toolchain}
    {env : TargetEnv} {config : TargetConfig} :
    special p name type tc env config = none ↔
      p.init = false ∨ type = .undefined ∨ ¬ Supported tc.id := by
  cases hi : p.init <;> cases type <;> cases hid : tc.id <;>
    simp [special, hid, hi, Supported, makeTarget, validType, executableMingw, staticMingw,
      dynamicMingw, executableGcc, staticGcc, dynamicGcc, executableMsvc, staticMsvc, dynamicMsvc]

/-- Copying the flags of the specialised target with another configuration to a new target
gives the specialised target. -/
theorem madeWith_special (junk : Nat → TargetSchema) (p : Project) (name : Str)
    (type : TargetType) (tc : Toolchain) (env : TargetEnv) (c c' : TargetConfig) :
    madeWith junk (makeTarget p name type tc env c) (special p name type tc env c') =
      special p name type tc env c := by
  cases hm : makeTarget p name type tc env c with
  | none =>
    simp only [madeWith]
    refine (special_none.2 ?_).symm
    unfold makeTarget at hm
    split at hm
    · exact .inl ‹_›
    · split at hm
      · rename_i h; revert h; cases type <;> simp [validType]
      · cases hm
  | some m =>
    obtain ⟨hi, hv, rfl⟩ := makeTarget_some hm
    cases ho : special p name type tc env c' with
    | none => exact (special_none.2 (special_none.1 ho)).symm
    | some o =>
      cases hs : special p name type tc env c with
      | none => rw [special_none.2 (special_none.1 hs)] at ho; cases ho
      | some s =>
        simp only [madeWith, Option.some.injEq]
        obtain ⟨-, -, -, o1, o2, o3, o4, o5, o6, o7, o8, o9⟩ := special_some ho
        obtain ⟨-, -, -, s1, s2, s3, s4, s5, s6, s7, s8, s9⟩ := special_some hs
        have hso : o.info = s.info := by
          apply entries_ext
          · intro x
            by_cases hx : ∃ k : FlagKind, x = k.option
            · obtain ⟨k, rfl⟩ := hx
              rw [o8, s8]
              simp only [Made.pchHeaderPath, Made.pchCompilePath, o3, o5, s3, s5]
            · have hx : ∀ k : FlagKind, x ≠ k.option := fun k h => hx ⟨k, h⟩
              rw [o9 _ hx, s9 _ hx]
          · obtain ⟨a1, a2, a3, a4⟩ := o7
            obtain ⟨b1, b2, b3, b4⟩ := s7
            exact ⟨a1.trans b1.symm, a2.trans b2.symm, a3.trans b3.symm, a4.trans b4.symm⟩
        rw [copyFrom_eq, copy_generic ?_ ?_]
        · cases s; simp only at *; simp [*]
        · intro x hx
          by_cases hxp : x = FlagKind.option .preprocessor
          · subst hxp
            rw [o8, (C50_new _).1]
            simp [extraFlags]
          · have hx' : ∀ k : FlagKind, x ≠ k.option := by
              intro k hk
              subst hk
              cases k <;> first | exact hxp rfl | exact hx (by decide)
            rw [o9 _ hx', (C50_new _).2 _ hx']
        · obtain ⟨a1, a2, a3, a4⟩ := o7
          obtain ⟨b1, b2, b3, b4⟩ := newTargetInfo_rest tc.user
          exact ⟨a1.trans b1.symm, a2.trans b2.symm, a3.trans b3.symm, a4.trans b4.symm⟩

theorem executableGeneric_eq (junk : Nat → TargetSchema) (p : Project) (name : Str)
    (tc : Toolchain) (env : TargetEnv) (config : Option TargetConfig) :
    executableGeneric junk p name tc env config =
      special p name .executable tc env (config.getD (shipped tc.id .executable)) := by
  unfold executableGeneric valueOr genericExecutableConfig
  cases hid : tc.id <;> simp only
  · rw [← madeWith_special junk (c' := gccExe)]; simp [special, hid, shipped, outputExt, linkTemplate, gccExe]
  · rw [← madeWith_special junk (c' := msvcExe)]; simp [special, hid, shipped, outputExt, linkTemplate, msvcExe]
  · exact (special_none.2 (.inr (.inr (by simp [Supported, hid])))).symm
  · rw [← madeWith_special junk (c' := mingwExe)]; simp [special, hid, shipped, outputExt, linkTemplate, mingwExe]
  · exact (special_none.2 (.inr (.inr (by simp [Supported, hid])))).symm
  · exact (special_none.2 (.inr (.inr (by simp [Supported, hid])))).symm

theorem staticGeneric_eq (junk : Nat → TargetSchema) (p : Project) (name : Str)
    (tc : Toolchain) (env : TargetEnv) (config : Option TargetConfig) :
    staticGeneric junk p name tc env config =
      special p name .staticLibrary tc env (config.getD (shipped tc.id .staticLibrary)) := by
  unfold staticGeneric valueOr genericStaticConfig
  cases hid : tc.id <;> simp only
  · rw [← madeWith_special junk (c' := gccStatic)]; simp [special, hid, shipped, outputExt, linkTemplate, gccStatic]
  · rw [← madeWith_special junk (c' := msvcStatic)]; simp [special, hid, shipped, outputExt, linkTemplate, msvcStatic]
  · exact (special_none.2 (.inr (.inr (by simp [Supported, hid])))).symm
  · rw [← madeWith_special junk (c' := gccStatic)]; simp [special, hid, shipped, outputExt, linkTemplate, mingwStatic, gccStatic]
  · exact (special_none.2 (.inr (.inr (by simp [Supported, hid])))).symm
  · exact (special_none.2 (.inr (.inr (by simp [Supported, hid])))).symm

theorem dynamicGeneric_eq (junk : Nat → TargetSchema) (p : Project) (name : Str)
    (tc : Toolchain) (env : TargetEnv) (config : Option TargetConfig) :
    dynamicGeneric junk p name tc env config =
      special p name .dynamicLibrary tc env (config.getD (shipped tc.id .dynamicLibrary)) := by
  unfold dynamicGeneric valueOr genericDynamicConfig
  cases hid : tc.id <;> simp only
  · rw [← madeWith_special junk (c' := gccDynamic)]; simp [special, hid, shipped, outputExt, linkTemplate, gccDynamic]
  · rw [← madeWith_special junk (c' := msvcDynamic)]; simp [special, hid, shipped, outputExt, linkTemplate, msvcDynamic]
  · exact (special_none.2 (.inr (.inr (by simp [Supported, hid])))).symm
  · rw [← madeWith_special junk (c' := mingwDynamic)]; simp [special, hid, shipped, outputExt, linkTemplate, mingwDynamic]
  · exact (special_none.2 (.inr (.inr (by simp [Supported, hid])))).symm
  · exact (special_none.2 (.inr (.inr (by simp [Supported, hid])))).symm

theorem targetGeneric_eq (junk : Nat → TargetSchema) (p : Project) (name : Str)
    (type : TargetType) (tc : Toolchain) (env : TargetEnv) (config : Option TargetConfig) :
    targetGeneric junk p name type tc env config =
      special p name type tc env (config.getD (shipped tc.id type)) := by
  by_cases hs : Supported tc.id ∧ type ≠ .undefined
  · have hc : genericConfig type tc.id = some (shipped tc.id type) := by
      obtain ⟨hs, ht⟩ := hs
      rcases hs with h | h | h <;> cases type <;>
        first
        | exact absurd rfl ht
        | (rw [h]; simp [genericConfig, genericExecutableConfig, genericStaticConfig,
            genericDynamicConfig, shipped, outputExt, linkTemplate, gccExe, gccStatic, gccDynamic,
            mingwExe, mingwStatic, mingwDynamic, msvcExe, msvcStatic, msvcDynamic])
    unfold targetGeneric
    rw [hc]
    simp only [valueOr]
    cases type
    · simp only [executableGeneric_eq, madeWith_special]
    · simp only [staticGeneric_eq, madeWith_special]
    · simp only [dynamicGeneric_eq, madeWith_special]
    · exact absurd rfl hs.2
  · have hn : genericConfig type tc.id = none := by
      cases type <;> cases hid : tc.id <;>
        first
        | rfl
        | exact absurd ⟨by simp [Supported, hid], by simp⟩ hs
    unfold targetGeneric
    rw [hn]
    refine (special_none.2 ?_).symm
    by_cases ht : type = .undefined
    · exact .inr (.inl ht)
    · exact .inr (.inr fun h => hs ⟨h, ht⟩)

/-! ## C70 -/

/-- C70: creating a target by the kind of its toolchain is fatal exactly when the project is
not initialised, the type is undefined or the toolchain is not GCC, MinGW or MSVC; a
configuration of one's own does not help. -/
theorem C70_fatal (junk : Nat → TargetSchema) (p : Project) (name : Str) (type : TargetType)
    (tc : Toolchain) (env : TargetEnv) (config : Option TargetConfig) :
    targetGeneric junk p name type tc env config = none ↔
      p.init = false ∨ type = .undefined ∨ ¬ Supported tc.id := by
  rw [targetGeneric_eq]; exact special_none

/-- C70: otherwise the target has the given configuration, or the shipped one of its kind, and
in each category the flags of its toolchain followed by the flags of its kind; it has no files
and no directories. -/
theorem C70_made {junk : Nat → TargetSchema} {p : Project} {name : Str} {type : TargetType}
    {tc : Toolchain} {env : TargetEnv} {config : Option TargetConfig} {m : Made}
    (h : targetGeneric junk p name type tc env config = some m) :
    m.name = name ∧ m.type = type ∧ m.toolchain = tc ∧ m.rootDir = env.rootDir ∧
      m.buildDir = Path.targetBuildDir env.buildDir tc.name name ∧
      m.config = config.getD (shipped tc.id type) ∧
      (∀ k : FlagKind, entries k.option m.info =
        (flagsOf tc.user k ++ extraFlags tc.id type m.pchHeaderPath m.pchCompilePath k).map .inr) ∧
      (∀ o : SyncOption, (∀ k : FlagKind, o ≠ k.option) → entries o m.info = []) := by
  rw [targetGeneric_eq] at h
  obtain ⟨-, -, -, h1, h2, h3, h4, h5, h6, -, h8, h9⟩ := special_some h
  exact ⟨h1, h2, h3, h4, h5, h6, h8, h9⟩

/-- C70: a target created directly, with a configuration of its own: fatal exactly when the project
is not initialised or the type is none of the three, and otherwise it has what it was given, the
flags of its toolchain in each category, no files and no directories. -/
theorem C70_custom (p : Project) (name : Str) (type : TargetType) (tc : Toolchain) (env : TargetEnv)
    (config : TargetConfig) :
    (makeTarget p name type tc env config = none ↔ p.init = false ∨ type = .undefined) ∧
    ∀ m, makeTarget p name type tc env config = some m →
      m.name = name ∧ m.type = type ∧ m.toolchain = tc ∧ m.rootDir = env.rootDir ∧
      m.buildDir = Path.targetBuildDir env.buildDir tc.name name ∧ m.config = config ∧
      (∀ k : FlagKind, entries k.option m.info = (flagsOf tc.user k).map .inr) ∧
      (∀ o : SyncOption, (∀ k : FlagKind, o ≠ k.option) → entries o m.info = []) := by
  constructor
  · unfold makeTarget
    cases hp : p.init <;> cases type <;> simp [validType]
  · intro m h
    obtain ⟨-, -, rfl⟩ := makeTarget_some h
    exact ⟨rfl, rfl, rfl, rfl, rfl, rfl, (C50_new _).1, (C50_new _).2⟩

/-- C70: the targets that are created by kind, by type and kind, and directly are the same. -/
theorem C70_same (junk : Nat → TargetSchema) (p : Project) (name : Str) (tc : Toolchain)
    (env : TargetEnv) (config : TargetConfig) :
    (∀ c, targetGeneric junk p name .executable tc env c = executableGeneric junk p name tc env c) ∧
    (∀ c, targetGeneric junk p name .staticLibrary tc env c = staticGeneric junk p name tc env c) ∧
    (∀ c, targetGeneric junk p name .dynamicLibrary tc env c = dynamicGeneric junk p name tc env c) ∧
    (tc.id = .gcc →
      executableGeneric junk p name tc env (some config) = executableGcc p name tc env config ∧
      staticGeneric junk p name tc env (some config) = staticGcc p name tc env config ∧
      dynamicGeneric junk p name tc env (some config) = dynamicGcc p name tc env config ∧
      executableGeneric junk p name tc env = executableGcc p name tc env ∧
      staticGeneric junk p name tc env = staticGcc p name tc env ∧
      dynamicGeneric junk p name tc env = dynamicGcc p name tc env) ∧
    (tc.id = .mingw →
      executableGeneric junk p name tc env (some config) = executableMingw p name tc env config ∧
      staticGeneric junk p name tc env (some config) = staticMingw p name tc env config ∧
      dynamicGeneric junk p name tc env (some config) = dynamicMingw p name tc env config ∧
      executableGeneric junk p name tc env = executableMingw p name tc env ∧
      staticGeneric junk p name tc env = staticMingw p name tc env ∧
      dynamicGeneric junk p name tc env = dynamicMingw p name tc env) ∧
    (tc.id = .msvc →
      executableGeneric junk p name tc env (some config) = executableMsvc p name tc env config ∧
      staticGeneric junk p name tc env (some config) = staticMsvc p name tc env config ∧
      dynamicGeneric junk p name tc env (some config) = dynamicMsvc p name tc env config ∧
      executableGeneric junk p name tc env = executableMsvc p name tc env ∧
      staticGeneric junk p name tc env = staticMsvc p name tc env ∧
      dynamicGeneric junk p name tc env = dynamicMsvc p name tc env) := by
  refine ⟨fun c => ?_, fun c => ?_, fun c => ?_, fun h => ?_, fun h => ?_, fun h => ?_⟩
  · rw [targetGeneric_eq, executableGeneric_eq]
  · rw [targetGeneric_eq, staticGeneric_eq]
  · rw [targetGeneric_eq, dynamicGeneric_eq]
  all_goals
    simp only [executableGeneric_eq, staticGeneric_eq, dynamicGeneric_eq, special, h,
      Option.getD_some, Option.getD_none]
    refine ⟨?_, ?_, ?_, ?_, ?_, ?_⟩ <;> first | trivial | rfl

/-- A C++ project with a GCC toolchain that has flags, and a user configuration. -/
def exProject : Project := ⟨true, b!"/r", b!"/b"⟩

def exGcc : Toolchain :=
  { toolchainGcc b!"gcc" none none with user := { linkFlags := [b!"-s"], pchObjectFlags := [b!"-Winvalid-pch"] } }

example : targetGeneric (fun _ => TargetSchema.empty) exProject b!"lib" .dynamicLibrary exGcc
      ⟨b!"/r/lib", b!"/b"⟩ = dynamicGcc exProject b!"lib" exGcc ⟨b!"/r/lib", b!"/b"⟩ ∧
    (dynamicGcc exProject b!"lib" exGcc ⟨b!"/r/lib", b!"/b"⟩).map
      (fun m => (m.info.commonCompileFlags, m.info.linkFlags, m.info.pchObjectFlags, m.config.targetExt)) =
    some ([b!"-fpic"], [b!"-s"],
      [b!"-Winvalid-pch", b!"-include /b/gcc/lib/buildcc_pch.h", b!"-H"], b!".so") :=
  ⟨((C70_same _ _ _ _ _ gccDynamic).2.2.1 _).trans
    (((C70_same _ _ _ _ _ gccDynamic).2.2.2.1 rfl).2.2.2.2.2), by decide +kernel⟩

example : targetGeneric (fun _ => TargetSchema.empty) exProject b!"x" .executable
    (toolchainCustom .clang b!"clang" ⟨[], [], [], [], []⟩ none) ⟨b!"/r", b!"/b"⟩ (some gccExe) = none :=
  (C70_fatal _ _ _ _ _ _ _).2 (.inr (.inr (by decide)))

/-! ## C71 -/

/-- An extension: a dot and a name. -/
def PlainExt (e : Str) : Prop := ∃ n, e = c!"." :: n ∧ n ≠ [] ∧ c!"." ∉ n ∧ Path.slash ∉ n

theorem append_file (d f : Str) (hf : Path.slash ∉ f) : Path.append d f = d ++ f ∧
    (d = [] ∨ ∃ d', d = d' ++ [Path.slash]) ∨ Path.append d f = (d ++ [Path.slash]) ++ f := by
  have ha : Path.isAbs f = false := by
    cases f with
    | nil => rfl
    | cons b r =>
      simp only [List.mem_cons, not_or] at hf
      simp [Path.isAbs, Ne.symm hf.1]
  unfold Path.append
  rw [ha]
  by_cases h : Path.filename d = []
  · left
    exact ⟨by simp [h], Path.dirPart_empty_filename d h⟩
  · right; simp [h]

/-- The file name and the directory of the generated header. -/
theorem pch_split (build e : Str) (he : PlainExt e) : ∃ d,
    Path.pchHeaderPath build e = d ++ (b!"buildcc_pch" ++ e) ∧
      (d = [] ∨ ∃ d', d = d' ++ [Path.slash]) := by
  obtain ⟨n, rfl, -, -, hs⟩ := he
  have hf : Path.slash ∉ b!"buildcc_pch" ++ c!"." :: n := by
    simp only [List.mem_append, List.mem_cons, not_or]
    exact ⟨by decide, by decide, hs⟩
  rcases append_file build _ hf with ⟨h, hd⟩ | h
  · exact ⟨build, h, hd⟩
  · exact ⟨build ++ [Path.slash], h, .inr ⟨build, rfl⟩⟩

theorem stem_file (d f e : Str) (hf : Path.slash ∉ f) (he : PlainExt e)
    (hd : d = [] ∨ ∃ d', d = d' ++ [Path.slash]) (h0 : f ≠ []) :
    Path.dirPart (d ++ (f ++ e)) ++ Path.stem (d ++ (f ++ e)) = d ++ f := by
  obtain ⟨n, rfl, hn, hdot, hs⟩ := he
  have hfe : Path.slash ∉ f ++ c!"." :: n := by
    simp only [List.mem_append, List.mem_cons, not_or]
    exact ⟨hf, by decide, hs⟩
  rw [Path.dirPart_unique _ _ hfe hd, Path.stem, Path.filename_unique _ _ hfe hd]
  congr 1
  have hl : Path.lastDot (f ++ c!"." :: n) = some (f, c!"." :: n) :=
    Toolchain.lastDot_some.2 (by simp [hdot])
  unfold Path.stemExt
  rw [hl]
  have h1 : f ++ c!"." :: n ≠ Path.dot := by
    intro h
    cases f with
    | nil => exact h0 rfl
    | cons b r => simp [Path.dot] at h
  have h2 : f ++ c!"." :: n ≠ Path.dotdot := by
    intro h
    match f, h0 with
    | [b], _ =>
      have := congrArg List.length h
      simp [Path.dotdot] at this
      exact hn this
    | b :: b' :: r, _ => simp [Path.dotdot] at h
  simp only [h1, h2, or_self, if_false]

/-- The compiled header is next to the header and has its name with the extension added;
without the extension it is the header. -/
theorem pch_paths (build eh ec : Str) (hh : PlainExt eh) (hc : PlainExt ec) :
    Path.pchCompilePath build eh ec = Path.pchHeaderPath build eh ++ ec ∧
    Path.replaceExtension (Path.pchCompilePath build eh ec) [] = Path.pchHeaderPath build eh := by
  obtain ⟨d, hd, hdd⟩ := pch_split build eh hh
  have hs : Path.slash ∉ b!"buildcc_pch" ++ eh := by
    obtain ⟨n, rfl, -, -, hs⟩ := hh
    simp only [List.mem_append, List.mem_cons, not_or]
    exact ⟨by decide, by decide, hs⟩
  have h1 : Path.pchCompilePath build eh ec = Path.pchHeaderPath build eh ++ ec := by
    have h := stem_file d b!"buildcc_pch" eh (by decide) hh hdd (by decide)
    rw [Path.pchCompilePath, hd]
    unfold Path.replaceExtension
    rw [h]
    obtain ⟨n, rfl, -⟩ := hh
    simp
  refine ⟨h1, ?_⟩
  have h := stem_file d (b!"buildcc_pch" ++ eh) ec hs hc hdd (by simp)
  rw [h1, hd]
  unfold Path.replaceExtension
  rw [List.append_assoc d, h]
  simp

theorem spaced_append : ∀ (A B : List Str), A ≠ [] → B ≠ [] →
    spaced (A ++ B) = spaced A ++ b!" " ++ spaced B
  | [], _, h, _ => absurd rfl h
  | [a], [], _, h => absurd rfl h
  | [a], b :: B, _, _ => by simp [spaced, List.intercalate_cons_cons]
  | a :: a' :: A, B, _, hB => by
    have := spaced_append (a' :: A) B (by simp) hB
    simp only [List.cons_append, spaced, List.intercalate_cons_cons] at this ⊢
    rw [this]
    simp [List.append_assoc]

/-- A list of words inside a list of words that is one of the words of a command. -/
theorem spaced_inside (A : List Str) (F G L B : List Str) (hA : A ≠ []) (hG : G ≠ []) (hB : B ≠ []) :
    ∃ pre post, spaced (A ++ spaced (F ++ G ++ L) :: B) = pre ++ b!" " ++ spaced G ++ post := by
  have hL : ∃ post, spaced (G ++ L) = spaced G ++ post := by
    by_cases hL : L = []
    · exact ⟨[], by simp [hL]⟩
    · exact ⟨b!" " ++ spaced L, by rw [spaced_append _ _ hG hL, List.append_assoc]⟩
  obtain ⟨post, hpost⟩ := hL
  have hx : ∀ x : Str, x :: B = [x] ++ B := fun _ => rfl
  rw [spaced_append _ _ hA (by simp), hx, spaced_append [_] B (by simp) hB]
  by_cases hF : F = []
  · refine ⟨spaced A, post ++ b!" " ++ spaced B, ?_⟩
    rw [hF, List.nil_append, hpost]
    simp [spaced, List.append_assoc]
  · refine ⟨spaced A ++ b!" " ++ spaced F, post ++ b!" " ++ spaced B, ?_⟩
    rw [List.append_assoc F, spaced_append _ _ hF (by simp [hG]), hpost]
    simp [spaced, List.append_assoc]

theorem pchKind_exists (fx : Fixed) (u : TargetSchema) : ∃ comp flags, PchKind fx u comp flags := by
  by_cases h : ∃ s ∈ u.sources, fx.cfg.fileExt s.path = .cpp
  · exact ⟨_, _, .cpp h⟩
  · exact ⟨_, _, .c h⟩

/-- The list of flags for objects of a target after any calls that do not replace it. -/
theorem pchObjectFlags_after {m : Made} {e : ApiEnv} {ops : List ApiOp} {u : TargetSchema}
    {l : List Str} (hm : entries .pchObjectFlags m.info = l.map .inr)
    (hu : applyAll e m.info ops = some u) (hc : ∀ op ∈ ops, ¬ Copies .pchObjectFlags op) :
    ∃ later, u.pchObjectFlags = l ++ later := by
  have h := (C67_inputs hu).2 _ hc
  rw [hm] at h
  change u.pchObjectFlags.map Sum.inr = _ at h
  obtain ⟨l1, l2, h1, h2, -⟩ := List.map_eq_append_iff.1 h
  exact ⟨l2, by rw [h1, map_inr_inj h2]⟩

/-- C71: with the shipped GCC and MinGW configurations every object of a target with
precompiled headers is compiled with `-include` of the generated header, and the command for
the precompiled header compiles this header to the file next to it with the extension added,
which is where the compiler looks for it. -/
theorem C71_gcc {junk : Nat → TargetSchema} {p : Project} {name : Str} {type : TargetType}
    {tc : Toolchain} {env : TargetEnv} {m : Made}
    (h : targetGeneric junk p name type tc env = some m) (hid : tc.id ≠ .msvc)
    (hh : PlainExt tc.config.pchHeaderExt) (hc : PlainExt tc.config.pchCompileExt)
    {e : ApiEnv} {ops : List ApiOp} {u : TargetSchema} (hu : applyAll e m.info ops = some u)
    (hcopy : ∀ op ∈ ops, ¬ Copies .pchObjectFlags op) (hp : u.pchs ≠ []) :
    ∃ header : Str,
      (∀ src comp flags, SourceKind m.fixed u src comp flags → ∃ pre post,
        compileCommand m.fixed u src =
          .value (pre ++ b!" -include " ++ Path.displayString header ++ b!" -H" ++ post)) ∧
      (∃ pre, pchCommand m.fixed u =
        .value (pre ++ b!" -o " ++ Path.displayString (header ++ tc.config.pchCompileExt) ++
          b!" -c " ++ Path.displayString header)) := by
  obtain ⟨h1, h2, h3, h4, h5, h6, h7, -⟩ := C70_made h
  have hpaths := pch_paths m.buildDir _ _ hh hc
  have hflags := h7 .pchObject
  simp only [extraFlags, hid, if_false, Made.pchCompilePath, h3, hpaths.2] at hflags
  obtain ⟨later, hlater⟩ := pchObjectFlags_after hflags hu hcopy
  refine ⟨Path.pchHeaderPath m.buildDir tc.config.pchHeaderExt, fun src comp flags hk => ?_, ?_⟩
  · have ht : m.fixed.tcfg.compileCommand = gccCompileTemplate := by
      simp [Made.fixed, h6, shipped, hid]
    rw [gcc_compile_command _ _ _ _ _ ht hk]
    simp only [ifPch, hp, ne_eq, not_false_eq_true, if_true, hlater]
    obtain ⟨pre, post, hs⟩ := spaced_inside
      [Path.displayString comp, spaced u.preprocessorFlags,
        spaced (u.includeDirs.map (m.fixed.cfg.prefixIncludeDir ++ ·)), spaced u.commonCompileFlags]
      (flagsOf tc.user .pchObject)
      [b!"-include " ++ Path.displayString (Path.pchHeaderPath m.buildDir tc.config.pchHeaderExt),
        b!"-H"] later
      [spaced flags, b!"-o", Path.displayString (objPath m.fixed src), b!"-c", src]
      (by simp) (by simp) (by simp)
    refine ⟨pre, post, ?_⟩
    simp only [List.cons_append, List.nil_append] at hs ⊢
    rw [hs]
    simp [spaced, List.intercalate_cons_cons, List.append_assoc]
  · have ht : m.fixed.tcfg.pchCommand = gccPchTemplate := by
      simp [Made.fixed, h6, shipped, hid]
    obtain ⟨comp, flags, hk⟩ := pchKind_exists m.fixed u
    rw [gcc_pch_command _ _ _ _ ht hp hk]
    have hb : m.fixed.buildDir = m.buildDir := rfl
    have hcf : m.fixed.cfg = tc.config := by rw [← h3]; rfl
    rw [hb, hcf, hpaths.1]
    refine ⟨spaced [Path.displayString comp, spaced u.preprocessorFlags,
        spaced (u.includeDirs.map (tc.config.prefixIncludeDir ++ ·)), spaced u.commonCompileFlags,
        spaced u.pchCompileFlags, spaced flags], ?_⟩
    simp [spaced, List.intercalate_cons_cons, List.append_assoc]

/-- C71 for MSVC: the objects of a target with precompiled headers are compiled with the same
header and the same precompiled file as the command that creates this file. -/
theorem C71_msvc {junk : Nat → TargetSchema} {p : Project} {name : Str} {type : TargetType}
    {tc : Toolchain} {env : TargetEnv} {m : Made}
    (h : targetGeneric junk p name type tc env = some m) (hid : tc.id = .msvc)
    {e : ApiEnv} {ops : List ApiOp} {u : TargetSchema} (hu : applyAll e m.info ops = some u)
    (hcopy : ∀ op ∈ ops, ¬ Copies .pchObjectFlags op) (hp : u.pchs ≠ []) :
    ∃ header pch : Str,
      (∀ src comp flags, SourceKind m.fixed u src comp flags → ∃ pre post,
        compileCommand m.fixed u src =
          .value (pre ++ b!" /Yu" ++ Path.displayString header ++ b!" /FI" ++
            Path.displayString header ++ b!" /Fp" ++ Path.displayString pch ++ post)) ∧
      (∃ pre post, pchCommand m.fixed u =
        .value (pre ++ b!" /Yc" ++ Path.displayString header ++ b!" /FI" ++
            Path.displayString header ++ b!" /Fp" ++ Path.displayString pch ++ post)) := by
  obtain ⟨h1, h2, h3, h4, h5, h6, h7, -⟩ := C70_made h
  have hflags := h7 .pchObject
  simp only [extraFlags, hid, if_true] at hflags
  obtain ⟨later, hlater⟩ := pchObjectFlags_after hflags hu hcopy
  refine ⟨m.pchHeaderPath, m.pchCompilePath, fun src comp flags hk => ?_, ?_⟩
  · have ht : m.fixed.tcfg.compileCommand = msvcCompileTemplate := by
      simp [Made.fixed, h6, shipped, hid]
    rw [msvc_compile_command _ _ _ _ _ ht hk]
    simp only [ifPch, hp, ne_eq, not_false_eq_true, if_true, hlater]
    obtain ⟨pre, post, hs⟩ := spaced_inside
      [Path.displayString comp, spaced u.preprocessorFlags,
        spaced (u.includeDirs.map (m.fixed.cfg.prefixIncludeDir ++ ·)), spaced u.commonCompileFlags]
      (flagsOf tc.user .pchObject)
      [b!"/Yu" ++ Path.displayString m.pchHeaderPath, b!"/FI" ++ Path.displayString m.pchHeaderPath,
        b!"/Fp" ++ Path.displayString m.pchCompilePath] later
      [spaced flags, b!"/Fo" ++ Path.displayString (objPath m.fixed src), b!"/c", src]
      (by simp) (by simp) (by simp)
    refine ⟨pre, post, ?_⟩
    simp only [List.cons_append, List.nil_append] at hs ⊢
    rw [hs]
    simp [spaced, List.intercalate_cons_cons, List.append_assoc]
  · have ht : m.fixed.tcfg.pchCommand = msvcPchTemplate := by
      simp [Made.fixed, h6, shipped, hid]
    obtain ⟨comp, flags, hk⟩ := pchKind_exists m.fixed u
    rw [msvc_pch_command _ _ _ _ ht hp hk]
    refine ⟨spaced [Path.displayString comp, spaced u.preprocessorFlags,
        spaced (u.includeDirs.map (m.fixed.cfg.prefixIncludeDir ++ ·)),
        spaced u.commonCompileFlags], b!" " ++ spaced [spaced u.pchCompileFlags, spaced flags,
        b!"/Fo" ++ Path.displayString
          (Path.pchObjectPath m.buildDir m.toolchain.config.pchHeaderExt m.toolchain.config.objExt),
        b!"/c", Path.displayString (Path.pchSourcePath m.buildDir
          m.toolchain.config.pchHeaderExt (containsCpp m.fixed u))], ?_⟩
    simp [spaced, List.intercalate_cons_cons, List.append_assoc, Made.fixed, Made.pchHeaderPath,
      Made.pchCompilePath]

/-- A C++ library with a precompiled header, and both of its commands. -/
example : ∃ m u, targetGeneric (fun _ => TargetSchema.empty) exProject b!"lib" .dynamicLibrary exGcc
      ⟨b!"/r/lib", b!"/b"⟩ = some m ∧ PlainExt exGcc.config.pchHeaderExt ∧
    PlainExt exGcc.config.pchCompileExt ∧
    applyAll exEnv m.info [.addPch b!"p.hpp" b!"", .addSource b!"a.cpp" b!""] = some u ∧ u.pchs ≠ [] ∧
    compileCommand m.fixed u b!"/r/a.cpp" =
      .value b!"g++   -fpic -Winvalid-pch -include /b/gcc/lib/buildcc_pch.h -H  -o /b/gcc/lib/__/a.cpp.o -c /r/a.cpp" ∧
    pchCommand m.fixed u =
      .value b!"g++   -fpic   -o /b/gcc/lib/buildcc_pch.h.gch -c /b/gcc/lib/buildcc_pch.h" := by
  refine ⟨_, _, (((C70_same _ _ _ _ _ gccDynamic).2.2.1 _).trans
    (((C70_same _ _ _ _ _ gccDynamic).2.2.2.1 rfl).2.2.2.2.2)), ⟨b!"h", rfl, by decide, by decide, by decide⟩,
    ⟨b!"gch", rfl, by decide, by decide, by decide⟩, rfl, ?_, ?_, ?_⟩ <;> decide +kernel

/-- C71 is false for a GCC toolchain whose configuration has no extension for compiled headers:
the objects include a header with another name than the one that is compiled, and the compiler
is told to write the result over its input. -/
theorem C71_extension_false :
    ∃ (tc : Toolchain) (m : Made) (u : TargetSchema) (ops : List ApiOp), tc.id = .gcc ∧
      PlainExt tc.config.pchHeaderExt ∧
      targetGeneric (fun _ => TargetSchema.empty) exProject b!"app" .executable tc ⟨b!"/r", b!"/b"⟩ =
        some m ∧
      applyAll exEnv m.info ops = some u ∧ (∀ op ∈ ops, ¬ Copies .pchObjectFlags op) ∧
      compileCommand m.fixed u b!"/r/a.cpp" =
        .value b!"g++    -include /b/gcc/app/buildcc_pch -H  -o /b/gcc/app/a.cpp.o -c /r/a.cpp" ∧
      pchCommand m.fixed u =
        .value b!"g++      -o /b/gcc/app/buildcc_pch.h -c /b/gcc/app/buildcc_pch.h" := by
  refine ⟨{ toolchainGcc b!"gcc" none none with config := { pchCompileExt := [] } }, _, _,
    [.addPch b!"p.hpp" b!"", .addSource b!"a.cpp" b!""], rfl,
    ⟨b!"h", rfl, by decide, by decide, by decide⟩,
    (((C70_same _ _ _ _ _ gccExe).1 _).trans
    (((C70_same _ _ _ _ _ gccExe).2.2.2.1 rfl).2.2.2.1)), rfl, ?_, ?_, ?_⟩
  · intro op h
    simp only [List.mem_cons, List.not_mem_nil, or_false] at h
    rcases h with rfl | rfl <;> simp [Copies]
  · decide +kernel
  · decide +kernel

end Verif.Target
