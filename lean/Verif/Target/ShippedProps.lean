import Verif.Target.SpecialProps
import Verif.Toolchain.CreateProps

/-!
# C82: the commands of a target of a shipped class with a shipped toolchain

The theorems about commands (C27), target classes (C70), toolchains (C49) and calls (C67)
together: every text of the command line that does not come from the user is spelled out.
-/

namespace Verif.Target
open Verif Verif.Command Verif.Toolchain Verif.Schema

/-! ## Specification -/

/-- What precedes an include directory. -/
def includeOption (id : ToolchainId) : Str := if id = .msvc then b!"/I" else b!"-I"

/-- What precedes a library directory. -/
def libDirOption (id : ToolchainId) : Str := if id = .msvc then b!"/LIBPATH:" else b!"-L"

/-- The extension of object files. -/
def objectExt (id : ToolchainId) : Str := if id = .msvc then b!".obj" else b!".o"

/-- The extension of compiled headers. -/
def pchExt (id : ToolchainId) : Str := if id = .msvc then b!".pch" else b!".gch"

/-- The program and the flags for a source, by its extension. -/
inductive Tool (exe : Executables) (u : TargetSchema) (src : Str) : Str → List Str → Prop
  | c : Path.extension src = b!".c" → Tool exe u src exe.cCompiler u.cCompileFlags
  | cpp : Path.extension src ∈ [b!".cpp", b!".cxx", b!".cc"] →
      Tool exe u src exe.cppCompiler u.cppCompileFlags
  | asm : Path.extension src ∈ [b!".s", b!".S", b!".asm"] →
      Tool exe u src exe.assembler u.asmCompileFlags

/-- The object file of a source. -/
def objectOf (m : Made) (src : Str) : Str :=
  Path.displayString (Path.objectPath m.rootDir m.buildDir (objectExt m.toolchain.id) src)

/-- The output of the target. -/
def outputOf (m : Made) : Str :=
  Path.displayString (Path.append m.buildDir (m.name ++ outputExt m.toolchain.id m.type))

/-- The object of the precompiled header, for MSVC. -/
def pchObjectOf (m : Made) (u : TargetSchema) : Str :=
  if u.pchs = [] then []
  else Path.displayString (Path.pchObjectPath m.buildDir b!".h" (objectExt m.toolchain.id))

/-- The words of the command that links. -/
def linkWords (m : Made) (u : TargetSchema) (order : List Str) : List Str :=
  let exe := m.toolchain.executables
  let objs := spaced (order.map (objectOf m))
  let dirs := spaced (u.libDirs.map (libDirOption m.toolchain.id ++ ·))
  let libs := spaced (u.libs.map (·.path))
  let flags := spaced u.linkFlags
  match m.toolchain.id, m.type with
  | .msvc, .executable => [Path.displayString exe.linker, flags, dirs, b!"/OUT:" ++ outputOf m, libs,
      spaced u.externalLibs, objs, pchObjectOf m u]
  | .msvc, .staticLibrary => [Path.displayString exe.archiver, flags, b!"/OUT:" ++ outputOf m, objs,
      pchObjectOf m u]
  | .msvc, _ => [Path.displayString exe.linker, b!"/DLL", flags, b!"/OUT:" ++ outputOf m ++ b!".dll",
      b!"/IMPLIB:" ++ outputOf m, objs, pchObjectOf m u]
  | _, .executable => [Path.displayString exe.cppCompiler, flags, objs, b!"-o", outputOf m, dirs, libs,
      spaced u.externalLibs]
  | _, .staticLibrary => [Path.displayString exe.archiver, b!"rcs", outputOf m, objs]
  | .mingw, _ => [Path.displayString exe.cppCompiler, b!"-shared", flags, objs, b!"-o", outputOf m,
      b!"-Wl,--out-implib," ++ outputOf m ++ b!".a"]
  | _, _ => [Path.displayString exe.cppCompiler, b!"-shared", flags, objs, b!"-o", outputOf m]

/-- The target was created, without a configuration of its own, with a toolchain that was
created for `id`. -/
structure ShippedTarget (id : ToolchainId) (m : Made) : Prop where
  toolchain : ∃ n e c, Toolchain.Made id n e c m.toolchain
  made : ∃ junk p env, targetGeneric junk p m.name m.type m.toolchain env = some m

/-! ## Lemmas -/

theorem ShippedTarget.facts {id : ToolchainId} {m : Made} (h : ShippedTarget id m) :
    m.toolchain.id = id ∧ m.toolchain.config = globalConfig id ∧ m.config = shipped id m.type ∧
      Supported id ∧ m.type ≠ .undefined := by
  obtain ⟨n, e, c, ht⟩ := h.toolchain
  obtain ⟨junk, p, env, hm⟩ := h.made
  have h1 := (C49_made_partial ht).1
  have h2 := (C49_config_false ht).1
  have h3 := (C70_made hm).2.2.2.2.2.1
  have h4 : ¬ (p.init = false ∨ m.type = .undefined ∨ ¬ Supported m.toolchain.id) := by
    rw [← C70_fatal junk p m.name m.type m.toolchain env none, hm]
    simp
  rw [h1] at h3 h4
  refine ⟨h1, h2, h3, ?_, fun e => h4 (.inr (.inl e))⟩
  exact Classical.byContradiction fun e => h4 (.inr (.inr e))

theorem globalConfig_facts {id : ToolchainId} (h : Supported id) :
    (globalConfig id).objExt = objectExt id ∧ (globalConfig id).pchHeaderExt = b!".h" ∧
    (globalConfig id).pchCompileExt = pchExt id ∧
    (globalConfig id).prefixIncludeDir = includeOption id ∧
    (globalConfig id).prefixLibDir = libDirOption id ∧
    (globalConfig id).validC = [b!".c"] ∧ (globalConfig id).validCpp = [b!".cpp", b!".cxx", b!".cc"] ∧
    (globalConfig id).validAsm = [b!".s", b!".S", b!".asm"] := by
  rcases h with rfl | rfl | rfl <;> exact ⟨rfl, rfl, rfl, rfl, rfl, rfl, rfl, rfl⟩

theorem Tool.kind {fx : Fixed} {u : TargetSchema} {src tool : Str} {flags : List Str}
    (h : Tool fx.exe u src tool flags) (h1 : fx.cfg.validC = [b!".c"])
    (h2 : fx.cfg.validCpp = [b!".cpp", b!".cxx", b!".cc"])
    (h3 : fx.cfg.validAsm = [b!".s", b!".S", b!".asm"]) : SourceKind fx u src tool flags := by
  cases h with
  | c h =>
    refine .c ?_
    simp only [Config.fileExt, h, h1, h2, h3]
    simp
  | cpp h =>
    refine .cpp ?_
    simp only [Config.fileExt, h1, h2, h3]
    simp only [List.mem_cons, List.not_mem_nil, or_false] at h
    rcases h with h | h | h <;> rw [h] <;> simp
  | asm h =>
    refine .asm ?_
    simp only [Config.fileExt, h1, h2, h3]
    simp only [List.mem_cons, List.not_mem_nil, or_false] at h
    rcases h with h | h | h <;> rw [h] <;> simp

/-! ## The commands -/

/-- C82: the command that compiles a source. -/
theorem C82_compile {id : ToolchainId} {m : Made} {u : TargetSchema} {src tool : Str}
    {flags : List Str} (h : ShippedTarget id m) (ht : Tool m.toolchain.executables u src tool flags) :
    compileCommand m.fixed u src = .value (spaced
      ([Path.displayString tool, spaced u.preprocessorFlags,
        spaced (u.includeDirs.map (includeOption id ++ ·)), spaced u.commonCompileFlags,
        spaced (if u.pchs = [] then [] else u.pchObjectFlags), spaced flags] ++
       if id = .msvc then [b!"/Fo" ++ objectOf m src, b!"/c", src]
       else [b!"-o", objectOf m src, b!"-c", src])) := by
  obtain ⟨h1, h2, h3, h4, -⟩ := h.facts
  obtain ⟨g1, -, -, g4, -, g6, g7, g8⟩ := globalConfig_facts h4
  have hc : m.fixed.cfg = globalConfig id := h2
  have hk : SourceKind m.fixed u src tool flags :=
    ht.kind (by rw [hc]; exact g6) (by rw [hc]; exact g7) (by rw [hc]; exact g8)
  have ho : Path.displayString (objPath m.fixed src) = objectOf m src := by
    rw [objPath, hc, g1, objectOf, h1]; rfl
  have hp : ifPch u u.pchObjectFlags = if u.pchs = [] then [] else u.pchObjectFlags := by
    simp [ifPch]
  by_cases hid : id = .msvc
  · rw [msvc_compile_command m.fixed u src tool flags
      (by show m.config.compileCommand = _; rw [h3]; simp [shipped, hid]) hk, ho, hc, g4, hp,
      if_pos hid]
    rfl
  · rw [gcc_compile_command m.fixed u src tool flags
      (by show m.config.compileCommand = _; rw [h3]; simp [shipped, hid]) hk, ho, hc, g4, hp,
      if_neg hid]
    rfl

/-- C82: the command that links. -/
theorem C82_link {id : ToolchainId} {m : Made} (u : TargetSchema) (order : List Str)
    (h : ShippedTarget id m) :
    linkCommand m.fixed u order = .value (spaced (linkWords m u order)) := by
  obtain ⟨h1, h2, h3, h4, h5⟩ := h.facts
  obtain ⟨g1, g2, -, -, g5, -⟩ := globalConfig_facts h4
  have hc : m.fixed.cfg = globalConfig id := h2
  have ho : objects m.fixed order = order.map (objectOf m) := by
    simp only [objects]
    refine List.map_congr_left fun s _ => ?_
    rw [objPath, hc, g1, objectOf, h1]; rfl
  have hout : Path.displayString (outputPath m.fixed) = outputOf m := by
    rw [outputPath, outputOf, h1]
    show Path.displayString (Path.append m.buildDir (m.name ++ m.config.targetExt)) = _
    rw [h3]; rfl
  have hpch : pchObject m.fixed u = pchObjectOf m u := by
    simp only [pchObject, pchObjectOf, hc, g1, g2, h1]
    by_cases hu : u.pchs = [] <;> simp [hu] <;> rfl
  have hl : m.fixed.tcfg.linkCommand = linkTemplate id m.type := by
    show m.config.linkCommand = _
    rw [h3]; rfl
  rw [linkWords, h1]
  rcases h4 with rfl | rfl | rfl <;> cases hty : m.type <;> rw [hty] at hl h5
  · rw [gcc_executable_link_command m.fixed u order hl, ho, hout, hc, g5]; rfl
  · rw [gcc_static_link_command m.fixed u order hl, ho, hout]; rfl
  · rw [gcc_dynamic_link_command m.fixed u order hl, ho, hout]; rfl
  · exact absurd rfl h5
  · rw [gcc_executable_link_command m.fixed u order hl, ho, hout, hc, g5]; rfl
  · rw [gcc_static_link_command m.fixed u order hl, ho, hout]; rfl
  · rw [mingw_dynamic_link_command m.fixed u order hl, ho, hout]; rfl
  · exact absurd rfl h5
  · rw [msvc_executable_link_command m.fixed u order hl, ho, hout, hc, g5, hpch]; rfl
  · rw [msvc_static_link_command m.fixed u order hl, ho, hout, hpch]; rfl
  · rw [msvc_dynamic_link_command m.fixed u order hl, ho, hout, hpch]; rfl
  · exact absurd rfl h5

/-- C82: the command that compiles the precompiled header: with the C++ compiler as soon as
there is a C++ source. -/
theorem C82_pch {id : ToolchainId} {m : Made} {u : TargetSchema} (h : ShippedTarget id m)
    (hp : u.pchs ≠ []) {cpp : Bool}
    (hcpp : cpp = true ↔ ∃ s ∈ u.sources, Path.extension s.path ∈ [b!".cpp", b!".cxx", b!".cc"]) :
    pchCommand m.fixed u = .value (spaced
      ([Path.displayString
          (if cpp then m.toolchain.executables.cppCompiler else m.toolchain.executables.cCompiler),
        spaced u.preprocessorFlags, spaced (u.includeDirs.map (includeOption id ++ ·)),
        spaced u.commonCompileFlags] ++
       (let flags := spaced (if cpp then u.cppCompileFlags else u.cCompileFlags)
        let header := Path.displayString (Path.pchHeaderPath m.buildDir b!".h")
        let output := Path.displayString (Path.pchCompilePath m.buildDir b!".h" (pchExt id))
        if id = .msvc then
          [b!"/Yc" ++ header, b!"/FI" ++ header, b!"/Fp" ++ output, spaced u.pchCompileFlags, flags,
           b!"/Fo" ++ Path.displayString (Path.pchObjectPath m.buildDir b!".h" b!".obj"), b!"/c",
           Path.displayString (Path.pchSourcePath m.buildDir b!".h" cpp)]
        else [spaced u.pchCompileFlags, flags, b!"-o", output, b!"-c", header]))) := by
  obtain ⟨h1, h2, h3, h4, h5⟩ := h.facts
  obtain ⟨g1, g2, g3, g4, -, g6, g7, g8⟩ := globalConfig_facts h4
  have hc : m.fixed.cfg = globalConfig id := h2
  have hext : ∀ s : Str, m.fixed.cfg.fileExt s = .cpp ↔
      Path.extension s ∈ [b!".cpp", b!".cxx", b!".cc"] := by
    intro s
    simp only [Config.fileExt, hc, g6, g7, g8, List.mem_cons, List.not_mem_nil, or_false]
    constructor
    · intro h
      by_cases e1 : Path.extension s = []
      · simp [e1] at h
      · by_cases e2 : Path.extension s = b!".c"
        · simp [e2] at h
        · rw [if_neg e1, if_neg e2] at h
          apply Classical.byContradiction
          intro e3
          rw [if_neg e3] at h
          split at h
          · cases h
          · split at h <;> cases h
    · intro h
      rcases h with h | h | h <;> rw [h] <;> simp
  have hcc : containsCpp m.fixed u = cpp := by
    have := containsCpp_iff m.fixed u
    simp only [hext] at this
    rw [← hcpp] at this
    cases hx : containsCpp m.fixed u <;> cases cpp <;> simp_all
  have hk : PchKind m.fixed u
      (if cpp then m.toolchain.executables.cppCompiler else m.toolchain.executables.cCompiler)
      (if cpp then u.cppCompileFlags else u.cCompileFlags) := by
    cases cpp with
    | true => exact .cpp (by simp only [hext]; exact hcpp.1 rfl)
    | false =>
      exact .c (by simp only [hext]; intro h; exact Bool.noConfusion (hcpp.2 h))
  have hb : m.fixed.buildDir = m.buildDir := rfl
  by_cases hid : id = .msvc
  · rw [msvc_pch_command m.fixed u _ _
      (by show m.config.pchCommand = _; rw [h3]; simp [shipped, hid]) hp hk, hcc, hc, g1, g2, g3, g4]
    subst hid
    rfl
  · rw [gcc_pch_command m.fixed u _ _
      (by show m.config.pchCommand = _; rw [h3]; simp [shipped, hid]) hp hk, hc, g2, g3, g4]
    simp only [if_neg hid]
    rfl

/-! ## A concrete case -/

/-- An MSVC target with all kinds of inputs. -/
def exMsvcUser : TargetSchema :=
  { TargetSchema.empty with
    sources := [⟨b!"/p/src/main.cpp", []⟩], includeDirs := [b!"/p/inc"], libDirs := [b!"/p/lib"]
    libs := [⟨b!"/p/lib/z.lib", []⟩], cppCompileFlags := [b!"/nologo", b!"/EHsc"]
    linkFlags := [b!"/nologo"] }

def exMsvcMade : Option Made :=
  targetGeneric (fun _ => .empty) ⟨true, b!"/p", b!"/p/out"⟩ b!"app" .executable
    (toolchainMsvc b!"msvc" none none) (.relative ⟨true, b!"/p", b!"/p/out"⟩ [])

example : ∃ m, exMsvcMade = some m ∧ ShippedTarget .msvc m ∧
    compileCommand m.fixed exMsvcUser b!"/p/src/main.cpp" =
      .value b!"cl  /I/p/inc   /nologo /EHsc /Fo/p/out/msvc/app/src/main.cpp.obj /c /p/src/main.cpp" ∧
    linkCommand m.fixed exMsvcUser [b!"/p/src/main.cpp"] =
      .value b!"link /nologo /LIBPATH:/p/lib /OUT:/p/out/msvc/app/app.exe /p/lib/z.lib  /p/out/msvc/app/src/main.cpp.obj " := by
  refine ⟨exMsvcMade.get (by decide +kernel), by simp, ⟨⟨b!"msvc", none, none, ?_⟩,
    ⟨fun _ => .empty, ⟨true, b!"/p", b!"/p/out"⟩, .relative ⟨true, b!"/p", b!"/p/out"⟩ [], ?_⟩⟩, ?_, ?_⟩
  · have : (exMsvcMade.get (by decide +kernel)).toolchain = toolchainMsvc b!"msvc" none none := by
      decide +kernel
    rw [this]
    exact .msvc _ _ _
  · decide +kernel
  · decide +kernel
  · decide +kernel

end Verif.Target
