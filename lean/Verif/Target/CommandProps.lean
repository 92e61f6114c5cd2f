import Verif.Target.CommandLemmas

/-! # Properties of the commands of a target (C27, C55) -/

namespace Verif.Target
open Verif Verif.Command Verif.Toolchain Verif.Schema

/-- Join texts with single spaces. -/
abbrev spaced (l : List Str) : Str := b!" ".intercalate l

/-- Compiler and flags that belong to a source, by its kind. -/
inductive SourceKind (fx : Fixed) (u : TargetSchema) (src : Str) : Str → List Str → Prop
  | asm : fx.cfg.fileExt src = .asm → SourceKind fx u src fx.exe.assembler u.asmCompileFlags
  | c : fx.cfg.fileExt src = .c → SourceKind fx u src fx.exe.cCompiler u.cCompileFlags
  | cpp : fx.cfg.fileExt src = .cpp → SourceKind fx u src fx.exe.cppCompiler u.cppCompileFlags

/-- PCH flags are used only when the target has PCH headers. -/
abbrev ifPch (u : TargetSchema) (l : List Str) : List Str := if u.pchs ≠ [] then l else []

/-- Compiler and flags used for the PCH: C++ as soon as one source is C++. -/
inductive PchKind (fx : Fixed) (u : TargetSchema) : Str → List Str → Prop
  | cpp : (∃ s ∈ u.sources, fx.cfg.fileExt s.path = .cpp) →
      PchKind fx u fx.exe.cppCompiler u.cppCompileFlags
  | c : (¬ ∃ s ∈ u.sources, fx.cfg.fileExt s.path = .cpp) →
      PchKind fx u fx.exe.cCompiler u.cCompileFlags

/-- Objects of the target as they appear in a link command. -/
abbrev objects (fx : Fixed) (order : List Str) : List Str :=
  order.map fun s => Path.displayString (objPath fx s)

/-- PCH object in the link command, only when the target has PCH headers. -/
abbrev pchObject (fx : Fixed) (u : TargetSchema) : Str :=
  if u.pchs ≠ [] then
    Path.displayString (Path.pchObjectPath fx.buildDir fx.cfg.pchHeaderExt fx.cfg.objExt) else []

/-! ## C27: compile -/

/-- The compile command of the GCC and MinGW targets and of the default
configuration, for every configuration and source. -/
theorem gcc_compile_command (fx : Fixed) (u : TargetSchema) (src comp : Str) (flags : List Str)
    (ht : fx.tcfg.compileCommand = gccCompileTemplate) (hk : SourceKind fx u src comp flags) :
    compileCommand fx u src = .value (spaced
      [ Path.displayString comp, spaced u.preprocessorFlags,
        spaced (u.includeDirs.map (fx.cfg.prefixIncludeDir ++ ·)), spaced u.commonCompileFlags,
        spaced (ifPch u u.pchObjectFlags), spaced flags, b!"-o",
        Path.displayString (objPath fx src), b!"-c", src ]) := by
  rw [compileCommand, ht]
  apply construct_segs _ _ _ [.field b!"compiler", .text b!" ", .field b!"preprocessor_flags", .text b!" ", .field b!"include_dirs", .text b!" ", .field b!"common_compile_flags", .text b!" ", .field b!"pch_object_flags", .text b!" ", .field b!"compile_flags", .text b!" -o ", .field b!"output", .text b!" -c ", .field b!"input"]
  · decide +kernel
  · decide +kernel
  · have hk' : comp = selectCompiler fx (fx.cfg.fileExt src) ∧
        aggregate flags = selectCompileFlags u (fx.cfg.fileExt src) := by
      cases hk <;> rename_i h <;> rw [h] <;> exact ⟨rfl, rfl⟩
    simp [vals, Seg.val, bound, defaults_get, pchDefaults_get, baseDefaults, lookupArg,
      compileArgs, ← hk'.1, ← hk'.2, aggregateWithPrefix, aggregate_eq]
    split <;> simp [spaced]

/-- The compile command of the MSVC targets. -/
theorem msvc_compile_command (fx : Fixed) (u : TargetSchema) (src comp : Str) (flags : List Str)
    (ht : fx.tcfg.compileCommand = msvcCompileTemplate) (hk : SourceKind fx u src comp flags) :
    compileCommand fx u src = .value (spaced
      [ Path.displayString comp, spaced u.preprocessorFlags,
        spaced (u.includeDirs.map (fx.cfg.prefixIncludeDir ++ ·)), spaced u.commonCompileFlags,
        spaced (ifPch u u.pchObjectFlags), spaced flags,
        b!"/Fo" ++ Path.displayString (objPath fx src), b!"/c", src ]) := by
  rw [compileCommand, ht]
  apply construct_segs _ _ _ [.field b!"compiler", .text b!" ", .field b!"preprocessor_flags", .text b!" ", .field b!"include_dirs", .text b!" ", .field b!"common_compile_flags", .text b!" ", .field b!"pch_object_flags", .text b!" ", .field b!"compile_flags", .text b!" /Fo", .field b!"output", .text b!" /c ", .field b!"input"]
  · decide +kernel
  · decide +kernel
  · have hk' : comp = selectCompiler fx (fx.cfg.fileExt src) ∧
        aggregate flags = selectCompileFlags u (fx.cfg.fileExt src) := by
      cases hk <;> rename_i h <;> rw [h] <;> exact ⟨rfl, rfl⟩
    simp [vals, Seg.val, bound, defaults_get, pchDefaults_get, baseDefaults, lookupArg,
      compileArgs, ← hk'.1, ← hk'.2, aggregateWithPrefix, aggregate_eq]
    split <;> simp [spaced]

/-! ## C27: PCH -/

/-- The PCH command of the GCC and MinGW targets and of the default configuration. -/
theorem gcc_pch_command (fx : Fixed) (u : TargetSchema) (comp : Str) (flags : List Str)
    (ht : fx.tcfg.pchCommand = gccPchTemplate) (hp : u.pchs ≠ []) (hk : PchKind fx u comp flags) :
    pchCommand fx u = .value (spaced
      [ Path.displayString comp, spaced u.preprocessorFlags,
        spaced (u.includeDirs.map (fx.cfg.prefixIncludeDir ++ ·)), spaced u.commonCompileFlags,
        spaced u.pchCompileFlags, spaced flags, b!"-o",
        Path.displayString (Path.pchCompilePath fx.buildDir fx.cfg.pchHeaderExt fx.cfg.pchCompileExt), b!"-c",
        Path.displayString (Path.pchHeaderPath fx.buildDir fx.cfg.pchHeaderExt) ]) := by
  rw [pchCommand, ht]
  apply construct_segs _ _ _ [.field b!"compiler", .text b!" ", .field b!"preprocessor_flags", .text b!" ", .field b!"include_dirs", .text b!" ", .field b!"common_compile_flags", .text b!" ", .field b!"pch_compile_flags", .text b!" ", .field b!"compile_flags", .text b!" -o ", .field b!"output", .text b!" -c ", .field b!"input"]
  · decide +kernel
  · decide +kernel
  · have hk' : comp = (if containsCpp fx u then fx.exe.cppCompiler else fx.exe.cCompiler) ∧
        aggregate flags = selectCompileFlags u (if containsCpp fx u then .cpp else .c) := by
      cases hk with
      | cpp h => rw [(containsCpp_iff fx u).2 h]; exact ⟨rfl, rfl⟩
      | c h =>
        have : containsCpp fx u = false := by
          cases hc : containsCpp fx u
          · rfl
          · exact absurd ((containsCpp_iff fx u).1 hc) h
        rw [this]; exact ⟨rfl, rfl⟩
    simp [vals, Seg.val, bound, defaults_get, pchDefaults_get, baseDefaults, lookupArg,
      pchArgs, ← hk'.1, ← hk'.2, hp, aggregateWithPrefix, aggregate_eq]

/-- The PCH command of the MSVC targets. -/
theorem msvc_pch_command (fx : Fixed) (u : TargetSchema) (comp : Str) (flags : List Str)
    (ht : fx.tcfg.pchCommand = msvcPchTemplate) (hp : u.pchs ≠ []) (hk : PchKind fx u comp flags) :
    pchCommand fx u = .value (spaced
      [ Path.displayString comp, spaced u.preprocessorFlags,
        spaced (u.includeDirs.map (fx.cfg.prefixIncludeDir ++ ·)), spaced u.commonCompileFlags,
        b!"/Yc" ++ Path.displayString (Path.pchHeaderPath fx.buildDir fx.cfg.pchHeaderExt),
        b!"/FI" ++ Path.displayString (Path.pchHeaderPath fx.buildDir fx.cfg.pchHeaderExt),
        b!"/Fp" ++ Path.displayString (Path.pchCompilePath fx.buildDir fx.cfg.pchHeaderExt fx.cfg.pchCompileExt),
        spaced u.pchCompileFlags, spaced flags,
        b!"/Fo" ++ Path.displayString (Path.pchObjectPath fx.buildDir fx.cfg.pchHeaderExt fx.cfg.objExt),
        b!"/c", Path.displayString
          (Path.pchSourcePath fx.buildDir fx.cfg.pchHeaderExt (containsCpp fx u)) ]) := by
  rw [pchCommand, ht]
  apply construct_segs _ _ _ [.field b!"compiler", .text b!" ", .field b!"preprocessor_flags", .text b!" ", .field b!"include_dirs", .text b!" ", .field b!"common_compile_flags", .text b!" /Yc", .field b!"input", .text b!" /FI", .field b!"input", .text b!" /Fp", .field b!"output", .text b!" ", .field b!"pch_compile_flags", .text b!" ", .field b!"compile_flags", .text b!" /Fo", .field b!"pch_object_output", .text b!" /c ", .field b!"input_source"]
  · decide +kernel
  · decide +kernel
  · have hk' : comp = (if containsCpp fx u then fx.exe.cppCompiler else fx.exe.cCompiler) ∧
        aggregate flags = selectCompileFlags u (if containsCpp fx u then .cpp else .c) := by
      cases hk with
      | cpp h => rw [(containsCpp_iff fx u).2 h]; exact ⟨rfl, rfl⟩
      | c h =>
        have : containsCpp fx u = false := by
          cases hc : containsCpp fx u
          · rfl
          · exact absurd ((containsCpp_iff fx u).1 hc) h
        rw [this]; exact ⟨rfl, rfl⟩
    simp [vals, Seg.val, bound, defaults_get, pchDefaults_get, baseDefaults, lookupArg,
      pchArgs, ← hk'.1, ← hk'.2, hp, aggregateWithPrefix, aggregate_eq]

/-! ## C27: link -/

/-- The link command of GCC and MinGW executables and of the default configuration.
The objects appear in the iteration order of a hash map. -/
theorem gcc_executable_link_command (fx : Fixed) (u : TargetSchema) (order : List Str)
    (ht : fx.tcfg.linkCommand = gccExeTemplate) :
    linkCommand fx u order = .value (spaced
      [ Path.displayString fx.exe.cppCompiler, spaced u.linkFlags, spaced (objects fx order), b!"-o",
        Path.displayString (outputPath fx), spaced (u.libDirs.map (fx.cfg.prefixLibDir ++ ·)), spaced (u.libs.map (·.path)), spaced u.externalLibs ]) := by
  rw [linkCommand, ht]
  apply construct_segs _ _ _ [.field b!"cpp_compiler", .text b!" ", .field b!"link_flags", .text b!" ", .field b!"compiled_sources", .text b!" -o ", .field b!"output", .text b!" ", .field b!"lib_dirs", .text b!" ", .field b!"lib_deps"]
  · decide +kernel
  · decide +kernel
  · simp [vals, Seg.val, bound, defaults_get, pchDefaults_get, baseDefaults, lookupArg,
      linkArgs, aggregateWithPrefix, aggregate_eq]

/-- The archive command of GCC and MinGW static libraries; flags and libraries are
not part of it. -/
theorem gcc_static_link_command (fx : Fixed) (u : TargetSchema) (order : List Str)
    (ht : fx.tcfg.linkCommand = gccStaticTemplate) :
    linkCommand fx u order = .value (spaced
      [ Path.displayString fx.exe.archiver, b!"rcs", Path.displayString (outputPath fx), spaced (objects fx order) ]) := by
  rw [linkCommand, ht]
  apply construct_segs _ _ _ [.field b!"archiver", .text b!" rcs ", .field b!"output", .text b!" ", .field b!"compiled_sources"]
  · decide +kernel
  · decide +kernel
  · simp [vals, Seg.val, bound, defaults_get, pchDefaults_get, baseDefaults, lookupArg,
      linkArgs, aggregateWithPrefix, aggregate_eq]

/-- The link command of GCC dynamic libraries.  Library directories and libraries
are NOT part of it. -/
theorem gcc_dynamic_link_command (fx : Fixed) (u : TargetSchema) (order : List Str)
    (ht : fx.tcfg.linkCommand = gccDynamicTemplate) :
    linkCommand fx u order = .value (spaced
      [ Path.displayString fx.exe.cppCompiler, b!"-shared", spaced u.linkFlags,
        spaced (objects fx order), b!"-o", Path.displayString (outputPath fx) ]) := by
  rw [linkCommand, ht]
  apply construct_segs _ _ _ [.field b!"cpp_compiler", .text b!" -shared ", .field b!"link_flags", .text b!" ", .field b!"compiled_sources", .text b!" -o ", .field b!"output"]
  · decide +kernel
  · decide +kernel
  · simp [vals, Seg.val, bound, defaults_get, pchDefaults_get, baseDefaults, lookupArg,
      linkArgs, aggregateWithPrefix, aggregate_eq]

/-- The link command of MinGW dynamic libraries.  Library directories and libraries
are NOT part of it. -/
theorem mingw_dynamic_link_command (fx : Fixed) (u : TargetSchema) (order : List Str)
    (ht : fx.tcfg.linkCommand = mingwDynamicTemplate) :
    linkCommand fx u order = .value (spaced
      [ Path.displayString fx.exe.cppCompiler, b!"-shared", spaced u.linkFlags,
        spaced (objects fx order), b!"-o", Path.displayString (outputPath fx),
        b!"-Wl,--out-implib," ++ Path.displayString (outputPath fx) ++ b!".a" ]) := by
  rw [linkCommand, ht]
  apply construct_segs _ _ _ [.field b!"cpp_compiler", .text b!" -shared ", .field b!"link_flags", .text b!" ", .field b!"compiled_sources", .text b!" -o ", .field b!"output", .text b!" -Wl,--out-implib,", .field b!"output", .text b!".a"]
  · decide +kernel
  · decide +kernel
  · simp [vals, Seg.val, bound, defaults_get, pchDefaults_get, baseDefaults, lookupArg,
      linkArgs, aggregateWithPrefix, aggregate_eq]

/-- The link command of MSVC executables. -/
theorem msvc_executable_link_command (fx : Fixed) (u : TargetSchema) (order : List Str)
    (ht : fx.tcfg.linkCommand = msvcExeTemplate) :
    linkCommand fx u order = .value (spaced
      [ Path.displayString fx.exe.linker, spaced u.linkFlags, spaced (u.libDirs.map (fx.cfg.prefixLibDir ++ ·)),
        b!"/OUT:" ++ Path.displayString (outputPath fx), spaced (u.libs.map (·.path)), spaced u.externalLibs,
        spaced (objects fx order), pchObject fx u ]) := by
  rw [linkCommand, ht]
  apply construct_segs _ _ _ [.field b!"linker", .text b!" ", .field b!"link_flags", .text b!" ", .field b!"lib_dirs", .text b!" /OUT:", .field b!"output", .text b!" ", .field b!"lib_deps", .text b!" ", .field b!"compiled_sources", .text b!" ", .field b!"pch_object_output"]
  · decide +kernel
  · decide +kernel
  · simp [vals, Seg.val, bound, defaults_get, pchDefaults_get, baseDefaults, lookupArg,
      linkArgs, aggregateWithPrefix, aggregate_eq]

/-- The archive command of MSVC static libraries. -/
theorem msvc_static_link_command (fx : Fixed) (u : TargetSchema) (order : List Str)
    (ht : fx.tcfg.linkCommand = msvcStaticTemplate) :
    linkCommand fx u order = .value (spaced
      [ Path.displayString fx.exe.archiver, spaced u.linkFlags, b!"/OUT:" ++ Path.displayString (outputPath fx),
        spaced (objects fx order), pchObject fx u ]) := by
  rw [linkCommand, ht]
  apply construct_segs _ _ _ [.field b!"archiver", .text b!" ", .field b!"link_flags", .text b!" /OUT:", .field b!"output", .text b!" ", .field b!"compiled_sources", .text b!" ", .field b!"pch_object_output"]
  · decide +kernel
  · decide +kernel
  · simp [vals, Seg.val, bound, defaults_get, pchDefaults_get, baseDefaults, lookupArg,
      linkArgs, aggregateWithPrefix, aggregate_eq]

/-- The link command of MSVC dynamic libraries.  Library directories and libraries
are NOT part of it. -/
theorem msvc_dynamic_link_command (fx : Fixed) (u : TargetSchema) (order : List Str)
    (ht : fx.tcfg.linkCommand = msvcDynamicTemplate) :
    linkCommand fx u order = .value (spaced
      [ Path.displayString fx.exe.linker, b!"/DLL", spaced u.linkFlags,
        b!"/OUT:" ++ Path.displayString (outputPath fx) ++ b!".dll", b!"/IMPLIB:" ++ Path.displayString (outputPath fx),
        spaced (objects fx order), pchObject fx u ]) := by
  rw [linkCommand, ht]
  apply construct_segs _ _ _ [.field b!"linker", .text b!" /DLL ", .field b!"link_flags", .text b!" /OUT:", .field b!"output", .text b!".dll /IMPLIB:", .field b!"output", .text b!" ", .field b!"compiled_sources", .text b!" ", .field b!"pch_object_output"]
  · decide +kernel
  · decide +kernel
  · simp [vals, Seg.val, bound, defaults_get, pchDefaults_get, baseDefaults, lookupArg,
      linkArgs, aggregateWithPrefix, aggregate_eq]

/-! ## C27: the words the shell sees -/

/-- Read by the shell, a GCC compile command consists exactly of the words of the
compiler, the preprocessor flags, the prefixed include directories, the common
flags, the PCH object flags, the language flags, `-o`, the object, `-c` and the
source, in this order, when every single flag is balanced in its quotes and the
compiler and object paths contain no double quote. -/
theorem gcc_compile_words (fx : Fixed) (u : TargetSchema) (src comp : Str) (flags : List Str)
    (ht : fx.tcfg.compileCommand = gccCompileTemplate) (hk : SourceKind fx u src comp flags)
    (hc : comp ≠ []) (hq : c!"\"" ∉ Path.toPathString comp)
    (ho : c!"\"" ∉ Path.toPathString (objPath fx src))
    (b1 : ∀ x ∈ u.preprocessorFlags, Path.Balanced x)
    (b2 : ∀ x ∈ u.includeDirs, Path.Balanced (fx.cfg.prefixIncludeDir ++ x))
    (b3 : ∀ x ∈ u.commonCompileFlags, Path.Balanced x)
    (b4 : ∀ x ∈ u.pchObjectFlags, Path.Balanced x) (b5 : ∀ x ∈ flags, Path.Balanced x)
    (b6 : Path.Balanced src) (hob : objPath fx src ≠ []) :
    ∃ cmd, compileCommand fx u src = .value cmd ∧
      Path.words cmd = [Path.toPathString comp] ++ u.preprocessorFlags.flatMap Path.words
        ++ u.includeDirs.flatMap (fun d => Path.words (fx.cfg.prefixIncludeDir ++ d))
        ++ u.commonCompileFlags.flatMap Path.words
        ++ (ifPch u u.pchObjectFlags).flatMap Path.words ++ flags.flatMap Path.words
        ++ [b!"-o", Path.toPathString (objPath fx src), b!"-c"] ++ Path.words src := by
  refine ⟨_, gcc_compile_command fx u src comp flags ht hk, ?_⟩
  have b4' : ∀ x ∈ ifPch u u.pchObjectFlags, Path.Balanced x := by
    intro x hx
    simp only [ifPch] at hx
    split at hx
    · exact b4 x hx
    · simp at hx
  have b2' : ∀ x ∈ u.includeDirs.map (fx.cfg.prefixIncludeDir ++ ·), Path.Balanced x := by
    intro x hx
    obtain ⟨d, hd, rfl⟩ := List.mem_map.1 hx
    exact b2 d hd
  simp only [spaced, ← aggregate_eq]
  rw [words_aggregate]
  · simp only [List.flatMap_cons, List.flatMap_nil, List.append_nil]
    rw [words_display comp hc hq, words_display _ hob ho, words_aggregate _ b1,
      words_aggregate _ b2', words_aggregate _ b3, words_aggregate _ b4', words_aggregate _ b5]
    have w1 : Path.words b!"-o" = [b!"-o"] := by decide
    have w2 : Path.words b!"-c" = [b!"-c"] := by decide
    rw [w1, w2]
    simp [List.flatMap_map]
  · intro x hx
    simp only [List.mem_cons, List.not_mem_nil, or_false] at hx
    rcases hx with rfl | rfl | rfl | rfl | rfl | rfl | rfl | rfl | rfl | rfl
    · exact balanced_display comp hq
    · exact aggregate_balanced _ b1
    · exact aggregate_balanced _ b2'
    · exact aggregate_balanced _ b3
    · exact aggregate_balanced _ b4'
    · exact aggregate_balanced _ b5
    · simp [Path.Balanced]
    · exact balanced_display _ ho
    · simp [Path.Balanced]
    · exact b6

/-- A concrete target used in the examples. -/
def exFixed : Fixed :=
  { name := b!"hello", rootDir := b!"/p", buildDir := b!"/p/build/gcc/hello", cfg := {},
    exe := ⟨b!"as", b!"gcc", b!"g++", b!"ar", b!"ld"⟩, tcfg := gccExe }

def exUser : TargetSchema :=
  { TargetSchema.empty with
    name := b!"hello", sources := [⟨b!"/p/src/main.cpp", b!"1"⟩], includeDirs := [b!"/p/include"],
    preprocessorFlags := [b!"-DX=1"], cppCompileFlags := [b!"-O2", b!"-Wall"],
    externalLibs := [b!"-lm"] }

example : SourceKind exFixed exUser b!"/p/src/main.cpp" b!"g++" [b!"-O2", b!"-Wall"] :=
  .cpp (by decide)

example : compileCommand exFixed exUser b!"/p/src/main.cpp"
    = .value b!"g++ -DX=1 -I/p/include   -O2 -Wall -o /p/build/gcc/hello/src/main.cpp.o -c /p/src/main.cpp" := by
  decide +kernel

example : linkCommand exFixed exUser [b!"/p/src/main.cpp"]
    = .value b!"g++  /p/build/gcc/hello/src/main.cpp.o -o /p/build/gcc/hello/hello   -lm" := by
  decide +kernel

/-- A source whose path has a space is passed unquoted and the shell splits it. -/
theorem compile_source_space_split :
    ∃ cmd, compileCommand exFixed exUser b!"/p/my src/main.cpp" = .value cmd ∧
      b!"/p/my src/main.cpp" ∉ Path.words cmd ∧ b!"/p/my" ∈ Path.words cmd := by
  refine ⟨_, gcc_compile_command exFixed exUser b!"/p/my src/main.cpp" b!"g++" [b!"-O2", b!"-Wall"]
    rfl (.cpp (by decide)), ?_⟩
  decide +kernel

/-- The libraries of a GCC dynamic library do not influence its link command. -/
theorem gcc_dynamic_ignores_libs (fx : Fixed) (u : TargetSchema) (order : List Str)
    (libs : List PathInfo) (ext dirs : List Str) (ht : fx.tcfg.linkCommand = gccDynamicTemplate) :
    linkCommand fx { u with libs := libs, externalLibs := ext, libDirs := dirs } order
      = linkCommand fx u order := by
  rw [gcc_dynamic_link_command fx _ order ht, gcc_dynamic_link_command fx u order ht]

/-! ## C55: the generated PCH header -/

/-- The PCH header consists of the guard and one include line per header, in
order. -/
theorem pch_header_text (headers : List Str) :
    pchHeaderText headers = .value
      (b!"// Generated by BuildCC\n#ifndef BUILDCC_GENERATED_PCH_H_\n#define BUILDCC_GENERATED_PCH_H_\n\n// clang-format off\n"
        ++ (headers.map fun h => b!"#include \"" ++ h ++ b!"\"\r\n").flatten
        ++ b!"\n\n#endif\n") := by
  apply construct_segs _ _ _ [.text b!"// Generated by BuildCC\n#ifndef BUILDCC_GENERATED_PCH_H_\n#define BUILDCC_GENERATED_PCH_H_\n\n// clang-format off\n",
    .field b!"aggregated_includes", .text b!"\n\n#endif\n"]
  · decide +kernel
  · decide +kernel
  · simp [vals, Seg.val, bound, lookupArg, getDefault]

/-- Different lists of headers give different PCH headers, for headers without a
double quote: nothing is dropped, merged or reordered. -/
theorem pch_header_injective (h1 h2 : List Str) (q1 : ∀ h ∈ h1, c!"\"" ∉ h)
    (q2 : ∀ h ∈ h2, c!"\"" ∉ h) (h : pchHeaderText h1 = pchHeaderText h2) : h1 = h2 := by
  rw [pch_header_text, pch_header_text] at h
  simp only [Out.value.injEq] at h
  have h := List.append_cancel_left (List.append_cancel_right h)
  exact includes_inj h1 h2 q1 q2 h

example : pchHeaderText [b!"/p/a b.h", b!"/p/c.h"] = .value
    b!"// Generated by BuildCC\n#ifndef BUILDCC_GENERATED_PCH_H_\n#define BUILDCC_GENERATED_PCH_H_\n\n// clang-format off\n#include \"/p/a b.h\"\r\n#include \"/p/c.h\"\r\n\n\n#endif\n" := by
  decide +kernel

end Verif.Target
