import Verif.Command.Model
import Verif.Toolchain.Config
import Verif.Schema.Model

/-!
# Model of the commands built by a target

`Target::Build` registers default arguments, and the compile, PCH and link parts
construct one command each.
-/

namespace Verif.Target
open Verif Verif.Command Verif.Toolchain Verif.Schema

/-- `ToolchainExecutables` (`toolchain_executables.h`). -/
structure Executables where
  assembler : Str
  cCompiler : Str
  cppCompiler : Str
  archiver : Str
  linker : Str
deriving DecidableEq, Repr

/-- `TargetConfig` (`target_config.h:28-38`). -/
structure TargetConfig where
  targetExt : Str
  pchCommand : Str
  compileCommand : Str
  linkCommand : Str
deriving DecidableEq, Repr

/-- The parts of a target that are fixed by its constructor
(`target.h:65-78`): name, root and build directory, toolchain and templates. -/
structure Fixed where
  name : Str
  rootDir : Str
  buildDir : Str
  cfg : Config
  exe : Executables
  tcfg : TargetConfig
deriving DecidableEq, Repr

/-- `TargetState` after `SourceDetected` of every source
(`target_state.cpp:25-41`, `build.cpp:62-68`): some source is C++. -/
def containsCpp (fx : Fixed) (u : TargetSchema) : Bool :=
  u.sources.any fun s => fx.cfg.fileExt s.path == .cpp

/-- `Target::SelectCompileFlags(ext).value_or("")` (`target.cpp:64-79`). -/
def selectCompileFlags (u : TargetSchema) : FileExt → Str
  | .asm => aggregate u.asmCompileFlags
  | .c => aggregate u.cCompileFlags
  | .cpp => aggregate u.cppCompileFlags
  | _ => []

/-- `Target::SelectCompiler(ext).value_or("")` (`target.cpp:81-96`). -/
def selectCompiler (fx : Fixed) : FileExt → Str
  | .asm => fx.exe.assembler
  | .c => fx.exe.cCompiler
  | .cpp => fx.exe.cppCompiler
  | _ => []

/-- The default arguments registered before loading (`build.cpp:73-92`). -/
def baseDefaults (fx : Fixed) (u : TargetSchema) : List (Str × Str) :=
  [ (b!"include_dirs", aggregateWithPrefix fx.cfg.prefixIncludeDir u.includeDirs),
    (b!"lib_dirs", aggregateWithPrefix fx.cfg.prefixLibDir u.libDirs),
    (b!"preprocessor_flags", aggregate u.preprocessorFlags),
    (b!"common_compile_flags", aggregate u.commonCompileFlags),
    (b!"link_flags", aggregate u.linkFlags),
    (b!"asm_compiler", Path.displayString fx.exe.assembler),
    (b!"c_compiler", Path.displayString fx.exe.cCompiler),
    (b!"cpp_compiler", Path.displayString fx.exe.cppCompiler),
    (b!"archiver", Path.displayString fx.exe.archiver),
    (b!"linker", Path.displayString fx.exe.linker) ]

/-- The default arguments that depend on PCH use (`build.cpp:98-113`). -/
def pchDefaults (fx : Fixed) (u : TargetSchema) : List (Str × Str) :=
  if u.pchs ≠ [] then
    [ (b!"pch_compile_flags", aggregate u.pchCompileFlags),
      (b!"pch_object_flags", aggregate u.pchObjectFlags),
      (b!"pch_object_output",
        Path.displayString (Path.pchObjectPath fx.buildDir fx.cfg.pchHeaderExt fx.cfg.objExt)) ]
  else
    [ (b!"pch_compile_flags", []), (b!"pch_object_flags", []), (b!"pch_object_output", []) ]

/-- Default arguments of the target when its commands are constructed
(`build.cpp:73-113`), starting from a target without user-added defaults. -/
def defaults (fx : Fixed) (u : TargetSchema) : Defaults :=
  addDefaults (addDefaults [] (baseDefaults fx u)) (pchDefaults fx u)

/-- Object file of a source (`compile_object.cpp:32-40`). -/
def objPath (fx : Fixed) (src : Str) : Str :=
  Path.objectPath fx.rootDir fx.buildDir fx.cfg.objExt src

/-- Call arguments of a compile command (`compile_object.cpp:45-62`).  The input is
formatted from a `std::string`, so it is not quoted. -/
def compileArgs (fx : Fixed) (u : TargetSchema) (src : Str) : Args :=
  let type := fx.cfg.fileExt src
  [ (b!"compiler", Path.displayString (selectCompiler fx type)),
    (b!"compile_flags", selectCompileFlags u type),
    (b!"output", Path.displayString (objPath fx src)),
    (b!"input", src) ]

/-- `CompileObject::CacheCompileCommands` for one source (`compile_object.cpp:42-64`). -/
def compileCommand (fx : Fixed) (u : TargetSchema) (src : Str) : Out :=
  construct (defaults fx u) fx.tcfg.compileCommand (compileArgs fx u src)

/-- Call arguments of the PCH command (`compile_pch.cpp:145-164`). -/
def pchArgs (fx : Fixed) (u : TargetSchema) : Args :=
  let cpp := containsCpp fx u
  [ (b!"compiler",
      Path.displayString (if cpp then fx.exe.cppCompiler else fx.exe.cCompiler)),
    (b!"compile_flags", selectCompileFlags u (if cpp then .cpp else .c)),
    (b!"output", Path.displayString
      (Path.pchCompilePath fx.buildDir fx.cfg.pchHeaderExt fx.cfg.pchCompileExt)),
    (b!"input", Path.displayString (Path.pchHeaderPath fx.buildDir fx.cfg.pchHeaderExt)),
    (b!"input_source",
      Path.displayString (Path.pchSourcePath fx.buildDir fx.cfg.pchHeaderExt cpp)) ]

/-- `CompilePch::ConstructCompileCommand` (`compile_pch.cpp:145-165`). -/
def pchCommand (fx : Fixed) (u : TargetSchema) : Out :=
  construct (defaults fx u) fx.tcfg.pchCommand (pchArgs fx u)

/-- Output of the link step (`link_target.cpp:52-58`). -/
def outputPath (fx : Fixed) : Str := Path.append fx.buildDir (fx.name ++ fx.tcfg.targetExt)

/-- Call arguments of the link command (`link_target.cpp:31-48`).  `order` lists the
distinct sources in the iteration order of the hash map of object files. -/
def linkArgs (fx : Fixed) (u : TargetSchema) (order : List Str) : Args :=
  [ (b!"output", Path.displayString (outputPath fx)),
    (b!"compiled_sources", aggregate (order.map fun s => Path.displayString (objPath fx s))),
    (b!"lib_deps", aggregate (u.libs.map (·.path)) ++ b!" " ++ aggregate u.externalLibs) ]

/-- `LinkTarget::CacheLinkCommand` (`link_target.cpp:31-48`). -/
def linkCommand (fx : Fixed) (u : TargetSchema) (order : List Str) : Out :=
  construct (defaults fx u) fx.tcfg.linkCommand (linkArgs fx u order)

/-! ## PCH header -/

/-- `kFormat` (`compile_pch.cpp:32-40`). -/
def pchFormat : Str :=
  b!"// Generated by BuildCC\n#ifndef BUILDCC_GENERATED_PCH_H_\n#define BUILDCC_GENERATED_PCH_H_\n\n// clang-format off\n{aggregated_includes}\n\n#endif\n"

/-- Text written by `AggregateToFile` (`compile_pch.cpp:42-58`). -/
def pchHeaderText (headers : List Str) : Out :=
  construct [] pchFormat
    [(b!"aggregated_includes", (headers.map fun h => b!"#include \"" ++ h ++ b!"\"\r\n").flatten)]

/-! ## Shipped templates -/

/-- Templates of `TargetConfig()` (`target_config.h:34-36`). -/
def defaultConfig : TargetConfig where
  targetExt := []
  pchCommand := b!"{compiler} {preprocessor_flags} {include_dirs} {common_compile_flags} {pch_compile_flags} {compile_flags} -o {output} -c {input}"
  compileCommand := b!"{compiler} {preprocessor_flags} {include_dirs} {common_compile_flags} {pch_object_flags} {compile_flags} -o {output} -c {input}"
  linkCommand := b!"{cpp_compiler} {link_flags} {compiled_sources} -o {output} {lib_dirs} {lib_deps}"

/-- `kGccGenericPchCompileCommand` (`target_gcc.h:32-34`). -/
def gccPchTemplate : Str := b!"{compiler} {preprocessor_flags} {include_dirs} {common_compile_flags} {pch_compile_flags} {compile_flags} -o {output} -c {input}"
/-- `kGccGenericCompileCommand` (`target_gcc.h:35-37`). -/
def gccCompileTemplate : Str := b!"{compiler} {preprocessor_flags} {include_dirs} {common_compile_flags} {pch_object_flags} {compile_flags} -o {output} -c {input}"
/-- `kGccExecutableLinkCommand` (`target_gcc.h:38-40`). -/
def gccExeTemplate : Str := b!"{cpp_compiler} {link_flags} {compiled_sources} -o {output} {lib_dirs} {lib_deps}"
/-- `kGccStaticLibLinkCommand` (`target_gcc.h:41-42`). -/
def gccStaticTemplate : Str := b!"{archiver} rcs {output} {compiled_sources}"
/-- `kGccDynamicLibLinkCommand` (`target_gcc.h:43-44`). -/
def gccDynamicTemplate : Str := b!"{cpp_compiler} -shared {link_flags} {compiled_sources} -o {output}"
/-- `kMingwDynamicLibLinkCommand` (`target_mingw.h:33-35`). -/
def mingwDynamicTemplate : Str := b!"{cpp_compiler} -shared {link_flags} {compiled_sources} -o {output} -Wl,--out-implib,{output}.a"
/-- `kMsvcPchCompileCommand` (`target_msvc.h:36-39`). -/
def msvcPchTemplate : Str := b!"{compiler} {preprocessor_flags} {include_dirs} {common_compile_flags} /Yc{input} /FI{input} /Fp{output} {pch_compile_flags} {compile_flags} /Fo{pch_object_output} /c {input_source}"
/-- `kMsvcCompileCommand` (`target_msvc.h:41-43`). -/
def msvcCompileTemplate : Str := b!"{compiler} {preprocessor_flags} {include_dirs} {common_compile_flags} {pch_object_flags} {compile_flags} /Fo{output} /c {input}"
/-- `kMsvcExecutableLinkCommand` (`target_msvc.h:44-46`). -/
def msvcExeTemplate : Str := b!"{linker} {link_flags} {lib_dirs} /OUT:{output} {lib_deps} {compiled_sources} {pch_object_output}"
/-- `kMsvcStaticLibLinkCommand` (`target_msvc.h:47-49`). -/
def msvcStaticTemplate : Str := b!"{archiver} {link_flags} /OUT:{output} {compiled_sources} {pch_object_output}"
/-- `kMsvcDynamicLibLinkCommand` (`target_msvc.h:50-52`). -/
def msvcDynamicTemplate : Str := b!"{linker} /DLL {link_flags} /OUT:{output}.dll /IMPLIB:{output} {compiled_sources} {pch_object_output}"

/-- `GccConfig::{Executable,StaticLib,DynamicLib}` (`target_gcc.h:46-72`). -/
def gccExe : TargetConfig := ⟨[], gccPchTemplate, gccCompileTemplate, gccExeTemplate⟩
def gccStatic : TargetConfig := ⟨b!".a", gccPchTemplate, gccCompileTemplate, gccStaticTemplate⟩
def gccDynamic : TargetConfig := ⟨b!".so", gccPchTemplate, gccCompileTemplate, gccDynamicTemplate⟩
/-- `MingwConfig::{Executable,StaticLib,DynamicLib}` (`target_mingw.h:37-62`). -/
def mingwExe : TargetConfig := ⟨b!".exe", gccPchTemplate, gccCompileTemplate, gccExeTemplate⟩
def mingwStatic : TargetConfig := gccStatic
def mingwDynamic : TargetConfig := ⟨b!".dll", gccPchTemplate, gccCompileTemplate, mingwDynamicTemplate⟩
/-- `MsvcConfig::{Executable,StaticLib,DynamicLib}` (`target_msvc.h:54-80`). -/
def msvcExe : TargetConfig := ⟨b!".exe", msvcPchTemplate, msvcCompileTemplate, msvcExeTemplate⟩
def msvcStatic : TargetConfig := ⟨b!".lib", msvcPchTemplate, msvcCompileTemplate, msvcStaticTemplate⟩
def msvcDynamic : TargetConfig := ⟨b!".lib", msvcPchTemplate, msvcCompileTemplate, msvcDynamicTemplate⟩

end Verif.Target
