import Verif.Path.Model

/-! # Model of `ToolchainConfig` and `FileExt` -/

namespace Verif.Toolchain
open Verif

/-- `FileExt` (`file_ext.h`). -/
inductive FileExt where
  | asm | c | cpp | header | invalid
deriving DecidableEq, Repr

/-- `ToolchainConfig` (`toolchain_config.h:86-96`); the sets of extensions are lists. -/
structure Config where
  objExt : Str := b!".o"
  pchHeaderExt : Str := b!".h"
  pchCompileExt : Str := b!".gch"
  prefixIncludeDir : Str := b!"-I"
  prefixLibDir : Str := b!"-L"
  validC : List Str := [b!".c"]
  validCpp : List Str := [b!".cpp", b!".cxx", b!".cc"]
  validAsm : List Str := [b!".s", b!".S", b!".asm"]
  validHeader : List Str := [b!".h", b!".hpp"]
deriving DecidableEq, Repr

/-- `ToolchainConfig::GetFileExt` (`toolchain_config.cpp:27-46`). -/
def Config.fileExt (cfg : Config) (path : Str) : FileExt :=
  let ext := Path.extension path
  if ext = [] then .invalid
  else if ext ∈ cfg.validC then .c
  else if ext ∈ cfg.validCpp then .cpp
  else if ext ∈ cfg.validAsm then .asm
  else if ext ∈ cfg.validHeader then .header
  else .invalid

/-- `ToolchainConfig::IsValidSource` (`toolchain_config.cpp:48-61`). -/
def Config.isValidSource (cfg : Config) (path : Str) : Bool :=
  let ext := Path.extension path
  if ext = [] then false
  else decide (ext ∈ cfg.validC) || decide (ext ∈ cfg.validCpp) || decide (ext ∈ cfg.validAsm)

/-- `ToolchainConfig::IsValidHeader` (`toolchain_config.cpp:69-80`). -/
def Config.isValidHeader (cfg : Config) (path : Str) : Bool :=
  let ext := Path.extension path
  if ext = [] then false else decide (ext ∈ cfg.validHeader)

end Verif.Toolchain
