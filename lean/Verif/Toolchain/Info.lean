import Verif.Command.Model
import Verif.Env.Execute
import Verif.Toolchain.Create

/-!
# The information about a compiler

The functions that `Verify` calls to learn the version and the architecture of the compiler
it found (`toolchain_infos.cpp`).
-/

namespace Verif.Toolchain
open Verif Verif.Env Verif.Target

/-- `GetGccCompilerVersion` and `GetGccTargetArchitecture` (`toolchain_infos.cpp:41-61`): the
first piece of the output of `{compiler} -dumpversion` or `{compiler} -dumpmachine`.  The outer
`none` is fatal. -/
def gccQuery (sh : Shell) (defaults : Command.Defaults) (pattern : Str) : Option (Option Str) :=
  match Command.construct defaults pattern [] with
  | .value c =>
    match execute sh c none with
    | none => none
    | some a => if !a.ok || a.out.isEmpty then some none else some a.out.head?
  | _ => none

/-- `GetGccToolchainInfo` (`toolchain_infos.cpp:63-78`).  The path is set by `Verify`. -/
def gccInfo (sh : Shell) (e : Executables) : Option (Option CompilerInfo) :=
  let d := Command.addDefault [] b!"compiler" e.cppCompiler
  match gccQuery sh d b!"{compiler} -dumpversion", gccQuery sh d b!"{compiler} -dumpmachine" with
  | some (some v), some (some a) => some (some ⟨[], v, a⟩)
  | some _, some _ => some none
  | _, _ => none

/-- `GetMsvcToolchainInfo` (`toolchain_infos.cpp:97-131`). -/
def msvcInfo (getenv : Str → Option Str) : Option CompilerInfo :=
  match getenv b!"VSCMD_VER", getenv b!"VSCMD_ARG_HOST_ARCH", getenv b!"VSCMD_ARG_TGT_ARCH" with
  | some v, some h, some t => some ⟨[], v, h ++ b!"_" ++ t⟩
  | _, _, _ => none

/-- The callback of a toolchain (`toolchain_infos.cpp:149-163`); `GetErrorToolchainInfo` is at
`toolchain_infos.cpp:135-143`.  The commands of `gccInfo` are never empty, so that it is never
fatal (`gccInfo_eq`). -/
def infoCb (h : Host) (sh : Shell) : InfoKind → Option InfoCb
  | .none => none
  | .gcc => some fun e => (gccInfo sh e).join
  | .msvc => some fun _ => msvcInfo h.getenv
  | .error => some fun _ => none

/-- `toolchain.Verify(config)` for a toolchain as it was created
(`toolchain_verify.cpp:75-98`): the information and the toolchain afterwards. -/
def verifyToolchain (h : Host) (sh : Shell) (t : Toolchain) (cfg : FindConfig) :
    Option (CompilerInfo × Toolchain) :=
  match verify h t.executables (infoCb h sh t.infoCb) cfg with
  | none => none
  | some (info, exes) => some (info, { t with executables := exes })

end Verif.Toolchain
