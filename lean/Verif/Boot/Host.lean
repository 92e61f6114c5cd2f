import Verif.Env.Host
import Verif.Boot.Model

/-!
# C119: what a script is told about its host

`get_host_os` and its companions for every set of predefined macros, and the parts of the bootstrap script
that depend on them.
-/

namespace Verif.Boot
open Verif Verif.Env Verif.Target Verif.Toolchain

/-! ## Model of the host-dependent parts of the bootstrap script -/

/-- `tpl_cb` on every host (`build_tpl.cpp:21-35`). -/
def tplOpsOn (m : Macros) : List ApiOp :=
  [.addSource b!"process.cpp" [], .addIncludeDir [] false, .addHeader b!"process.hpp" []] ++
    (if isWin m then [.addSource b!"process_win.cpp" []] else []) ++
    (if isLinux m || isUnix m || isClang m then [.addSource b!"process_unix.cpp" []] else [])

/-- The flags for Windows (`build_buildcc.cpp:109-125`). -/
def winPlatformOps : ToolchainId → List ApiOp
  | .mingw =>
    [.addFlag .preprocessor b!"-DFMT_HEADER_ONLY=1", .addFlag .preprocessor b!"-DSPDLOG_FMT_EXTERNAL",
     .addFlag .link b!"-Wl,--allow-multiple-definition"]
  | .msvc =>
    [.addFlag .preprocessor b!"/DFMT_HEADER_ONLY=1", .addFlag .preprocessor b!"/DSPDLOG_FMT_EXTERNAL"]
  | _ => []

/-- The flags for the platform on every host (`build_buildcc.cpp:109-138`). -/
def platformOpsOn (m : Macros) (id : ToolchainId) : List ApiOp :=
  (if isWin m then winPlatformOps id else []) ++
    (if isLinux m || isUnix m || isClang m then platformOps id else [])

/-! ## Hosts -/

/-- GCC or Clang on Linux: both define `__linux__` and `__unix__`. -/
def onLinux (m : Macros) : Prop :=
  m.linux = true ∧ m.unix = true ∧ m.win32 = false ∧ m.apple = false ∧ m.mach = false

/-- GCC on Linux. -/
def gccLinux : Macros := ⟨true, false, false, false, true, true, false, false, false, false⟩
/-- Clang on Linux. -/
def clangLinux : Macros := ⟨true, false, false, false, true, true, false, false, true, false⟩
/-- The Microsoft compiler. -/
def msvcWindows : Macros := ⟨false, true, false, false, false, false, false, false, false, true⟩
/-- MinGW. -/
def mingwWindows : Macros := ⟨false, true, false, false, false, true, true, true, false, false⟩
/-- Clang on Windows, in the Microsoft environment. -/
def clangWindows : Macros := ⟨false, true, false, false, false, false, false, false, true, true⟩
/-- Clang on macOS, which does not define `__unix__`. -/
def clangMac : Macros := ⟨false, false, true, true, false, true, false, false, true, false⟩
/-- GCC on macOS. -/
def gccMac : Macros := ⟨false, false, true, true, false, true, false, false, false, false⟩

/-! ## Theorems -/

/-- C119: which operating system a script is told.  The macros are ranked: macOS, Windows, Unix, Linux. -/
theorem C119_os (m : Macros) :
    (hostOs m = .mac ↔ m.apple = true ∨ m.mach = true) ∧
    (hostOs m = .win ↔ m.win32 = true ∧ m.apple = false ∧ m.mach = false) ∧
    (hostOs m = .unix ↔ m.unix = true ∧ m.win32 = false ∧ m.apple = false ∧ m.mach = false) ∧
    (hostOs m = .linux ↔
      m.linux = true ∧ m.unix = false ∧ m.win32 = false ∧ m.apple = false ∧ m.mach = false) ∧
    (hostOs m = .undefined ↔
      m.linux = false ∧ m.unix = false ∧ m.win32 = false ∧ m.apple = false ∧ m.mach = false) := by
  obtain ⟨l, w, a, h, u, _, _, _, _, _⟩ := m
  cases l <;> cases w <;> cases a <;> cases h <;> cases u <;>
    simp [hostOs, isLinux, isWin, isMac, isUnix]

/-- C119 is false on Linux: a script on Linux is told that it is on Unix, and never that it is on Linux. -/
theorem C119_linux_false (m : Macros) (h : onLinux m) : hostOs m = .unix ∧ hostOs m ≠ .linux := by
  have e := (C119_os m).2.2.1.2 ⟨h.2.1, h.2.2.1, h.2.2.2.1, h.2.2.2.2⟩
  exact ⟨e, by rw [e]; decide⟩

example : onLinux gccLinux ∧ onLinux clangLinux := by
  unfold onLinux
  decide

/-- C119: the separator of `PATH` and the extension of programs are known exactly on the hosts whose operating
system is known, and are those of Windows exactly on Windows. -/
theorem C119_host (m : Macros) :
    ((envDelim m).isSome = true ↔ hostOs m ≠ .undefined) ∧
    ((exeExtension m).isSome = true ↔ hostOs m ≠ .undefined) ∧
    (envDelim m = some b!";" ↔ m.win32 = true) ∧ (exeExtension m = some b!".exe" ↔ m.win32 = true) ∧
    (hostOs m ≠ .undefined → m.win32 = false → envDelim m = some b!":" ∧ exeExtension m = some []) := by
  obtain ⟨l, w, a, h, u, _, _, _, _, _⟩ := m
  cases l <;> cases w <;> cases a <;> cases h <;> cases u <;>
    simp [hostOs, envDelim, exeExtension, isLinux, isWin, isMac, isUnix]

example : hostOs msvcWindows = .win ∧ envDelim msvcWindows = some b!";" ∧ hostOs clangMac = .mac ∧
    exeExtension clangMac = some [] := by decide

/-- C119: on Linux the bootstrap script is the one that C85 is about. -/
theorem C119_bootstrap_linux (m : Macros) (h : onLinux m) (id : ToolchainId) :
    tplOpsOn m = tplOps ∧ platformOpsOn m id = platformOps id := by
  simp [tplOpsOn, tplOps, platformOpsOn, isWin, isLinux, h.1, h.2.2.1]

/-- The implementations of processes that are compiled. -/
def processSources (ops : List ApiOp) : List Str :=
  ops.filterMap fun o =>
    match o with
    | .addSource f _ => if f = b!"process.cpp" then none else some f
    | _ => none

/-- C119, exactly: the bootstrap script compiles one implementation of processes if and only if the host is
Windows and the compiler not Clang, or it is not Windows but Linux, Unix or any host with Clang. -/
theorem C119_process_exact (m : Macros) :
    (processSources (tplOpsOn m)).length = 1 ↔
      (m.win32 = true ↔ ¬ (m.linux = true ∨ m.unix = true ∨ m.clang = true)) := by
  obtain ⟨l, w, _, _, u, _, _, _, c, _⟩ := m
  cases l <;> cases w <;> cases u <;> cases c <;>
    simp [tplOpsOn, processSources, isWin, isLinux, isUnix, isClang]

/-- C119: what is compiled with GCC and Clang on Linux, the two usual compilers on Windows, and Clang on
macOS. -/
theorem C119_process_partial (m : Macros) (h : onLinux m ∨ m = msvcWindows ∨ m = mingwWindows ∨ m = clangMac) :
    processSources (tplOpsOn m) = if m.win32 then [b!"process_win.cpp"] else [b!"process_unix.cpp"] := by
  rcases h with h | rfl | rfl | rfl
  · rw [(C119_bootstrap_linux m h .gcc).1, h.2.2.1]
    decide
  · decide
  · decide
  · decide

/-- C119 is false for Clang on Windows, where the implementations of both systems are compiled, and for GCC on
macOS, where none is. -/
theorem C119_process_false :
    processSources (tplOpsOn clangWindows) = [b!"process_win.cpp", b!"process_unix.cpp"] ∧
    processSources (tplOpsOn gccMac) = [] := by decide

/-- The preprocessor flags that are added. -/
def preprocessorFlags (ops : List ApiOp) : List Str :=
  ops.filterMap fun o =>
    match o with
    | .addFlag .preprocessor f => some f
    | _ => none

/-- C119: the library is compiled for formatting without its own copy of fmt exactly with GCC on Linux, Unix or
a host with Clang, and with MinGW or the Microsoft compiler on Windows; with other toolchains no flag is added. -/
theorem C119_flags (m : Macros) (id : ToolchainId) :
    preprocessorFlags (platformOpsOn m id) =
      (if (id = .gcc ∧ (m.linux = true ∨ m.unix = true ∨ m.clang = true)) ∨ (id = .mingw ∧ m.win32 = true) then
        [b!"-DFMT_HEADER_ONLY=1", b!"-DSPDLOG_FMT_EXTERNAL"]
      else if id = .msvc ∧ m.win32 = true then [b!"/DFMT_HEADER_ONLY=1", b!"/DSPDLOG_FMT_EXTERNAL"]
      else []) := by
  obtain ⟨l, w, _, _, u, _, _, _, c, _⟩ := m
  cases id <;> cases l <;> cases w <;> cases u <;> cases c <;>
    simp [preprocessorFlags, platformOpsOn, winPlatformOps, platformOps, isWin, isLinux, isUnix, isClang]

/-- C119: threads are linked with GCC on Linux, and MinGW on Windows is told to accept double definitions. -/
theorem C119_link (m : Macros) (id : ToolchainId) :
    (ApiOp.addExternalLib b!"-lpthread" ∈ platformOpsOn m id ↔
      id = .gcc ∧ (m.linux = true ∨ m.unix = true ∨ m.clang = true)) ∧
    (ApiOp.addFlag .link b!"-Wl,--allow-multiple-definition" ∈ platformOpsOn m id ↔
      id = .mingw ∧ m.win32 = true) := by
  obtain ⟨l, w, _, _, u, _, _, _, c, _⟩ := m
  cases id <;> cases l <;> cases w <;> cases u <;> cases c <;>
    simp [platformOpsOn, winPlatformOps, platformOps, isWin, isLinux, isUnix, isClang]

example : platformOpsOn mingwWindows .mingw = winPlatformOps .mingw ∧
    platformOpsOn gccLinux .gcc = platformOps .gcc ∧ platformOpsOn clangLinux .clang = [] :=
  ⟨rfl, rfl, rfl⟩

end Verif.Boot
