import Verif.Str.Basic

/-!
# Model of the queries for the host: `host_os.h`, `host_os_util.h`, `host_compiler.h`

Each is decided by the macros that the compiler of the script defines.
-/

namespace Verif.Env
open Verif

/-- The macros that are looked at; `true` if the compiler defines it. -/
structure Macros where
  linux : Bool    -- `__linux__`
  win32 : Bool    -- `_WIN32`
  apple : Bool    -- `__APPLE__`
  mach : Bool     -- `__MACH__`
  unix : Bool     -- `__unix__`
  gnuc : Bool     -- `__GNUC__`
  mingw32 : Bool  -- `__MINGW32__`
  mingw64 : Bool  -- `__MINGW64__`
  clang : Bool    -- `__clang__`
  msc : Bool      -- `_MSC_VER`
deriving DecidableEq, Repr

/-- `is_linux` (`host_os.h:25-31`). -/
def isLinux (m : Macros) : Bool := m.linux
/-- `is_win` (`host_os.h:33-39`). -/
def isWin (m : Macros) : Bool := m.win32
/-- `is_mac` (`host_os.h:41-47`). -/
def isMac (m : Macros) : Bool := m.apple || m.mach
/-- `is_unix` (`host_os.h:49-55`). -/
def isUnix (m : Macros) : Bool := m.unix
/-- `is_gcc` (`host_compiler.h:24-30`). -/
def isGcc (m : Macros) : Bool := m.gnuc
/-- `is_mingw` (`host_compiler.h:32-38`). -/
def isMingw (m : Macros) : Bool := m.mingw32 || m.mingw64
/-- `is_clang` (`host_compiler.h:40-46`). -/
def isClang (m : Macros) : Bool := m.clang
/-- `is_msvc` (`host_compiler.h:48-54`). -/
def isMsvc (m : Macros) : Bool := m.msc

/-- `OsId` (`host_os.h:61-67`). -/
inductive OsId where
  | linux | win | mac | unix | undefined
deriving DecidableEq, Repr

/-- `get_host_os` (`host_os.h:69-88`): later tests overwrite earlier ones. -/
def hostOs (m : Macros) : OsId :=
  let id := OsId.undefined
  let id := if isLinux m then .linux else id
  let id := if isUnix m then .unix else id
  let id := if isWin m then .win else id
  if isMac m then .mac else id

/-- `get_os_envvar_delim` (`host_os_util.h:45-53`); `none` for `nullptr`. -/
def envDelim (m : Macros) : Option Str :=
  if isWin m then some b!";"
  else if isLinux m || isUnix m || isMac m then some b!":"
  else none

/-- `get_os_executable_extension` (`host_os_util.h:67-76`); `none` for `nullptr`. -/
def exeExtension (m : Macros) : Option Str :=
  if isWin m then some b!".exe"
  else if isLinux m || isUnix m || isMac m then some []
  else none

end Verif.Env
