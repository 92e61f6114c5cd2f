import Verif.Target.Special

/-!
# The file system

Directories and files, as far as `std::filesystem` and `std::ofstream` need them, and what
the library itself creates: build directories, the generated files of a precompiled header,
state files.

Simplifications.
* No symbolic links, permissions or full disks; paths contain no zero byte.
* One operation happens at one instant.
-/

namespace Verif.Disk
open Verif Verif.Schema Verif.Target Verif.Command
open Verif.Path (splitSlash dirPart filename isAbs slash dot dotdot)

/-- Where a directory or a file is: its names from the inside to the outside.  The root is
`[]`. -/
abbrev Place := List Str

structure Disk where
  isDir : Place → Bool
  file : Place → Option Str    -- the contents of the files
  cwd : Place                  -- the working directory of the process

/-- Where the lookup of a path starts. -/
def Disk.start (d : Disk) (p : Str) : Place := if isAbs p then [] else d.cwd

/-- Lookup of directories, component by component. -/
def Disk.walk (d : Disk) : Place → List Str → Option Place
  | at_, [] => some at_
  | at_, c :: l =>
    if c = [] ∨ c = dot then d.walk at_ l
    else if c = dotdot then d.walk at_.tail l
    else if d.isDir (c :: at_) then d.walk (c :: at_) l
    else none

/-- The directory in which a path ends exists; its place. -/
def Disk.parent (d : Disk) (p : Str) : Option Place := d.walk (d.start p) (splitSlash (dirPart p))

/-- `mkdir`: nothing if the directory is there, an error if a file is there. -/
def Disk.mkdir (d : Disk) (at_ : Place) : Option Disk :=
  if d.isDir at_ then some d
  else if (d.file at_).isSome then none
  else some { d with isDir := fun x => if x = at_ then true else d.isDir x }

/-- Create what is missing, component by component. -/
def Disk.mkdirs (d : Disk) : Place → List Str → Option Disk
  | _, [] => some d
  | at_, c :: l =>
    if c = [] ∨ c = dot then d.mkdirs at_ l
    else if c = dotdot then d.mkdirs at_.tail l
    else
      match d.mkdir (c :: at_) with
      | some d' => d'.mkdirs (c :: at_) l
      | none => none

/-- `fs::create_directories` ([fs.op.create.directories], libstdc++); `none` is
`filesystem_error`. -/
def Disk.createDirectories (d : Disk) (p : Str) : Option Disk :=
  if p = [] then none else d.mkdirs (d.start p) (splitSlash p)

/-- The place of the file that is written when `p` is opened for writing. -/
def Disk.target (d : Disk) (p : Str) : Option Place :=
  if filename p = [] ∨ filename p = dot ∨ filename p = dotdot then none
  else
    match d.parent p with
    | some at_ => if d.isDir (filename p :: at_) then none else some (filename p :: at_)
    | none => none

/-- `env::save_file` (`util.h:50-67`); `none`: the result is false. -/
def Disk.saveFile (d : Disk) (p text : Str) : Option Disk :=
  match d.target p with
  | some at_ => some { d with file := fun x => if x = at_ then some text else d.file x }
  | none => none

/-- `env::load_file` (`util.h:76-109`); `none`: the result is false. -/
def Disk.load (d : Disk) (p : Str) : Option Str :=
  match d.parent p with
  | some at_ => d.file (filename p :: at_)
  | none => none

/-- `fs::exists` for a path with a file name. -/
def Disk.exists (d : Disk) (p : Str) : Bool :=
  match d.parent p with
  | some at_ => d.isDir (filename p :: at_) || (d.file (filename p :: at_)).isSome
  | none => false

/-- `fs::remove_all` of a directory. -/
def Disk.removeAll (d : Disk) (p : Str) : Disk :=
  match d.walk (d.start p) (splitSlash p) with
  | some at_ =>
    { d with
      isDir := fun x => d.isDir x && !at_.isSuffixOf x
      file := fun x => if at_.isSuffixOf x then none else d.file x }
  | none => d

/-! ## Targets -/

/-- The constructor of a target (`target.h:65-78`) with `Initialize` (`target.cpp:49-62`); `none`:
fatal. -/
def newTarget (d : Disk) (p : Project) (name : Str) (type : TargetType) (tc : Toolchain.Toolchain)
    (env : TargetEnv) (config : TargetConfig) : Option (Made × Disk) :=
  match makeTarget p name type tc env config with
  | some m => (d.createDirectories m.buildDir).map fun d' => (m, d')
  | none => none

/-- The directories of the objects (`build.cpp:64-70`, `compile_object.cpp:32-40`). -/
def objectDirs (fx : Fixed) : Disk → List Str → Option Disk
  | d, [] => some d
  | d, src :: l =>
    match d.createDirectories (Path.parentPath (objPath fx src)) with
    | some d' => objectDirs fx d' l
    | none => none

/-- The state file of a target (`target.h:73`). -/
def stateFile (m : Made) : Str := Path.append m.buildDir (m.name ++ b!".bin")

/-- `TargetSerialization::Store` (`target_serialization.cpp:68-73`). -/
def storeState (d : Disk) (m : Made) (text : Str) : Option Disk :=
  d.saveFile (Path.toPathString (stateFile m)) text

/-- The source that is compiled with the precompiled header (`compile_pch.cpp:67`, `135-138`). -/
def pchSource (fx : Fixed) (u : TargetSchema) : Str :=
  Path.pchSourcePath fx.buildDir fx.cfg.pchHeaderExt (containsCpp fx u)

/-- The files that are written before the PCH command is executed (`compile_pch.cpp:110-117`, with
`AggregateToFile`, `42-58`); `none`: an exception.  The path of the source is formatted for
display before it is opened. -/
def writePch (d : Disk) (fx : Fixed) (u : TargetSchema) : Option Disk :=
  match pchHeaderText (u.pchs.map (·.path)) with
  | .value text =>
    match d.saveFile (Path.toPathString (Path.pchHeaderPath fx.buildDir fx.cfg.pchHeaderExt)) text with
    | some d' =>
      if d'.exists (pchSource fx u) then some d'
      else d'.saveFile (Path.displayString (pchSource fx u)) b!"//Generated by BuildCC"
    | none => none
  | _ => none

/-! ## Generators -/

/-- `CustomGenerator::Initialize` (`custom_generator.cpp:241-260`), with the build directory of
`custom_generator.h:66-72`; `none`: fatal. -/
def newGenerator (d : Disk) (p : Project) (env : TargetEnv) (name : Str) : Option Disk :=
  if p.init = false then none else d.createDirectories (Path.genBuildDir env.buildDir name)

/-- `CustomGeneratorSerialization::Store` (`custom_generator_serialization.cpp:46-52`). -/
def storeGenState (d : Disk) (env : TargetEnv) (name text : Str) : Option Disk :=
  d.saveFile (Path.toPathString (Path.genStateFile env.buildDir name)) text

/-- `template_generate_cb` (`template_generator.cpp:23-41`); `none`: the result is false or
`Construct` throws. -/
def templateRun (d : Disk) (cmd : Defaults) (input output : Str) : Option Disk :=
  match d.load input with
  | some text =>
    match construct cmd text [] with
    | .value s => d.saveFile output s
    | _ => none
  | none => none

/-! ## The rest -/

/-- Saving of `compile_commands.json` (`clang_compile_commands.cpp:84-89`); `none`: fatal. -/
def saveCommands (d : Disk) (p : Project) (text : Str) : Option Disk :=
  d.saveFile (Path.toPathString (Path.append p.buildDir b!"compile_commands.json")) text

/-- `clean_cb` (`buildexe.cpp:77-80`). -/
def clean (d : Disk) (p : Project) : Disk := d.removeAll p.buildDir

end Verif.Disk
