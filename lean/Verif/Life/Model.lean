/-!
# How long the objects of a script live

A script creates toolchains, targets, generators, plugins and data, as local objects of `main` or of a
callback or in `Storage`, and registers some of them.  What is registered and what an object refers to is
used later, by `Reg::Run`.  To use an object outside of its lifetime is undefined behaviour; it is the
outcome `none` of this model.
-/

namespace Verif.Life

/-- An object of a script, with the objects that its constructor keeps references to.  Objects are
numbered in the order in which they are created. -/
inductive Obj where
  /-- Data of the script: a structure for a blob handler, a vector for the output of a test. -/
  | data
  | toolchain
  /-- `TargetInfo(toolchain, env)` keeps a reference (`target_info.h:50-53`, `66`). -/
  | info (tc : Nat)
  /-- `Target(name, type, toolchain, env, config)` keeps it as a `TargetInfo` (`target.h:68-78`). -/
  | target (tc : Nat)
  /-- `CustomGenerator(name, env)` keeps none (`custom_generator.h:65-71`). -/
  | generator
  /-- `ClangCompileCommands(targets)` keeps the pointers (`clang_compile_commands.h:26-27`). -/
  | plugin (targets : List Nat)
deriving DecidableEq, Repr

/-- The references that an object keeps from its constructor. -/
def Obj.keeps : Obj → List Nat
  | .info tc | .target tc => [tc]
  | .plugin ts => ts
  | _ => []

/-- The references that a constructor reads: the name and the flags of the toolchain
(`target.h:71-73`, `target_info.cpp:23-48`); a plugin only stores its pointers. -/
def Obj.reads : Obj → List Nat
  | .info tc | .target tc => [tc]
  | _ => []

/-- What a script does, as far as lifetimes are concerned. -/
inductive Ev where
  /-- A function or callback begins (`Func`, `Build`: `register.h:66-97`). -/
  | enter
  /-- It ends: its local objects are destroyed. -/
  | leave
  /-- A new object, local or with `Storage::Add` (`storage.h:39-53`). -/
  | create (o : Obj) (stored : Bool)
  /-- A call of a function of an object with other objects as arguments, such as `AddSource` or
  `Insert`; `deep` if it also reads what the object refers to, as all that look at extensions do
  (`source_api.h:42`, `include_api.h:48-56`, `pch_api.h:42`).  The arguments are copied. -/
  | call (o : Nat) (deep : Bool) (args : List Nat)
  /-- A call that stores a reference and does not read it: `AddIdInfo` with a `TypedCustomBlobHandler`
  (`custom_blob_handler.h:76`), `AddTarget` of a plugin (`clang_compile_commands.cpp:44-47`). -/
  | keep (o d : Nat)
  /-- `Build()` of a target or generator makes its tasks, which refer to it.  That of a target reads the
  toolchain (`build.cpp:53-90`), so it is `deep`; that of a generator does not read its data. -/
  | prepare (o : Nat) (deep : Bool)
  /-- `Reg::Toolchain(..).Build` registers a target or generator (`register.h:85-97`, `tasks.cpp:24-31`);
  the callback before it is a sequence of other events. -/
  | build (o : Nat)
  /-- `.Test` of a target, with the vectors for its output (`register.cpp:167-179`,
  `test_info.h:103-114`). -/
  | test (t : Nat) (outs : List Nat)
  /-- `Storage::Clear` (`storage.h:55-60`). -/
  | clear
  /-- `Reg::Run`, with the plugins that its callback generates (`register.cpp:101-108`). -/
  | run (plugins : List Nat)
deriving DecidableEq, Repr

/-- The objects that exist, and who refers to what. -/
structure St where
  /-- Objects created so far. -/
  count : Nat := 0
  /-- Local objects of the functions that have not ended, the innermost first. -/
  scopes : List (List Nat) := []
  stored : List Nat := []
  /-- Object and what it refers to. -/
  kept : List (Nat × Nat) := []
  /-- Builders that have tasks. -/
  ready : List Nat := []
  /-- Registered builders. -/
  built : List Nat := []
  /-- Registered tests. -/
  tests : List (Nat × List Nat) := []
deriving DecidableEq, Repr

/-- The object can be used. -/
def St.live (s : St) (x : Nat) : Bool := s.stored.contains x || s.scopes.any (·.contains x)

/-- What an object refers to. -/
def St.refs (s : St) (x : Nat) : List Nat := (s.kept.filter (·.1 = x)).map (·.2)

/-- The objects that may be used; which of the tasks of a target read the toolchain depends on what has to be
built.  `run`: the tasks of a builder read the builder and what it refers to, the toolchain
(`compile_object.cpp:50`, `target.cpp:81-95`) or the data of a blob handler (`custom_generator.h:42-46`); a plugin reads its targets (`clang_compile_commands.cpp:49-75`); a test reads its
target and writes the vectors (`register.cpp:193-264`). -/
def St.uses (s : St) : Ev → List Nat
  | .create o _ => o.reads
  | .call o deep args => o :: args ++ if deep then s.refs o else []
  | .keep o _ => [o]
  | .prepare o deep => o :: if deep then s.refs o else []
  | .build o => [o]
  | .test t _ => [t]
  | .run plugins =>
    s.built.flatMap (fun o => o :: if s.ready.contains o then s.refs o else []) ++ plugins.flatMap (fun p => p :: s.refs p) ++
      s.tests.flatMap fun t => t.1 :: t.2
  | _ => []

/-- What the script leaves behind. -/
def St.next (s : St) : Ev → St
  | .enter => { s with scopes := [] :: s.scopes }
  | .leave => { s with scopes := s.scopes.tail }
  | .create o stored =>
    let t := { s with count := s.count + 1, kept := s.kept ++ o.keeps.map fun k => (s.count, k) }
    if stored then { t with stored := s.count :: s.stored }
    else
      match s.scopes with
      | [] => { t with scopes := [[s.count]] }
      | l :: r => { t with scopes := (s.count :: l) :: r }
  | .keep o d => { s with kept := s.kept ++ [(o, d)] }
  | .prepare o _ => { s with ready := s.ready ++ [o] }
  | .build o => { s with built := s.built ++ [o] }
  | .test t outs => { s with tests := s.tests ++ [(t, outs)] }
  | .clear => { s with stored := [] }
  | .call .. | .run _ => s

/-- One step; `none` is undefined behaviour. -/
def St.step (s : St) (e : Ev) : Option St := if (s.uses e).all s.live then some (s.next e) else none

/-- A whole script. -/
def exec : St → List Ev → Option St
  | s, [] => some s
  | s, e :: l => (s.step e).bind fun t => exec t l

end Verif.Life
