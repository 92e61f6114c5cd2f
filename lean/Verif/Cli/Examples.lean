import Verif.Cli.Props

/-! # Cases for the theorems about the command line (C89) -/

namespace Verif.Cli
open Verif Verif.Env Verif.Target Verif.Toolchain

def exNone : Given := ⟨fun _ => none, fun _ => none⟩

/-- `toolchain host --build --id GCC --name gcc --cpp_compiler g++-12`, and `toolchain cross` and
`target host_target --link_command ld`. -/
def exLine : Line where
  toolchain n :=
    if n = b!"host" then
      ⟨fun o => if o = b!"--id" then some b!"GCC" else if o = b!"--name" then some b!"gcc"
        else if o = b!"--cpp_compiler" then some b!"g++-12" else none,
       fun o => if o = b!"--build" then some true else none⟩
    else exNone
  target n :=
    if n = b!"host_target" then
      ⟨fun o => if o = b!"--link_command" then some b!"ld" else none, fun _ => none⟩
    else exNone

def exInitial : ArgToolchain where
  id := .clang
  name := b!"initial"
  executables := ⟨b!"llvm-as", b!"clang", b!"clang++", b!"llvm-ar", b!"lld"⟩
  config := { objExt := b!".obj" }

def exDecls : List Decl :=
  [.toolchain b!"host" 0 exInitial, .toolchain b!"cross" 1 {},
    .target b!"host_target" 0 ⟨b!"cc", b!"link"⟩]

def exVars : Vars := ⟨fun _ => {}, fun _ => {}⟩

def exAfter : Vars := (args exLine exVars exDecls).getD exVars

theorem exRead : args exLine exVars exDecls = some exAfter := by
  have h : (args exLine exVars exDecls).isSome = true := by decide
  rw [exAfter]
  cases e : args exLine exVars exDecls with
  | none => rw [e] at h; cases h
  | some w => rfl

theorem exOwn : OwnVars exDecls := by simp [OwnVars, exDecls]

example : (exAfter.toolchains 0).id = .gcc ∧ (exAfter.toolchains 0).name = b!"gcc" ∧
    (exAfter.toolchains 0).executables = ⟨b!"llvm-as", b!"clang", b!"g++-12", b!"llvm-ar", b!"lld"⟩ ∧
    (exAfter.toolchains 0).build = true ∧ (exAfter.toolchains 0).test = false := by decide

example : Names (exAfter.toolchains 0).id b!"GCC" :=
  (C89_toolchain_partial exRead exOwn (n := b!"host") (out := 0) (ini := exInitial)
    (by simp [exDecls])).1 _ rfl

example : (exAfter.toolchains 0).config = {} ∧ exInitial.config.objExt = b!".obj" :=
  ⟨(C89_config_false exRead exOwn (n := b!"host") (out := 0) (ini := exInitial)
    (by simp [exDecls])).1, rfl⟩

example : (targetConfig (exAfter.targets 0)).compileCommand = b!"cc" ∧
    (targetConfig (exAfter.targets 0)).linkCommand = b!"ld" :=
  let h := C89_target exRead exOwn (n := b!"host_target") (out := 0) (ini := ⟨b!"cc", b!"link"⟩)
    (by simp [exDecls])
  ⟨h.1.2 rfl, h.2.1.1 _ rfl⟩

/-- An id that is not known ends the program, and so does a name that is used twice. -/
example : args ⟨fun _ => ⟨fun _ => some b!"tcc", fun _ => none⟩, fun _ => exNone⟩ exVars
    exDecls = none := by decide

example : args exLine exVars (.toolchain b!"host" 5 {} :: exDecls) = none :=
  (C89_fatal _ _ _).2 (.inl (by decide))

/-- The toolchain of the first declaration. -/
example : ∃ t obj s, construct (storageAfter []) (exAfter.toolchains 0) = some (t, obj, s) ∧
    t.executables.cppCompiler = b!"g++-12" := ⟨_, _, _, rfl, by decide⟩

/-- `--id gcc --name g` and nothing else: a gcc toolchain without compilers. -/
def exShort : Line where
  toolchain _ := ⟨fun o => if o = b!"--id" then some b!"gcc" else if o = b!"--name" then some b!"g"
    else none, fun _ => none⟩
  target _ := exNone

example : ∃ w t obj s, args exShort exVars [.toolchain b!"host" 0 {}] = some w ∧
    construct (storageAfter []) (w.toolchains 0) = some (t, obj, s) ∧ t.id = .gcc ∧
    t.executables = ⟨[], [], [], [], []⟩ :=
  ⟨_, _, _, _, rfl, rfl, rfl, C89_defaults_false (line := exShort) (v := exVars)
    (ds := [.toolchain b!"host" 0 {}]) (n := b!"host") (out := 0) rfl (by simp [OwnVars])
    (by simp) (by decide) (ops := []) rfl⟩

end Verif.Cli
