import Verif.Toolchain.Create
import Verif.Env.StorageProps

/-! # Creating toolchains (C49, C66) -/

namespace Verif.Toolchain
open Verif Verif.Env Verif.Target

/-! ## C49 -/

/-- The toolchain that is made for an id, a name, and optional executables and
configuration. -/
inductive Made : ToolchainId → Str → Option Executables → Option Config → Toolchain → Prop where
  | gcc (n e c) : Made .gcc n e c (toolchainGcc n e c)
  | mingw (n e c) : Made .mingw n e c (toolchainMingw n e c)
  | msvc (n e c) : Made .msvc n e c (toolchainMsvc n e c)
  | custom (i n e c) : Made i n (some e) c (toolchainCustom i n e c)

/-- C49 is false: the configuration that the user supplies is never used.  The toolchain has
the configuration of its id, whatever was supplied. -/
theorem C49_config_false {id : ToolchainId} {n : Str} {e : Option Executables}
    {c : Option Config} {t : Toolchain} (h : Made id n e c t) :
    t.config = globalConfig id ∧ ∀ c', c = some c' → c' ≠ globalConfig id → t.config ≠ c' := by
  have : t.config = globalConfig id := by cases h <;> rfl
  exact ⟨this, fun c' _ hne he => hne (he ▸ this)⟩

/-- What holds: the base class keeps the configuration; the derived classes use the
configuration when it is the one of their id, and use the name and the executables they are
given.

Missing: a derived class with another configuration; see `C49_config_false`. -/
theorem C49_made_partial {id : ToolchainId} {n : Str} {e : Option Executables}
    {c : Option Config} {t : Toolchain} (h : Made id n e c t) :
    t.id = id ∧ t.name = n ∧ (∀ e', e = some e' → t.executables = e') ∧ t.user = {} ∧
      (c = some (globalConfig id) → c = some t.config) := by
  cases h with
  | gcc => exact ⟨rfl, rfl, fun _ h => by rw [h]; rfl, rfl, fun h => h⟩
  | mingw => exact ⟨rfl, rfl, fun _ h => by rw [h]; rfl, rfl, fun h => h⟩
  | msvc => exact ⟨rfl, rfl, fun _ h => by rw [h]; rfl, rfl, fun h => h⟩
  | custom =>
    exact ⟨rfl, rfl, fun _ h => by simp only [Option.some.injEq] at h; exact h, rfl, fun h => h⟩

theorem C49_base (id : ToolchainId) (n : Str) (e : Executables) (c : Config) :
    (Toolchain.base id n e c).config = c ∧ (Toolchain.base id n e c).id = id ∧
    (Toolchain.base id n e c).name = n ∧ (Toolchain.base id n e c).executables = e :=
  ⟨rfl, rfl, rfl, rfl⟩

/-- A gcc toolchain that should write object files with another extension. -/
example : (toolchainGcc b!"gcc" none (some { objExt := b!".obj" })).config.objExt = b!".o" := by
  decide

/-! ## C66 -/

/-- The executables that are used when none are given. -/
def DefaultExe (id : ToolchainId) (e : Executables) : Prop :=
  ((id = .gcc ∨ id = .mingw) ∧ e = ⟨b!"as", b!"gcc", b!"g++", b!"ar", b!"ld"⟩) ∨
  (id = .msvc ∧ e = ⟨b!"cl", b!"cl", b!"cl", b!"lib", b!"link"⟩)

/-- The class of the toolchains with an id. -/
def ClassName (id : ToolchainId) (c : Str) : Prop :=
  (id = .gcc ∧ c = b!"Toolchain_gcc") ∨ (id = .msvc ∧ c = b!"Toolchain_msvc") ∨
  (id = .mingw ∧ c = b!"Toolchain_mingw") ∨
  ((id = .clang ∨ id = .custom) ∧ c = b!"Toolchain_custom")

/-- C66: `Toolchain_generic::New` is fatal exactly when the identifier is in use in the
storage, when the id is `Undefined`, or when the id is `Clang` or `Custom` and no executables
are given. -/
theorem C66_fatal (ops : List StorageOp) (id : ToolchainId) (identifier : Str)
    (e : Option Executables) (c : Option Config) :
    newToolchain (storageAfter ops) id identifier e c = none ↔
      InUse ops identifier ∨ id = .undefined ∨ ((id = .clang ∨ id = .custom) ∧ e = none) := by
  rw [← (find_after ops identifier).2]
  cases id <;> cases e <;> simp [newToolchain, addIf]

/-- C66: otherwise the toolchain has the id, the identifier as its name and the executables
that were given, or the default ones, and it is the object that `Ref` of the identifier
returns until the next `Clear`, when it is asked for with the class of the toolchain. -/
theorem C66_new {ops : List StorageOp} {id : ToolchainId} {identifier : Str}
    {e : Option Executables} {c : Option Config} {t : Toolchain} {obj : Nat} {s : Storage}
    (h : newToolchain (storageAfter ops) id identifier e c = some (t, obj, s)) :
    t.id = id ∧ t.name = identifier ∧ (∀ e', e = some e' → t.executables = e') ∧
      (e = none → DefaultExe id t.executables) ∧
      ∃ typeName, ClassName id typeName ∧ s = storageAfter (ops ++ [.add identifier typeName]) ∧
        ∀ more, .clear ∉ more →
          (storageAfter (ops ++ .add identifier typeName :: more)).ref identifier typeName =
            some obj := by
  have key : ∀ (ty : Str) (t' : Toolchain),
      addIf (storageAfter ops) identifier ty t' = some (t, obj, s) →
      t' = t ∧ s = storageAfter (ops ++ [.add identifier ty]) ∧
        ∀ more, .clear ∉ more →
          (storageAfter (ops ++ .add identifier ty :: more)).ref identifier ty = some obj := by
    intro ty t' h'
    rw [addIf] at h'
    split at h'
    · simp at h'
    · rename_i hc
      simp only [Option.some.injEq, Prod.mk.injEq] at h'
      obtain ⟨h1, rfl, rfl⟩ := h'
      refine ⟨h1, (after_snoc ops (.add identifier ty)).symm, fun more hm => C42_add_partial ops more _ _ ?_ hm⟩
      rwa [← (find_after ops identifier).2]
  cases id with
  | undefined => simp [newToolchain] at h
  | gcc =>
    obtain ⟨rfl, hs⟩ := key _ _ h
    exact ⟨rfl, rfl, fun _ he => by rw [he]; rfl,
      fun he => .inl ⟨.inl rfl, by rw [he]; rfl⟩, _, by simp [ClassName], hs⟩
  | mingw =>
    obtain ⟨rfl, hs⟩ := key _ _ h
    exact ⟨rfl, rfl, fun _ he => by rw [he]; rfl,
      fun he => .inl ⟨.inr rfl, by rw [he]; rfl⟩, _, by simp [ClassName], hs⟩
  | msvc =>
    obtain ⟨rfl, hs⟩ := key _ _ h
    exact ⟨rfl, rfl, fun _ he => by rw [he]; rfl, fun he => .inr ⟨rfl, by rw [he]; rfl⟩, _, by simp [ClassName], hs⟩
  | clang =>
    cases e with
    | none => simp [newToolchain] at h
    | some e =>
      obtain ⟨rfl, hs⟩ := key _ _ h
      exact ⟨rfl, rfl, fun _ he => by simpa [toolchainCustom, Toolchain.base,
        Toolchain.initialize] using he, by simp, _, by simp [ClassName], hs⟩
  | custom =>
    cases e with
    | none => simp [newToolchain] at h
    | some e =>
      obtain ⟨rfl, hs⟩ := key _ _ h
      exact ⟨rfl, rfl, fun _ he => by simpa [toolchainCustom, Toolchain.base,
        Toolchain.initialize] using he, by simp, _, by simp [ClassName], hs⟩

example : ∃ t s, newToolchain (storageAfter [.add b!"a" b!"int"]) .gcc b!"gcc" none none =
    some (t, 1, s) ∧ t.executables.cppCompiler = b!"g++" := ⟨_, _, rfl, rfl⟩

example : newToolchain (storageAfter [.add b!"gcc" b!"int"]) .gcc b!"gcc" none none = none := by
  decide

end Verif.Toolchain
