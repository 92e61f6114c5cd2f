import Verif.Toolchain.CreateProps

/-! # The configuration of a toolchain, whatever is supplied (C49) -/

namespace Verif.Toolchain
open Verif Verif.Target

/-- The configuration of an id, in words: the usual extensions of sources and headers, and the extensions of
objects and compiled headers and the options for directories of MSVC, or else of GCC. -/
def ConfigOf (id : ToolchainId) (c : Config) : Prop :=
  c.validC = [b!".c"] ∧ c.validCpp = [b!".cpp", b!".cxx", b!".cc"] ∧
  c.validAsm = [b!".s", b!".S", b!".asm"] ∧ c.validHeader = [b!".h", b!".hpp"] ∧ c.pchHeaderExt = b!".h" ∧
  ((id = .msvc ∧ c.objExt = b!".obj" ∧ c.pchCompileExt = b!".pch" ∧ c.prefixIncludeDir = b!"/I" ∧
      c.prefixLibDir = b!"/LIBPATH:") ∨
    (id ≠ .msvc ∧ c.objExt = b!".o" ∧ c.pchCompileExt = b!".gch" ∧ c.prefixIncludeDir = b!"-I" ∧
      c.prefixLibDir = b!"-L"))

/-- **C49, exactly**: a toolchain always has the configuration of its id, so it has the one that is supplied if
and only if that is the configuration of its id. -/
theorem C49_exact {id : ToolchainId} {n : Str} {e : Option Executables} {c : Option Config} {t : Toolchain}
    (h : Made id n e c t) :
    ConfigOf id t.config ∧ ∀ c', c = some c' → (t.config = c' ↔ ConfigOf id c') := by
  have hg : ConfigOf id t.config := by
    rw [(C49_config_false h).1]
    cases id <;> refine ⟨rfl, rfl, rfl, rfl, rfl, ?_⟩ <;>
      first
      | exact .inl ⟨rfl, rfl, rfl, rfl, rfl⟩
      | exact .inr ⟨by decide, rfl, rfl, rfl, rfl⟩
  refine ⟨hg, fun c' _ => ⟨fun he => he ▸ hg, fun hc => ?_⟩⟩
  obtain ⟨a1, a2, a3, a4, a5, ha⟩ := hg
  obtain ⟨b1, b2, b3, b4, b5, hb⟩ := hc
  generalize t.config = d at *
  cases d
  cases c'
  simp only [Config.mk.injEq] at *
  rcases ha with ⟨i, p1, p2, p3, p4⟩ | ⟨i, p1, p2, p3, p4⟩ <;>
    rcases hb with ⟨j, q1, q2, q3, q4⟩ | ⟨j, q1, q2, q3, q4⟩
  · exact ⟨p1.trans q1.symm, a5.trans b5.symm, p2.trans q2.symm, p3.trans q3.symm, p4.trans q4.symm,
      a1.trans b1.symm, a2.trans b2.symm, a3.trans b3.symm, a4.trans b4.symm⟩
  · exact absurd i j
  · exact absurd j i
  · exact ⟨p1.trans q1.symm, a5.trans b5.symm, p2.trans q2.symm, p3.trans q3.symm, p4.trans q4.symm,
      a1.trans b1.symm, a2.trans b2.symm, a3.trans b3.symm, a4.trans b4.symm⟩

/-- Instance: a Clang toolchain made with another extension for objects. -/
example : Made .clang b!"clang" (some ⟨b!"as", b!"clang", b!"clang++", b!"ar", b!"ld"⟩)
      (some { objExt := b!".obj" })
      (toolchainCustom .clang b!"clang" ⟨b!"as", b!"clang", b!"clang++", b!"ar", b!"ld"⟩
        (some { objExt := b!".obj" })) ∧
    ¬ ConfigOf .clang { objExt := b!".obj" } ∧ ConfigOf .clang {} ∧ ¬ ConfigOf .msvc {} := by
  refine ⟨.custom .., ?_, ?_, ?_⟩
  · rintro ⟨-, -, -, -, -, ⟨h, -⟩ | ⟨-, h, -⟩⟩
    · exact absurd h (by decide)
    · exact absurd h (by decide)
  · exact ⟨rfl, rfl, rfl, rfl, rfl, .inr ⟨by decide, rfl, rfl, rfl, rfl⟩⟩
  · rintro ⟨-, -, -, -, -, ⟨-, h, -⟩ | ⟨h, -⟩⟩
    · exact absurd h (by decide)
    · exact h rfl

end Verif.Toolchain
