import Verif.Path.Props

/-! # C54: which builders have the same identifier -/

namespace Verif.Path
open Verif

/-- C54, exactly: two targets have the same identifier if and only if they have the same names, or one of the
toolchain names continues the other one with `] ` and text that the other target name begins with. -/
theorem C54_id_exact (tc1 n1 tc2 n2 : Str) : targetId tc1 n1 = targetId tc2 n2 ↔
    (tc1 = tc2 ∧ n1 = n2) ∨ (∃ x, tc1 = tc2 ++ b!"] " ++ x ∧ n2 = x ++ b!"] " ++ n1) ∨
      ∃ x, tc2 = tc1 ++ b!"] " ++ x ∧ n1 = x ++ b!"] " ++ n2 := by
  have key : ∀ (a m n : Str), a ++ b!"] " ++ m = b!"] " ++ n → (a = [] ∧ m = n) ∨
      ∃ x, a = b!"] " ++ x ∧ n = x ++ b!"] " ++ m := by
    intro a m n h
    match a with
    | [] => exact .inl ⟨rfl, List.append_cancel_left h⟩
    | [c] =>
      have h1 : c :: c!"]" :: c!" " :: m = c!"]" :: c!" " :: n := h
      simp at h1
    | c :: d :: x =>
      have h1 : c :: d :: (x ++ b!"] " ++ m) = c!"]" :: c!" " :: n := h
      simp only [List.cons.injEq] at h1
      obtain ⟨rfl, rfl, h2⟩ := h1
      exact .inr ⟨x, rfl, h2.symm⟩
  constructor
  · intro h
    simp only [targetId, List.append_assoc] at h
    have h := List.append_cancel_left h
    rcases List.append_eq_append_iff.1 h with ⟨a, h1, h2⟩ | ⟨a, h1, h2⟩
    · rcases key a n2 n1 (by rw [h2, List.append_assoc]) with ⟨rfl, h3⟩ | ⟨x, rfl, h3⟩
      · exact .inl ⟨by rw [h1, List.append_nil], h3.symm⟩
      · exact .inr (.inr ⟨x, by rw [h1, List.append_assoc], h3⟩)
    · rcases key a n1 n2 (by rw [h2, List.append_assoc]) with ⟨rfl, h3⟩ | ⟨x, rfl, h3⟩
      · exact .inl ⟨by rw [h1, List.append_nil], h3⟩
      · exact .inr (.inl ⟨x, by rw [h1, List.append_assoc], h3⟩)
  · rintro (⟨rfl, rfl⟩ | ⟨x, rfl, rfl⟩ | ⟨x, rfl, rfl⟩)
    · rfl
    · simp only [targetId, List.append_assoc]
    · simp only [targetId, List.append_assoc]

example : targetId b!"a] b" b!"c" = targetId b!"a" b!"b] c" ∧ targetId b!"a]b" b!"c" ≠ targetId b!"a" b!"b]c" :=
  ⟨(C54_id_exact _ _ _ _).2 (.inr (.inl ⟨b!"b", by decide, by decide⟩)), by decide⟩

end Verif.Path
