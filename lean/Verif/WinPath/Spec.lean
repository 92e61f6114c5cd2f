import Verif.Path.Spec

/-! # Vocabulary for the properties of paths on Windows -/

namespace Verif.WinPath
open Verif

/-- The two bytes are both separators, or the same. -/
def SameByte (a b : UInt8) : Prop := a = b ∨ ((a = c!"/" ∨ a = c!"\\") ∧ (b = c!"/" ∨ b = c!"\\"))

/-- The two texts differ only in the separators: one may have `/` where the other has `\`. -/
def SameSpelling : Str → Str → Prop
  | [], [] => True
  | a :: s, b :: t => SameByte a b ∧ SameSpelling s t
  | _, _ => False

instance (a b : UInt8) : Decidable (SameByte a b) := by unfold SameByte; infer_instance

instance SameSpelling.dec : (s t : Str) → Decidable (SameSpelling s t)
  | [], [] => isTrue trivial
  | _ :: _, [] => isFalse id
  | [], _ :: _ => isFalse id
  | a :: s, b :: t =>
    match (inferInstance : Decidable (SameByte a b)), SameSpelling.dec s t with
    | isTrue h, isTrue h' => isTrue ⟨h, h'⟩
    | isFalse h, _ => isFalse fun x => h x.1
    | _, isFalse h => isFalse fun x => h x.2

/-- `p` is a path below directory `dir`, whichever separators are used: up to those it is `dir`, a separator,
and then a text without any `..` component. -/
def Inside (dir p : Str) : Prop :=
  ∃ t, (SameSpelling p (dir ++ b!"/" ++ t) ∨
      ((dir.getLast? = some c!"/" ∨ dir.getLast? = some c!"\\") ∧ SameSpelling p (dir ++ t))) ∧
    Path.dotdot ∉ Path.splitSlash t

end Verif.WinPath
