import Verif.Env.Storage

/-! # Specification of the storage (C42, C43) -/

namespace Verif.Env
open Verif

/-- The number of calls of `Add` in a history.  The object made by the call of `Add` after
the history `a` is number `adds a`. -/
def adds (ops : List StorageOp) : Nat :=
  (ops.filter fun o => match o with | .add _ _ => true | .clear => false).length

/-- `id` has been added since the last `Clear`. -/
def InUse (ops : List StorageOp) (id : Str) : Prop :=
  ∃ a b t, ops = a ++ b ∧ .clear ∉ b ∧ .add id t ∈ b

/-- `n` is the object, of type `t`, that was added first under `id` since the last
`Clear`. -/
def FirstAdd (ops : List StorageOp) (id t : Str) (n : Nat) : Prop :=
  ∃ a b, ops = a ++ .add id t :: b ∧ n = adds a ∧ .clear ∉ b ∧ ¬ InUse a id

/-- No identifier is added again before the next `Clear`. -/
def NoReuse (ops : List StorageOp) : Prop :=
  ∀ a id t b, ops = a ++ .add id t :: b → ¬ InUse a id

end Verif.Env
