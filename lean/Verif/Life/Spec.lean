import Verif.Life.Model

/-! # Lifetimes, in terms of the text of what was executed -/

namespace Verif.Life

/-- The event creates an object. -/
def Ev.creates : Ev → Bool
  | .create .. => true
  | _ => false

/-- The number of objects created. -/
def created (p : List Ev) : Nat := p.countP Ev.creates

/-- The object `x` was created in `p`, by this event, and `b` is what happened since. -/
def CreatedBy (p : List Ev) (x : Nat) (o : Obj) (stored : Bool) (b : List Ev) : Prop :=
  ∃ a, p = a ++ .create o stored :: b ∧ created a = x

/-- Since then no function has ended other than those that began since then: the function in which we were
has not ended. -/
def Open (b : List Ev) : Prop := ∀ b1 b2, b = b1 ++ b2 → b1.count .leave ≤ b1.count .enter

/-- The lifetime of an object: of a local one until its function ends, of a stored one until the storage is
cleared. -/
def Alive (p : List Ev) (x : Nat) : Prop :=
  ∃ o b, (CreatedBy p x o false b ∧ Open b) ∨ (CreatedBy p x o true b ∧ .clear ∉ b)

/-- From its constructor on, an object refers to another: infos and targets to their toolchain, plugins to
their targets. -/
inductive Holds : Obj → Nat → Prop where
  | info (tc : Nat) : Holds (.info tc) tc
  | target (tc : Nat) : Holds (.target tc) tc
  | plugin {ts : List Nat} {t : Nat} : t ∈ ts → Holds (.plugin ts) t

/-- The constructor reads the other object: the toolchain. -/
inductive ReadsFirst : Obj → Nat → Prop where
  | info (tc : Nat) : ReadsFirst (.info tc) tc
  | target (tc : Nat) : ReadsFirst (.target tc) tc

/-- The object `o` refers to `x`. -/
def Refers (p : List Ev) (o x : Nat) : Prop :=
  .keep o x ∈ p ∨ ∃ ob stored b, CreatedBy p o ob stored b ∧ Holds ob x

/-- The event may use the object `x`, after `p`. -/
def Uses (p : List Ev) : Ev → Nat → Prop
  | .create o _, x => ReadsFirst o x
  | .call o deep args, x => x = o ∨ x ∈ args ∨ deep = true ∧ Refers p o x
  | .keep o _, x => x = o
  | .prepare o deep, x => x = o ∨ deep = true ∧ Refers p o x
  | .build o, x => x = o
  | .test t _, x => x = t
  | .run plugins, x =>
    (∃ o, .build o ∈ p ∧ (x = o ∨ (∃ deep, .prepare o deep ∈ p) ∧ Refers p o x)) ∨
      (∃ o ∈ plugins, x = o ∨ Refers p o x) ∨
      ∃ t outs, .test t outs ∈ p ∧ (x = t ∨ x ∈ outs)
  | _, _ => False

/-- The script uses every object only during its lifetime. -/
def Sound (l : List Ev) : Prop := ∀ p e s, l = p ++ e :: s → ∀ x, Uses p e x → Alive p x

end Verif.Life
