import Verif.Reg.Graph

/-! # Specification of registration -/

namespace Verif.Reg
open Verif

/-- `b` is built after `a` because of a chain of one or more declared dependencies. -/
inductive Reaches (E : List (Str × Str)) : Str → Str → Prop where
  | edge {a b : Str} : (a, b) ∈ E → Reaches E a b
  | step {a b c : Str} : (a, b) ∈ E → Reaches E b c → Reaches E a c

/-- No builder waits for itself. -/
def Acyclic (E : List (Str × Str)) : Prop := ∀ a, ¬ Reaches E a a

/-- A registration that makes sense: builders and dependencies are listed once,
dependencies are between builders, tests are for builders and listed once. -/
structure Valid (g : Graph) : Prop where
  ids : g.ids.Nodup
  edges : g.edges.Nodup
  ends : ∀ e ∈ g.edges, e.1 ∈ g.ids ∧ e.2 ∈ g.ids
  tests : g.tests.Nodup
  tested : ∀ t ∈ g.tests, t ∈ g.ids

/-- The call takes effect: its condition holds. -/
def Call.enabled : Call → Bool
  | .callFunc c _ => c
  | .callBuild c _ => c
  | .func c _ => c.build
  | .build c _ => c.build
  | .dep c _ _ => c.build
  | .test c _ => c.build && c.test

/-- The call declares a builder to depend on itself. -/
def Call.selfDep : Call → Bool
  | .dep c t d => c.build && t = d
  | _ => false

end Verif.Reg
