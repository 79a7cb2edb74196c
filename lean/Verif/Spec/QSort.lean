/-
Specification of sorting a part of an array.
-/
import Mathlib.Order.Defs.LinearOrder
import Mathlib.Tactic.TypeStar
import Mathlib.Logic.Equiv.Defs

namespace Verif.Spec

/-- `b` has the elements of `a` in another order; only the elements from
`start` to `stop` have moved. -/
def RearrangedOn {α : Type*} (start stop : Nat) (a b : Nat → α) : Prop :=
  ∃ σ : Equiv.Perm Nat, (∀ k, k < start ∨ stop < k → σ k = k) ∧ ∀ k, b k = a (σ k)

/-- The elements from `start` to `stop` do not decrease. -/
def SortedOn {α : Type*} [LE α] (start stop : Nat) (a : Nat → α) : Prop :=
  ∀ i j, start ≤ i → i ≤ j → j ≤ stop → a i ≤ a j

end Verif.Spec
