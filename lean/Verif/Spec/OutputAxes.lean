import Mathlib.Algebra.Field.Defs
/-
What an axis with cells should look like (C135).
-/
namespace Verif.Spec.OutputAxes

/-- `n` cells of equal width from `a` to `b` with the points in their middles. -/
def Even {K : Type} [Field K] (a b : K) (n : Nat) (mid edge : Nat → K) : Prop :=
  edge 0 = a ∧ edge n = b ∧ ∀ i < n, edge (i + 1) - edge i = (b - a) / n ∧ mid i = (edge i + edge (i + 1)) / 2

/-- Bounds in a file: `n + 1` edges, or two for each cell. -/
def HoldsEdges {K : Type} (bndtype n : Nat) (bnd edge : Nat → K) : Prop :=
  (bndtype = 1 → ∀ i ≤ n, bnd i = edge i) ∧ (bndtype = 2 ∨ bndtype = 3 → ∀ i < n, bnd (2 * i) = edge i ∧ bnd (2 * i + 1) = edge (i + 1))

end Verif.Spec.OutputAxes
