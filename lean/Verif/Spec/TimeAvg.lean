import Mathlib.Algebra.Order.Field.Basic
/-
Specification of time averages.
-/
namespace Verif.Spec
variable {K : Type*} [Field K] [LinearOrder K] [IsStrictOrderedRing K]

/-- Sum of the weights of a list of weights and values. -/
def totalWeight (l : List (K × K)) : K := (l.map Prod.fst).sum

/-- Weighted mean of a list of weights and values. -/
def weightedMean (l : List (K × K)) : K := (l.map fun p => p.1 * p.2).sum / totalWeight l

/-- The values that are not missing. -/
def valid (m : K) (l : List (K × K)) : List (K × K) := l.filter fun p => decide (p.2 ≠ m)

end Verif.Spec
