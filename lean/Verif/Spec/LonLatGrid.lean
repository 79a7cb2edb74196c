import Mathlib.Analysis.SpecialFunctions.Trigonometric.Basic
/-
Specification for grids with straight grid lines.
-/
namespace Verif.Spec

/-- The list holds the `nj` rows of `ni` values `f j i`, row after row. -/
def RowMajor (l : List ℝ) (nj ni : Nat) (f : Nat → Nat → ℝ) : Prop :=
  l.length = nj * ni ∧ ∀ j i, j < nj → i < ni → l[j * ni + i]? = some (f j i)

end Verif.Spec
