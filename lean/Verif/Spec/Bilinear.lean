import Mathlib.Analysis.SpecialFunctions.Trigonometric.Inverse
/-
Specification of bilinear interpolation on the sphere.
-/
namespace Verif.Spec.Bil

noncomputable section

/-- Six times the volume of the tetrahedron with the centre of the sphere and three points as corners, with sign. -/
def det (a b c : Fin 3 → ℝ) : ℝ :=
  a 0 * (b 1 * c 2 - b 2 * c 1) - a 1 * (b 0 * c 2 - b 2 * c 0) + a 2 * (b 0 * c 1 - b 1 * c 0)

/-- Length of a vector. -/
def len (a : Fin 3 → ℝ) : ℝ := √(a 0 ^ 2 + a 1 ^ 2 + a 2 ^ 2)

/-- Area of the parallelogram spanned by two vectors. -/
def area (a b : Fin 3 → ℝ) : ℝ :=
  √((a 1 * b 2 - a 2 * b 1) ^ 2 + (a 2 * b 0 - a 0 * b 2) ^ 2 + (a 0 * b 1 - a 1 * b 0) ^ 2)

/-- Sine of the angular distance of the point `p` from the great circle through `a` and `b`. -/
def sineToLine (a b p : Fin 3 → ℝ) : ℝ := |det a b p| / (area a b * len p)

/-- The point `p` is not on the great circle through `a` and `b`, nor within the tolerance of it. -/
def OffLine (eps : ℝ) (a b p : Fin 3 → ℝ) : Prop := 0 < area a b ∧ 0 < len a ∧ 0 < len p ∧ √(2 * eps) < sineToLine a b p

end

/-- Weights of a mean. -/
def IsMean {K : Type} [Zero K] [One K] [Add K] [LE K] (w : Fin 4 → K) : Prop :=
  (∀ m, 0 ≤ w m) ∧ w 0 + w 1 + w 2 + w 3 = 1

/-- Weight 1 for one cell only. -/
def unit {K : Type} [Zero K] [One K] (m : Fin 4) : Fin 4 → K := fun n => if n = m then 1 else 0

/-- Two unit vectors at right angles. -/
def Orthonormal {K : Type} [CommRing K] (e f : Fin 3 → K) : Prop :=
  e 0 ^ 2 + e 1 ^ 2 + e 2 ^ 2 = 1 ∧ f 0 ^ 2 + f 1 ^ 2 + f 2 ^ 2 = 1 ∧ e 0 * f 0 + e 1 * f 1 + e 2 * f 2 = 0

end Verif.Spec.Bil
