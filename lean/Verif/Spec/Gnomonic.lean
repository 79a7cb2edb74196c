import Verif.Spec.Vec3
import Verif.Spec.Cube
import Mathlib.Analysis.SpecialFunctions.Trigonometric.Inverse
/-
The gnomonic cubed sphere: points of the cube seen from its centre.
-/
namespace Verif.Spec.Cube

noncomputable section

/-- Half the angle under which an edge of the cube is seen from the centre. -/
def halfEdge : ℝ := Real.arcsin (1 / Real.sqrt 3)

/-- The coordinate with number `k`, from 0 to `n`, on the cube with corners `(±1, ±1, ±1)`: the edge of the cube is
divided into `n` parts which are seen from the centre under equal angles. -/
def coordinate (n k : ℕ) : ℝ := Real.sqrt 2 * Real.tan ((2 * k / n - 1) * halfEdge)

/-- The point of the cube with the given three numbers -/
def cubePoint (n : ℕ) (p : ℕ × ℕ × ℕ) : Fin 3 → ℝ := ![coordinate n p.1, coordinate n p.2.1, coordinate n p.2.2]

/-- Projection to the unit sphere -/
def project (v : Fin 3 → ℝ) : Fin 3 → ℝ := fun k => v k / Real.sqrt (inner3 v v)

end

end Verif.Spec.Cube
