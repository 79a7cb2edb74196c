import Verif.Spec.Vec3
import Mathlib.Analysis.SpecialFunctions.Trigonometric.Arctan
/-
The bipolar part of a tripolar grid (Murray, "Explicit generation of orthogonal grids for ocean models", 1996).
-/
namespace Verif.Spec.Tripolar

noncomputable section

/-- Degrees in radians -/
def radians (x : ℝ) : ℝ := x * (Real.pi / 180)

/-- The point at the angle `θ` from `(1, 0, 0)` on a half circle from `(1, 0, 0)` to `(-1, 0, 0)` and back, in a plane which is
tilted by `lam` from the vertical; the way back, `θ` above π, is on the other side. -/
def tilted (lam θ : ℝ) : Fin 3 → ℝ := ![Real.cos θ, Real.sin lam * Real.sin θ, Real.cos lam * |Real.sin θ|]

/-- Stereographic projection from the south pole to the plane of the equator -/
def stereo (v : Fin 3 → ℝ) : ℝ × ℝ := (v 0 / (1 + v 2), v 1 / (1 + v 2))

/-- The distance of latitude `y` (in radians) from the north pole in the stereographic projection -/
def polar (y : ℝ) : ℝ := Real.tan ((Real.pi / 2 - y) / 2)

/-- The tilt of the line which belongs to latitude `y`, where `rp` is the distance `polar` of the latitude where the bipolar part
starts: 90 degrees at that latitude, 0 at the north pole. -/
def tilt (rp y : ℝ) : ℝ := 2 * Real.arctan (polar y / rp)

/-- The linear scale factor of the map of the sphere to itself which multiplies the stereographic projection by `rp`, at a point
whose third component is `z` -/
def scale (rp z : ℝ) : ℝ := 2 * rp / ((1 + z) + rp ^ 2 * (1 - z))

/-- The point of the bipolar grid which belongs to `lon` and `lat`, in degrees, of a rectangular grid which starts at `start` -/
def before (start rp lon lat : ℝ) : Fin 3 → ℝ := tilted (tilt rp (radians lat)) (radians (lon - start))

/-- `v` is the point of the unit sphere to which `w` goes when the stereographic projection is multiplied by `rp`. -/
def Image (rp : ℝ) (w v : Fin 3 → ℝ) : Prop :=
  OnSphere v ∧ v 2 ≠ -1 ∧ stereo v = rp • stereo w

/-- The grid lines, in degrees, of a tripolar grid whose bipolar part starts at row `join`: one turn in the east-west direction
from `start`, in steps of at most half a turn, and rows to the north, the last of them not beyond the pole. A row which
is not at the pole must be further away from it than sixty times the threshold `small`. -/
structure Lines (nx ny : ℕ) (xb yb : ℕ → ℝ) (start small : ℝ) (join : ℕ) : Prop where
  first : xb 0 = start
  last : xb nx = start + 360
  step : ∀ i, i < nx → xb i ≤ xb (i + 1) ∧ xb (i + 1) ≤ xb i + 180
  north : ∀ j, j < ny → yb j ≤ yb (j + 1)
  top : yb ny ≤ 90
  join_le : join ≤ ny
  join_lat : 0 ≤ yb join ∧ yb join < 90
  clear : ∀ j, join ≤ j → j ≤ ny → yb j = 90 ∨ 60 * small ≤ 90 - yb j
  start_ge : -360 ≤ start
  small_pos : 0 < small
  small_le : small ≤ 1

end

end Verif.Spec.Tripolar
