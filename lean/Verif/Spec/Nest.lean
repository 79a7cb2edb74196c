import Verif.Spec.Vec3
import Mathlib.Analysis.SpecialFunctions.Trigonometric.Inverse
/-
Division of arcs on the sphere, for nests.
-/
namespace Verif.Spec.Nest

open Verif.Spec

noncomputable section

/-- Angle between two points of the unit sphere. -/
def angle (a b : Fin 3 → ℝ) : ℝ := Real.arccos (inner3 a b)

/-- `v` divides the arc from `a` to `b`: its angle from `a` is the part `β` of the whole angle, and the rest is its angle
from `b`. -/
structure Divides (β : ℝ) (a b v : Fin 3 → ℝ) : Prop where
  sphere : OnSphere v
  first : angle a v = β * angle a b
  second : angle v b = (1 - β) * angle a b

/-- The point with longitude and latitude `q` divides the arc between two such points. Next to a pole, where longitudes are
set to 0, the point may be displaced by less than `2 eps`. -/
def On (eps β : ℝ) (p1 p2 q : ℝ × ℝ) : Prop :=
  ∃ v, Divides β (spherePoint p1) (spherePoint p2) v ∧ dist2 (spherePoint q) v < (2 * eps) ^ 2
    ∧ (eps ≤ |v 0| + |v 1| → spherePoint q = v)

/-- Two points which are neither too close nor opposite. -/
def Apart (e5 e8 : ℝ) (p1 p2 : ℝ × ℝ) : Prop :=
  ¬(|p1.1 - p2.1| < e8 ∧ |p1.2 - p2.2| < e8) ∧ e5 ≤ angle (spherePoint p1) (spherePoint p2)
    ∧ 0 < angle (spherePoint p1) (spherePoint p2) ∧ angle (spherePoint p1) (spherePoint p2) < Real.pi

end

end Verif.Spec.Nest
