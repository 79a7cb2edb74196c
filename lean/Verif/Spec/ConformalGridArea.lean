import Mathlib.Geometry.Euclidean.Angle.Unoriented.Basic
import Mathlib.Analysis.InnerProductSpace.PiL2
import Verif.Model.ConformalGrid
/-
Lengths and areas on the sphere, with angles between vectors as in Mathlib.
-/
noncomputable section
namespace Verif.Spec.ConformalGrid
open Verif.ConformalGrid Real

/-- A point as a vector. -/
def vec (p : Point) : EuclideanSpace ℝ (Fin 3) := !₂[p.x, p.y, p.z]

/-- Length of the arc between two points, seen from the centre of a sphere of radius 1. -/
def arc (p q : Point) : ℝ := InnerProductGeometry.angle (vec p) (vec q)

/-- Cross product. -/
def cross (p q : Point) : Point := ⟨p.y * q.z - p.z * q.y, p.z * q.x - p.x * q.z, p.x * q.y - p.y * q.x⟩

/-- Angle at `q` between the arcs to `p` and to `r`: the angle between their planes. -/
def corner (p q r : Point) : ℝ := arc (cross q p) (cross q r)

/-- Area of a quadrilateral of arcs on a sphere of radius 1: by how much its four angles exceed two right angles times two. -/
def quad (a b c d : Point) : ℝ := corner d a b + corner a b c + corner b c d + corner c d a - 2 * π

/-- The point of the face in row `j` and column `i` of lines, `m` cells in each direction from -1 to 1. -/
def facePoint (m j i : Nat) : Point := mapXyz (-1 + 2 * (i : ℝ) / m) (-1 + 2 * (j : ℝ) / m)

end Verif.Spec.ConformalGrid
