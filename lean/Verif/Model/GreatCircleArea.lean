import Verif.Model.Bilinear
/-
Areas and the inside test of the great circle algorithm: /repo/lib/libfrencutils/mosaic_util.c `great_circle_area` 763-790, `spherical_angle` 801-840
(`sphericalAngle` in Model/Bilinear), `spherical_excess_area` 846-886, `gridArea` 1396-1416, `addEnd` 1095-1130 as far as points go, `insidePolygon` 1545-1589;
/repo/lib/libfrencutils/create_xgrid.c `get_grid_great_circle_area` 114-153, the test for convex cells 1591-1595.

Simplifications: real numbers; vertices as a list; the pool of nodes is in Model/NodePool. `eps30` is EPSLN30, `eps8` EPSLN8, `eps10` EPSLN10 (of `samePoint`).
-/
namespace Verif.GcArea
open Verif.Vec3 Verif.Bilinear

noncomputable section

/-- Vertex `i` of a cell. -/
def vtx (l : List (V ℝ)) (i : Nat) : V ℝ := l.getD i 0

/-- The sum of the angles, 769-786. -/
def angleSum (eps30 : ℝ) (l : List (V ℝ)) : ℝ :=
  (List.range l.length).foldl (fun s i => s + sphericalAngle eps30 (vtx l ((i + 1) % l.length)) (vtx l ((i + 2) % l.length)) (vtx l i)) 0

/-- `great_circle_area`; `R` is RADIUS. -/
def area (eps30 R : ℝ) (l : List (V ℝ)) : ℝ := (angleSum eps30 l - ((l.length : ℝ) - 2) * Real.pi) * R * R

/-- `gridArea`: the arrays have 20 elements, `none` if there are more vertices. -/
def gridArea (eps30 R : ℝ) (l : List (V ℝ)) : Option ℝ := if l.length ≤ 20 then some (area eps30 R l) else none

/-- `addEnd`: a point that is there already is not added. -/
def addEnd (eps10 : ℝ) (l : List (V ℝ)) (p : V ℝ) : List (V ℝ) := if l.any (fun q => samePoint eps10 q p) then l else l ++ [p]

/-- One cell of `get_grid_great_circle_area`: 130-144. -/
def cellArea (eps10 eps30 R : ℝ) (nx : Nat) (xyz : Nat → V ℝ) (j i : Nat) : Option ℝ :=
  gridArea eps30 R ([xyz (j * (nx + 1) + i), xyz ((j + 1) * (nx + 1) + i), xyz ((j + 1) * (nx + 1) + i + 1), xyz (j * (nx + 1) + i + 1)].foldl (addEnd eps10) [])

/-- The test for convex cells, 1591-1595: `false` ends the program. -/
def convexTest (eps30 R : ℝ) (l : List (V ℝ)) : Bool := match gridArea eps30 R l with | some a => decide (0 < a) | none => false

/-- `spherical_excess_area`, corners as points (`latlon2xyz`). -/
def excessArea (eps30 radius : ℝ) (ll ul lr ur : V ℝ) : ℝ :=
  let ang1 := sphericalAngle eps30 ll lr ul
  let ang2 := sphericalAngle eps30 lr ur ll
  let ang3 := sphericalAngle eps30 ur ul lr
  let ang4 := sphericalAngle eps30 ul ur ll
  (ang1 + ang2 + ang3 + ang4 - 2 * Real.pi) * radius * radius

/-- The loop of `insidePolygon` 1563-1576 over the nodes `p1`, with the first node of the list and the sum so far; `none`: the point is a vertex. -/
def angles (eps10 eps30 : ℝ) (p first : V ℝ) : List (V ℝ) → ℝ → Option ℝ
  | [], s => some s
  | a :: l, s => if samePoint eps10 p a then none else angles eps10 eps30 p first l (s + sphericalAngle eps30 p (l.headD first) a)

/-- `insidePolygon`; `none`: 1561, 1567 follow a null pointer. -/
def inside (eps8 eps10 eps30 : ℝ) (p : V ℝ) : List (V ℝ) → Option Bool
  | [] => none
  | [_] => none
  | a :: l => match angles eps10 eps30 p a (a :: l) 0 with
    | none => some true
    | some s => some (decide (|s - 2 * Real.pi| < eps8))

end

end Verif.GcArea
