import Mathlib.Analysis.SpecialFunctions.Complex.Arg
import Mathlib.Analysis.SpecialFunctions.Trigonometric.Inverse
/-
Model of the vector utilities on the sphere.

Source: /repo/lib/libfrencutils/mosaic_util.c `latlon2xyz` 212-222, `xyz2latlon` 228-253, `vect_cross` 888-895, `dot`
903-908, `metric` 911-913, `intersect_tri_with_line` 967-1004, `mult` 1008-1014, `invert_matrix_3x3` 1018-1046,
`samePoint` 1208-1214, `is_near_pole` 1653-1662, `set_the_rotation_matrix` 1693-1705, `rotate_point` 1708-1720,
`rotate_poly` 1724-1734; /repo/lib/libfrencutils/create_xgrid.c `line_intersect_2D_3D` 1935-2097.

Simplifications: `double` and `long double` are an ordered field for the linear algebra and the real numbers where
roots and angles occur. Thresholds are parameters (`eps15` is EPSLN15 and so on). `atan2(y, x)` is the argument of
the complex number `x + y i`, `asin` and the trigonometric functions are the real ones.
-/
namespace Verif.Vec3

/-! ### Linear algebra -/

section field
variable {K : Type} [Field K] [LinearOrder K]

/-- An array of three `double`. -/
abbrev V (K : Type) := Fin 3 → K
/-- An array of nine `long double`. -/
abbrev M (K : Type) := Fin 9 → K

/-- 1021-1023 -/
def det3 (m : M K) : K :=
  m 0 * (m 4 * m 8 - m 5 * m 7) - m 1 * (m 3 * m 8 - m 5 * m 6) + m 2 * (m 3 * m 7 - m 4 * m 6)

/-- `invert_matrix_3x3`; `none` is the return value 0. -/
def invert3 (eps15 : K) (m : M K) : Option (M K) :=
  if |det3 m| < eps15 then none
  else
    let deti := 1 / det3 m
    some ![(m 4 * m 8 - m 5 * m 7) * deti, (m 2 * m 7 - m 1 * m 8) * deti, (m 1 * m 5 - m 2 * m 4) * deti,
      (m 5 * m 6 - m 3 * m 8) * deti, (m 0 * m 8 - m 2 * m 6) * deti, (m 2 * m 3 - m 0 * m 5) * deti,
      (m 3 * m 7 - m 4 * m 6) * deti, (m 1 * m 6 - m 0 * m 7) * deti, (m 0 * m 4 - m 1 * m 3) * deti]

/-- `mult` -/
def mult (m : M K) (v : V K) : V K :=
  ![m 0 * v 0 + m 1 * v 1 + m 2 * v 2, m 3 * v 0 + m 4 * v 1 + m 5 * v 2, m 6 * v 0 + m 7 * v 1 + m 8 * v 2]

/-- The matrix 981-983 -/
def triMatrix (p0 p1 p2 l1 l2 : V K) : M K :=
  ![l1 0 - l2 0, p1 0 - p0 0, p2 0 - p0 0,
    l1 1 - l2 1, p1 1 - p0 1, p2 1 - p0 1,
    l1 2 - l2 2, p1 2 - p0 2, p2 2 - p0 2]

/-- `intersect_tri_with_line`; the result is `(t, p[0], p[1])`, `none` is the return value 0. -/
def intersectTri (eps15 : K) (p0 p1 p2 l1 l2 : V K) : Option (K × K × K) :=
  match invert3 eps15 (triMatrix p0 p1 p2 l1 l2) with
  | none => none
  | some r =>
    let x := mult r ![l1 0 - p0 0, l1 1 - p0 1, l1 2 - p0 2]
    some (x 0, x 1, x 2)

/-- `vect_cross` -/
def cross (p q : V K) : V K := ![p 1 * q 2 - p 2 * q 1, p 2 * q 0 - p 0 * q 2, p 0 * q 1 - p 1 * q 0]

/-- `dot` -/
def dot (p q : V K) : K := p 0 * q 0 + p 1 * q 1 + p 2 * q 2

/-- `samePoint` -/
def samePoint (eps10 : K) (p q : V K) : Bool :=
  if |p 0 - q 0| > eps10 ∨ |p 1 - q 1| > eps10 ∨ |p 2 - q 2| > eps10 then false else true

/-- 2017-2018, 2045-2046: a parameter near an end is set to the end. -/
def snap (eps8 u : K) : K :=
  let u1 := if |u| < eps8 then 0 else u
  if |u1 - 1| < eps8 then 1 else u1

end field

/-! ### Great circle arcs -/

noncomputable section

/-- `metric` -/
def metric (p : V ℝ) : ℝ := Real.sqrt (p 0 * p 0 + p 1 * p 1 + p 2 * p 2)

/-- What `line_intersect_2D_3D` returns through its pointers. -/
structure Hit where
  point : V ℝ
  ua : ℝ
  uq : ℝ
  inbound : Nat

/-- 2073-2091 -/
def inboundOf (a1 a2 q1 q2 q3 : V ℝ) (uq : ℝ) : Nat :=
  if uq ≠ 0 ∧ uq ≠ 1 then
    let sense := dot (cross (q2 - q1) (q3 - q2)) (cross (q2 - q1) (a2 - a1))
    if sense > 0 then 2 else 1
  else 0

/-- `line_intersect_2D_3D`; `none` is the return value 0. -/
def lineIntersect (eps8 eps10 eps15 eps30 : ℝ) (a1 a2 q1 q2 q3 : V ℝ) : Option Hit :=
  if samePoint eps10 a1 q1 then some ⟨a1, 0, 0, 0⟩
  else if samePoint eps10 a1 q2 then some ⟨a1, 0, 1, 0⟩
  else if samePoint eps10 a2 q1 then some ⟨a2, 1, 0, 0⟩
  else if samePoint eps10 a2 q2 then some ⟨a2, 1, 1, 0⟩
  else
    match intersectTri eps15 q1 q2 0 a1 a2 with
    | none => none
    | some (ta, _, _) =>
      let ua := snap eps8 ta
      if ua < 0 ∨ ua > 1 then none
      else
        match intersectTri eps15 a1 a2 0 q1 q2 with
        | none => none
        | some (tq, _, _) =>
          let uq := snap eps8 tq
          if uq < 0 ∨ uq > 1 then none
          else if |metric (cross (cross a1 a2) (cross q1 q2))| < eps30 then none
          else
            let p : V ℝ := ![a1 0 + ua * (a2 0 - a1 0), a1 1 + ua * (a2 1 - a1 1), a1 2 + ua * (a2 2 - a1 2)]
            let norm := metric p
            some ⟨![p 0 / norm, p 1 / norm, p 2 / norm], ua, uq, inboundOf a1 a2 q1 q2 q3 uq⟩

/-! ### Longitude, latitude and the rotation -/

/-- `latlon2xyz` for one point -/
def toXyz (lon lat : ℝ) : V ℝ := ![Real.cos lat * Real.cos lon, Real.cos lat * Real.sin lon, Real.sin lat]

/-- `atan2(y, x)` -/
def atan2 (y x : ℝ) : ℝ := Complex.arg ⟨x, y⟩

/-- `xyz2latlon` for one point -/
def toLonLat (eps10 : ℝ) (v : V ℝ) : ℝ × ℝ :=
  let dist := Real.sqrt (v 0 * v 0 + v 1 * v 1 + v 2 * v 2)
  let xx := v 0 / dist
  let yy := v 1 / dist
  let zz := v 2 / dist
  let lon := if |xx| + |yy| < eps10 then 0 else atan2 yy xx
  let lat := Real.arcsin zz
  (if lon < 0 then 2 * Real.pi + lon else lon, lat)

/-- `set_the_rotation_matrix`; `M_SQRT1_2` is the root of one half. -/
def rotation : Fin 3 → Fin 3 → ℝ :=
  ![![0, -Real.sqrt (1 / 2), Real.sqrt (1 / 2)],
    ![Real.sqrt (1 / 2), 1 / 2, 1 / 2],
    ![-Real.sqrt (1 / 2), 1 / 2, 1 / 2]]

/-- `rotate_point` -/
def rotatePoint (m : Fin 3 → Fin 3 → ℝ) (v : V ℝ) : V ℝ :=
  fun i => m i 0 * v 0 + m i 1 * v 1 + m i 2 * v 2

/-- `rotate_poly` for the vertices `(x[i], y[i])` -/
def rotatePoly (eps10 : ℝ) (l : List (ℝ × ℝ)) : List (ℝ × ℝ) :=
  l.map fun p => toLonLat eps10 (rotatePoint rotation (toXyz p.1 p.2))

/-- `is_near_pole` on the latitudes -/
def isNearPole (threshold : ℝ) (lats : List ℝ) : Prop := ∃ y ∈ lats, |y| + threshold > Real.pi / 2

end

end Verif.Vec3
