import Mathlib.Analysis.SpecialFunctions.Complex.Arg
/-
Rotation angles of the cubic grids: /repo/src/make-hgrid/create_conformal_cubic_grid.c `calc_rotation_angle` 748-833 and /repo/src/make-hgrid/create_gnomonic_cubic_grid.c
`calc_rotation_angle2` 1914-2004, which does the same. The first one is called (71) when `x` and `y` are degrees, the second one (700, 1140) before they are converted from radians
(716-719, 1156-1160).

Simplifications: `double` is a real number; `atan2(y, x)` is the argument of the complex number `x + i y`, so that the two zeros of `double` are one; the arrays of all six tiles are functions
of the position in memory, which may be read outside.
-/
noncomputable section
namespace Verif.RotationAngle
open Real

/-- Position in the array: `t*nxp*nyp+j*nxp+i`, `nxp = nyp = n + 1`. -/
def pos (n : Nat) (t j i : Int) : Int := t * ((n : Int) + 1) * ((n : Int) + 1) + j * ((n : Int) + 1) + i

/-- 763-785: the point on the right, tile, row, column -/
def right (n : Nat) (t j i : Int) : Int × Int × Int :=
  if (n : Int) + 1 ≤ i + 1 then
    if t % 2 = 0 then (t + 1, j, 0) else (if 6 ≤ t + 2 then t + 2 - 6 else t + 2, 0, (n : Int) - j - 1)
  else (t, j, i + 1)

/-- 763-768, 786-797: the point on the left -/
def left (n : Nat) (t j i : Int) : Int × Int × Int :=
  if i - 1 < 0 then
    if t % 2 = 0 then (if t - 2 < 0 then t - 2 + 6 else t - 2, (n : Int), (n : Int) - j) else (t - 1, j, (n : Int))
  else (t, j, i - 1)

/-- 801-818: the point above -/
def above (n : Nat) (t j i : Int) : Int × Int × Int :=
  if (n : Int) + 1 ≤ j + 1 then
    if t % 2 = 0 then (if 6 ≤ t + 2 then t + 2 - 6 else t + 2, (n : Int) - i, 0) else (if 6 ≤ t + 1 then t + 1 - 6 else t + 1, 0, i)
  else (t, j + 1, i)

/-- 801-806, 819-831: the point below -/
def below (n : Nat) (t j i : Int) : Int × Int × Int :=
  if j - 1 < 0 then
    if t % 2 = 0 then (if t - 1 < 0 then t - 1 + 6 else t - 1, (n : Int), i) else (if t - 2 < 0 then t - 2 + 6 else t - 2, (n : Int) - i, (n : Int))
  else (t, j - 1, i)

/-- constant.h 40-41 -/
def D2R : ℝ := π / 180
def R2D : ℝ := 180 / π

def at3 (n : Nat) (a : Int → ℝ) (p : Int × Int × Int) : ℝ := a (pos n p.1 p.2.1 p.2.2)

/-- 798-799, 832-833 -/
def turn (n : Nat) (x y : Int → ℝ) (t j i : Int) (p q : Int × Int × Int) : ℝ :=
  Complex.arg ⟨(at3 n x p - at3 n x q) * cos (y (pos n t j i) * D2R), at3 n y p - at3 n y q⟩ * R2D

/-- `angle_dx` of row `j` and column `i` of tile `t` -/
def angleDx (n : Nat) (x y : Int → ℝ) (t j i : Int) : ℝ := turn n x y t j i (right n t j i) (left n t j i)

/-- `angle_dy` -/
def angleDy (n : Nat) (x y : Int → ℝ) (t j i : Int) : ℝ := turn n x y t j i (above n t j i) (below n t j i)

end Verif.RotationAngle
