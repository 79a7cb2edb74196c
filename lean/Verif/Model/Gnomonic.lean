import Verif.Model.CubeGrid
/-
Model of the corners of the six tiles of a gnomonic cubed sphere grid.

Source: /repo/src/make-hgrid/create_gnomonic_cubic_grid.c `create_gnomonic_cubic_grid` 329-349, `gnomonic_ed` 1465-1538,
`mirror_latlon` 1571-1588, `symm_ed` 1596-1631, `mirror_grid` 1637-1751, `rot_3d` 1759-1805, `cartesian_to_spherical`
1811-1822, `spherical_to_cartesian` 1829-1835.

Simplifications: `double` is a real number and the thresholds are parameters. Loops whose iterations write disjoint
elements are functions of the indices `j` and `i` of an element; `n` is `ni`. Elements which are written and
then overwritten before they are read (north and east edges in `gnomonic_ed`) are left out. Only `gnomonic_ed` is modelled, because
the two other grid types stop with an error.
-/
namespace Verif.Gnomonic

open Verif.Vec3 Verif.CubeGrid

noncomputable section

/-! ### First tile -/

/-- `rsq3` -/
def rsq3 : ℝ := 1 / Real.sqrt 3

/-- `alpha` -/
def alpha : ℝ := Real.arcsin rsq3

/-- West edge, 1482 and 1484 -/
def west (n j : Nat) : LonLat := (0.75 * Real.pi, -alpha + 2 * alpha / n * j)

/-- East edge, 1483 and 1485 -/
def east (n j : Nat) : LonLat := (1.25 * Real.pi, -alpha + 2 * alpha / n * j)

/-- `mirror_latlon` -/
def mirrorLatLon (eps10 : ℝ) (q1 q2 q0 : LonLat) : LonLat :=
  let nb := cross (xyz q1) (xyz q2)
  let len := Real.sqrt (nb 0 * nb 0 + nb 1 * nb 1 + nb 2 * nb 2)
  let nb : V ℝ := ![nb 0 / len, nb 1 / len, nb 2 / len]
  let p0 := xyz q0
  let pdot := p0 0 * nb 0 + p0 1 * nb 1 + p0 2 * nb 2
  toLonLat eps10 ![p0 0 - 2 * pdot * nb 0, p0 1 - 2 * pdot * nb 1, p0 2 - 2 * pdot * nb 2]

/-- South edge without its ends, 1490-1492 -/
def south (eps10 : ℝ) (n i : Nat) : LonLat := mirrorLatLon eps10 (west n 0) (east n n) (west n i)

/-- `y` of a point mapped to the cube, 1512 and 1518 -/
def onCubeY (p : LonLat) : ℝ := -(xyz p 1) * rsq3 / xyz p 0

/-- `z` of a point mapped to the cube, 1513 and 1519 -/
def onCubeZ (p : LonLat) : ℝ := -(xyz p 2) * rsq3 / xyz p 0

/-- `(y[i], z[i])`: the south edge, with corners which are not mapped -/
def southYZ (eps10 : ℝ) (n i : Nat) : ℝ × ℝ :=
  if i = 0 then (xyz (west n 0) 1, xyz (west n 0) 2)
  else if i = n then (xyz (east n 0) 1, xyz (east n 0) 2)
  else (onCubeY (south eps10 n i), onCubeZ (south eps10 n i))

/-- `(y[j*nip], z[j*nip])`: the west edge -/
def westYZ (n j : Nat) : ℝ × ℝ :=
  if j = 0 ∨ j = n then (xyz (west n j) 1, xyz (west n j) 2) else (onCubeY (west n j), onCubeZ (west n j))

/-- `(y[j*nip+i], z[j*nip+i])` after 1525-1530 -/
def cubeYZ (eps10 : ℝ) (n j i : Nat) : ℝ × ℝ :=
  if j = 0 then southYZ eps10 n i
  else if i = 0 then westYZ n j
  else ((southYZ eps10 n i).1, (westYZ n j).2)

/-- `gnomonic_ed` -/
def gnomonicEd (eps10 : ℝ) (n j i : Nat) : LonLat :=
  toLonLat eps10 ![-rsq3, (cubeYZ eps10 n j i).1, (cubeYZ eps10 n j i).2]

/-! ### Symmetry -/

/-- 1604-1605 -/
def symmCopy (n : Nat) (lam : Nat → Nat → ℝ) (j i : Nat) : ℝ :=
  if 1 ≤ j ∧ 1 ≤ i ∧ i < n then lam 0 i else lam j i

/-- Longitudes, 1607-1612 -/
def symmLamI (n : Nat) (lam : Nat → Nat → ℝ) (j i : Nat) : ℝ :=
  if i < n / 2 then 0.5 * (lam j i - lam j (n - i)) + Real.pi
  else if n - i < n / 2 then Real.pi - 0.5 * (lam j (n - i) - lam j i)
  else lam j i

/-- Latitudes, 1613-1615 -/
def symmTheI (n : Nat) (the : Nat → Nat → ℝ) (j i : Nat) : ℝ :=
  if i < n / 2 then 0.5 * (the j i + the j (n - i))
  else if n - i < n / 2 then 0.5 * (the j (n - i) + the j i)
  else the j i

/-- Longitudes, 1620-1625 -/
def symmLamJ (n : Nat) (lam : Nat → Nat → ℝ) (j i : Nat) : ℝ :=
  if 1 ≤ i ∧ i < n then
    if j < n / 2 then 0.5 * (lam j i + lam (n - j) i)
    else if n - j < n / 2 then 0.5 * (lam (n - j) i + lam j i)
    else lam j i
  else lam j i

/-- Latitudes, 1626-1628 -/
def symmTheJ (n : Nat) (the : Nat → Nat → ℝ) (j i : Nat) : ℝ :=
  if 1 ≤ i ∧ i < n then
    if j < n / 2 then 0.5 * (the j i - the (n - j) i)
    else if n - j < n / 2 then -(0.5 * (the (n - j) i - the j i))
    else the j i
  else the j i

/-- `xc` of the first tile before `mirror_grid`, 331-336 -/
def lonBefore (eps10 : ℝ) (n : Nat) : Nat → Nat → ℝ := fun j i =>
  symmLamJ n (symmLamI n (symmCopy n fun j i => (gnomonicEd eps10 n j i).1)) j i - Real.pi

/-- `yc` of the first tile before `mirror_grid` -/
def latBefore (eps10 : ℝ) (n : Nat) : Nat → Nat → ℝ :=
  symmTheJ n (symmTheI n fun j i => (gnomonicEd eps10 n j i).2)

/-- `a >= 0 ? 1 : -1` -/
def sign (a : ℝ) : ℝ := if a ≥ 0 then 1 else -1

/-- 1648-1658 for one of the arrays: the mean of the sizes at four points with the sign at this point. -/
def mean4 (n : Nat) (x : Nat → Nat → ℝ) (j i : Nat) : ℝ :=
  0.25 * (|x j i| + |x j (n - i)| + |x (n - j) i| + |x (n - j) (n - i)|) * sign (x j i)

/-- First tile after 1644-1668. `nip%2` is 1 if `n` is even, and `(nip-1)/2` is `n/2`. -/
def tile1 (eps10 : ℝ) (n j i : Nat) : LonLat :=
  (if n % 2 = 0 ∧ i = n / 2 then 0 else mean4 n (lonBefore eps10 n) j i, mean4 n (latBefore eps10 n) j i)

/-! ### The other tiles -/

/-- `spherical_to_cartesian` -/
def sphToCart (lon lat r : ℝ) : V ℝ :=
  ![r * Real.cos lon * Real.cos lat, r * Real.sin lon * Real.cos lat, -r * Real.sin lat]

/-- `cartesian_to_spherical`; the result is `(lon, lat, r)`. -/
def cartToSph (eps10 : ℝ) (v : V ℝ) : ℝ × ℝ × ℝ :=
  let r := Real.sqrt (v 0 * v 0 + v 1 * v 1 + v 2 * v 2)
  (if |v 0| + |v 1| < eps10 then 0 else atan2 (v 1) (v 0), Real.arccos (v 2 / r) - Real.pi / 2, r)

/-- The three axes of `rot_3d` -/
inductive Axis where
  | one | two | three

/-- `rot_3d` with `degrees` and `convert` set. `D2R` is `π/180`. -/
def rot3d (eps10 : ℝ) (axis : Axis) (q : ℝ × ℝ × ℝ) (angle : ℝ) : ℝ × ℝ × ℝ :=
  let v := sphToCart q.1 q.2.1 q.2.2
  let c := Real.cos (angle * (Real.pi / 180))
  let s := Real.sin (angle * (Real.pi / 180))
  cartToSph eps10 <| match axis with
    | .one => ![v 0, c * v 1 + s * v 2, -s * v 1 + c * v 2]
    | .two => ![c * v 0 - s * v 2, v 1, s * v 0 + c * v 2]
    | .three => ![c * v 0 + s * v 1, -s * v 0 + c * v 1, v 2]

/-- Corner `(j, i)` of tile `t` (from 0) after `mirror_grid`, from the same corner `p` of the first tile. -/
def tileOf (eps10 radius : ℝ) (n t : Nat) (p : LonLat) (j i : Nat) : LonLat :=
  let q := (p.1, p.2, radius)
  let mid := n / 2
  match t with
  | 0 => p
  | 1 =>
    let a := rot3d eps10 .three q (-90)
    (a.1, a.2.1)
  | 2 =>
    let a := rot3d eps10 .one (rot3d eps10 .three q (-90)) 90
    if n % 2 = 0 then
      if i = mid ∧ i = j then (0, Real.pi * 0.5)
      else if j = mid ∧ i < mid then (0, a.2.1)
      else if j = mid ∧ i > mid then (Real.pi, a.2.1)
      else (a.1, a.2.1)
    else (a.1, a.2.1)
  | 3 =>
    let a := rot3d eps10 .one (rot3d eps10 .three q (-180)) 90
    if n % 2 = 0 ∧ j = mid then (Real.pi, a.2.1) else (a.1, a.2.1)
  | 4 =>
    let a := rot3d eps10 .two (rot3d eps10 .three q 90) 90
    (a.1, a.2.1)
  | _ =>
    let a := rot3d eps10 .three (rot3d eps10 .two q 90) 0
    if n % 2 = 0 then
      if i = mid ∧ i = j then (0, -Real.pi * 0.5)
      else if i = mid ∧ j > mid then (0, a.2.1)
      else if i = mid ∧ j < mid then (Real.pi, a.2.1)
      else (a.1, a.2.1)
    else (a.1, a.2.1)

/-- 343-349; `shift` means that neither transformation is requested and `shift_fac > EPSLN4`. -/
def clean (eps10 : ℝ) (shift : Bool) (p : LonLat) : LonLat :=
  let x := if shift then p.1 - Real.pi / 18 else p.1
  let x := if x < 0 then x + 2 * Real.pi else x
  (if |x| < eps10 then 0 else x, if |p.2| < eps10 then 0 else p.2)

/-- Corner `(j, i)` of tile `t` before edges are made consistent -/
def corner (eps10 radius : ℝ) (shift : Bool) (n t j i : Nat) : LonLat :=
  clean eps10 shift (tileOf eps10 radius n t (tile1 eps10 n j i) j i)

/-- The arrays `xc` and `yc` -/
def corners (eps10 radius : ℝ) (shift : Bool) (n k : Nat) : LonLat :=
  corner eps10 radius shift n (k / ((n + 1) * (n + 1))) (k % ((n + 1) * (n + 1)) / (n + 1)) (k % (n + 1))

end

end Verif.Gnomonic
