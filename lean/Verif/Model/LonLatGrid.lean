import Verif.Model.Tripolar
import Verif.Model.PolyArea
/-
Model of the grids of make_hgrid with straight grid lines.

Source: /repo/src/make-hgrid/create_lonlat_grid.c `create_regular_lonlat_grid` 58-103, `create_simple_cartesian_grid`
118-173, `create_spectral_grid` 182-283, `set_regular_lonlat_grid` 292-349, `set_f_plane_grid` 514-557,
`create_f_plane_grid` 561-605, `cartesian_dist` 609-622, `cartesian_box_area` 625-637.

Simplifications: `double` is a real number; `RADIUS` is a parameter. The arrays `x` and `y` are filled by a counter,
`x[n] = xb[i]`, `y[n++] = yb[j]`; here they are functions of the position `n`. The notes about different resolution at
the ends and the areas with `--great_circle_algorithm` are left out.
-/
namespace Verif.LonLatGrid

open Verif.Tripolar (d2r r2d sphericalDist)

noncomputable section

/-- `x[n]`, 299-305 -/
def gx (nxp : Nat) (xb : Nat → ℝ) (n : Nat) : ℝ := xb (n % nxp)
/-- `y[n]`, 299-305 -/
def gy (nxp : Nat) (yb : Nat → ℝ) (n : Nat) : ℝ := yb (n / nxp)

/-- `for(j=j0; j<j0+nj; j++) for(i=i0; i<i0+ni; i++)` -/
def loop (j0 nj i0 ni : Nat) : List (Nat × Nat) :=
  (List.range nj).flatMap fun a => (List.range ni).map fun b => (j0 + a, i0 + b)

/-- Length, area and angle arrays, in the order of the counter `n`. -/
structure Arrays where
  dx : List ℝ
  dy : List ℝ
  area : List ℝ
  angle : List ℝ

/-- The loops of `set_regular_lonlat_grid` 307-348 and of `set_f_plane_grid` 526-555, which differ only in the functions for the
length, `len`, and for the area, `box`, of two points. `none`: "This is not rectangular grid". -/
def setGrid (len : ℝ → ℝ → ℝ → ℝ → Option ℝ) (box : ℝ → ℝ → ℝ → ℝ → ℝ) (nxp isc iec jsc jec : Nat) (xb yb : Nat → ℝ) :
    Option Arrays := do
  let x := gx nxp xb
  let y := gy nxp yb
  let dx ← (loop jsc (jec + 2 - jsc) isc (iec + 1 - isc)).mapM fun c =>
    len (x (c.1 * nxp + c.2)) (y (c.1 * nxp + c.2)) (x (c.1 * nxp + c.2 + 1)) (y (c.1 * nxp + c.2 + 1))
  let dy ← (loop jsc (jec + 1 - jsc) isc (iec + 2 - isc)).mapM fun c =>
    len (x (c.1 * nxp + c.2)) (y (c.1 * nxp + c.2)) (x ((c.1 + 1) * nxp + c.2)) (y ((c.1 + 1) * nxp + c.2))
  let area := (loop jsc (jec + 1 - jsc) isc (iec + 1 - isc)).map fun c =>
    box (x (c.1 * nxp + c.2)) (y (c.1 * nxp + c.2)) (x ((c.1 + 1) * nxp + c.2 + 1)) (y ((c.1 + 1) * nxp + c.2 + 1))
  let angle := (loop jsc (jec + 2 - jsc) isc (iec + 2 - isc)).map fun _ => 0
  pure ⟨dx, dy, area, angle⟩

/-- `set_regular_lonlat_grid` -/
def regular (radius : ℝ) : Nat → Nat → Nat → Nat → Nat → (Nat → ℝ) → (Nat → ℝ) → Option Arrays :=
  setGrid (sphericalDist radius) fun x1 y1 x2 y2 =>
    PolyArea.boxArea Real.sin Real.pi radius (x1 * d2r, y1 * d2r) (x2 * d2r, y2 * d2r)

/-- `cartesian_dist` -/
def cartesianDist (radius flat x1 y1 x2 y2 : ℝ) : Option ℝ :=
  if x1 = x2 then some (|y2 - y1| * d2r * radius)
  else if y1 = y2 then some (|x2 - x1| * d2r * radius * Real.cos (flat * d2r))
  else none

/-- `cartesian_box_area` -/
def cartesianBoxArea (radius flat x1 y1 x2 y2 : ℝ) : ℝ :=
  (x2 - x1) * d2r * ((y2 - y1) * d2r) * Real.cos (flat * d2r) * radius * radius

/-- `set_f_plane_grid` -/
def fPlane (radius flat : ℝ) : Nat → Nat → Nat → Nat → Nat → (Nat → ℝ) → (Nat → ℝ) → Option Arrays :=
  setGrid (cartesianDist radius flat) (cartesianBoxArea radius flat)

/-- The grid lines of `create_simple_cartesian_grid`, 133-144 and 146-156, with `n` cells between two bounds -/
def cartesianLines (n : Nat) (bnds : Nat → ℝ) : Except Interp.Fail (List ℝ) :=
  Interp.cubicSpline 2 (fun k => if k = 0 then 1 else (n : ℝ) + 1) bnds none none (n + 1) fun i => (i : ℝ) + 1

/-- The rest of `create_simple_cartesian_grid`, 166-169, on `nxc` times `nyc` cells -/
def cartesian (sdx sdy : ℝ) (nxc nyc : Nat) : Arrays :=
  ⟨List.replicate (nxc * (nyc + 1)) sdx, List.replicate ((nxc + 1) * nyc) sdy,
    List.replicate (nxc * nyc) (sdx * sdy), List.replicate ((nxc + 1) * (nyc + 1)) 0⟩

/-! ### Spectral grid -/

/-- `p1` and `p2` after the loop over `i` from 1 to `n`, 221-225: Legendre's recursion -/
def legendre (z : ℝ) : Nat → ℝ × ℝ
  | 0 => (1, 0)
  | n + 1 => (((2 * ((n : ℝ) + 1) - 1) * z * (legendre z n).1 - ((n : ℝ) + 1 - 1) * (legendre z n).2) / ((n : ℝ) + 1),
      (legendre z n).1)

/-- `pp`, 227 -/
def slope (nj : Nat) (z : ℝ) : ℝ := nj * (z * (legendre z nj).1 - (legendre z nj).2) / (z * z - 1)

/-- One round of the loop 216-234: the new `z`, 229 -/
def newton (nj : Nat) (z : ℝ) : ℝ := z - (legendre z nj).1 / slope nj z

/-- How the loop over `iter` 216-234 ends. -/
inductive Ended where
  /-- with `converge`, after the value `z` -/
  | root (z : ℝ)
  /-- with the error "abscissas failed to converge in itermax iterations" -/
  | failed

/-- The loop 216-234 with any function `step` in place of `newton` (the rounding of `double` is not modelled otherwise). The loop
increments `i` and not `iter`, so its condition `iter<=itermax` is that of the first round; `fuel` is the number of rounds
that are watched, `none` means that the loop goes on. -/
def newtonLoop (step : ℝ → ℝ) (eps : ℝ) (itermax iter : Nat) : Nat → ℝ → Option Ended
  | 0, _ => none
  | fuel + 1, z =>
    if iter ≤ itermax then
      if |step z - z| < eps then some (.root (step z)) else newtonLoop step eps itermax iter fuel (step z)
    else some .failed

/-- `sin_lat` or `wts_lat` 246-251: the values `hem` of one hemisphere, with the sign `sgn` in the other one; `none` is a value which
is never set. -/
def bothHem (nj : Nat) (sgn : ℝ) (hem : Nat → ℝ) (j : Nat) : Option ℝ :=
  if nj - 1 - j < nj / 2 then some (hem (nj - 1 - j))
  else if j < nj / 2 then some (sgn * hem j)
  else none

/-- `latb` 257-262. `s0` is the value of `sum_wts` before its first use: nothing has been assigned to it. -/
def latb (nj : Nat) (s0 : ℝ) (wts : Nat → ℝ) (j : Nat) : ℝ :=
  if j = 0 then -90 else if j = nj then 90
  else Real.arcsin ((List.range j).foldl (fun s k => s + wts k) s0 - 1) * r2d

/-- `xb` 209-211, 264-265; `none` is a value which is never set. -/
def spectralX (nx k : Nat) : Option ℝ :=
  let ni := nx / 2
  if k % 2 = 0 ∧ k / 2 ≤ ni then some (((k / 2 : Nat) - 1 / 2 : ℝ) * (360 / ni))
  else if k % 2 = 1 ∧ k / 2 < ni then some ((k / 2 : Nat) * (360 / ni))
  else none

end

end Verif.LonLatGrid
