import Verif.Model.Vec3
import Verif.Model.Lon
import Verif.Model.Interp
import Verif.Model.CubeGrid
import Mathlib.Analysis.SpecialFunctions.Trigonometric.Arctan
/-
Model of the tripolar grid of make_hgrid.

Source: /repo/src/make-hgrid/create_lonlat_grid.c `create_tripolar_grid` 360-513 and
/repo/lib/libfrencutils/tool_util.c `spherical_dist` 109-128, `bipolar_dist` 135-169, `distant` 175-178,
`lat_dist` 266-269, `bp_lam` 276-285, `bp_phi` 291-299, `tp_trans` 306-337, `lon_in_range` 343-366.

Simplifications: `double` is a real number; `SMALL` and `RADIUS` are parameters; an array of points is a function.
`tan` of a right angle is a very large number in C, and `atan2(sin(lamc),tan(phic))` is taken as
`atan2(sin(lamc)*cos(phic), sin(phic))`, which is the same for `|phic| < 90` degrees and the limit at 90 degrees. The
processor has the whole grid (`isc` to `jec` are all of it), as make_hgrid calls it. `lon_in_range` has a number of rounds
`fuel`; `none` means that it has not ended. Cell areas and rotation angles of the polygons are not modelled here, see
`greatCircleArea` for the arguments of the area with `--great_circle_algorithm`.
-/
namespace Verif.Tripolar

open Verif.Vec3
open Verif.CubeGrid (LonLat)

noncomputable section

/-- `D2R` -/
def d2r : ℝ := Real.pi / 180

/-- `R2D` -/
def r2d : ℝ := 180 / Real.pi

/-- `fmod(a, b)`: the sign is that of `a`. -/
def fmod (a b : ℝ) : ℝ := if 0 ≤ a / b then a - b * ⌊a / b⌋ else a - b * ⌈a / b⌉

/-- `lat_dist` 266-269 -/
def latDist (x1 x2 : ℝ) : ℝ := min (fmod (x1 - x2 + 720) 360) (fmod (x2 - x1 + 720) 360)

/-- `bp_lam` 276-285 -/
def bpLam (x y bpeq rp : ℝ) : ℝ :=
  let b := 2 * Real.arctan (Real.tan ((1 / 2 * Real.pi - y * d2r) / 2) / rp) * r2d
  if latDist x bpeq < 90 then -b else b

/-- `bp_phi` 291-299 -/
def bpPhi (x bpsp bpnp : ℝ) : ℝ := if latDist x bpsp < 90 then -90 + latDist x bpsp else 90 - latDist x bpnp

/-- The constants of the bipolar grid, 402-424. `lonStart` is `xbnds[0]` and `latJoin` the latitude of row `j_join`. -/
structure Bip where
  lonStart : ℝ
  latJoin : ℝ

def Bip.bpeq (b : Bip) : ℝ := b.lonStart + 90
def Bip.bpnp (b : Bip) : ℝ := b.lonStart
def Bip.bpsp (b : Bip) : ℝ := b.lonStart + 180
def Bip.lam0 (b : Bip) : ℝ := fmod (b.bpeq * d2r + 2 * Real.pi) (2 * Real.pi)
def Bip.rp (b : Bip) : ℝ := Real.tan ((1 / 2 * Real.pi - b.latJoin * d2r) / 2)

/-- `phis` of `tp_trans`, equations 5 and 6 -/
def phis (rp lamc phic : ℝ) : ℝ :=
  let chic := Real.arccos (Real.cos lamc * Real.cos phic)
  Real.pi * (1 / 2) - 2 * Real.arctan (rp * Real.tan (chic / 2))

/-- `tp_trans` 306-337 -/
def tpTrans (small : ℝ) (fuel : Nat) (b : Bip) (p : LonLat) (lonRef : ℝ) : Option LonLat :=
  let lamc := bpLam p.1 p.2 b.bpeq b.rp * d2r
  let phic := bpPhi p.1 b.bpsp b.bpnp * d2r
  if |p.2 - 90| < small then
    if phic > 0 then (Lon.lonInRange small fuel b.lonStart lonRef).map fun l => (l, phis b.rp lamc phic * r2d)
    else some (b.lonStart + 180, phis b.rp lamc phic * r2d)
  else if |lamc| < small ∧ |phic| < small then some (lonRef, 90)
  else
    let lams := fmod (b.lam0 + Real.pi + Real.pi / 2
      - atan2 (Real.sin lamc * Real.cos phic) (Real.sin phic)) (2 * Real.pi)
    (Lon.lonInRange small fuel (lams * r2d) lonRef).map fun l => (l, phis b.rp lamc phic * r2d)

/-- The points of a row in the bipolar region after the loop 448-454: each is transformed with the longitude of the one
before, which has been transformed already; the first one with its own. -/
def tpRow (small : ℝ) (fuel : Nat) (b : Bip) (xb : Nat → ℝ) (y : ℝ) : Nat → Option LonLat
  | 0 => tpTrans small fuel b (xb 0, y) (xb 0)
  | i + 1 =>
    match tpRow small fuel b xb y i with
    | none => none
    | some p => tpTrans small fuel b (xb (i + 1), y) p.1

/-- The grid lines before the transformation, and what follows from them: `j_join` is the row whose latitude is nearest to
`lat_join_in`, 403-405. -/
structure Par where
  nx : Nat
  ny : Nat
  xb : Nat → ℝ
  yb : Nat → ℝ
  lonStart : ℝ
  small : ℝ
  radius : ℝ
  jJoin : Nat

def Par.bip (p : Par) : Bip := ⟨p.lonStart, p.yb p.jJoin⟩

/-- `create_tripolar_grid` 403-405: `j_join`, if `nearest_index` does not stop the program -/
def joinRow (latJoin : ℝ) (yb : Nat → ℝ) (nyp : Nat) : Option Nat :=
  match Interp.nearestIndex latJoin yb nyp with
  | .ok j => some j
  | .error _ => none

/-- `x` and `y` at the end, 394-400 and 448-454 -/
def point (p : Par) (fuel : Nat) (j i : Nat) : Option LonLat :=
  if j < p.jJoin then some (p.xb i, p.yb j) else tpRow p.small fuel p.bip p.xb (p.yb j) i

/-! ### Lengths -/

/-- `distant` 175-178 -/
def distant (a b met1 met2 : ℝ) : ℝ := |a - b| * d2r * (met1 + met2) / 2

/-- `spherical_dist` 109-128; `none` is "This is not rectangular grid" -/
def sphericalDist (radius x1 y1 x2 y2 : ℝ) : Option ℝ :=
  if x1 = x2 then some (distant y1 y2 radius radius)
  else if y1 = y2 then some (distant x1 x2 (radius * Real.cos (y1 * d2r)) (radius * Real.cos (y2 * d2r)))
  else none

/-- `metric[n]` of `bipolar_dist` 146-158 -/
def metric (small : ℝ) (b : Bip) (x y : ℝ) : ℝ :=
  let lon := bpLam x y b.bpeq b.rp
  let lat := bpPhi x b.bpsp b.bpnp
  if |y - 90| < small ∨ small ≤ |lon * d2r| ∨ small ≤ |lat * d2r| then
    let chic := Real.arccos (Real.cos (lon * d2r) * Real.cos (lat * d2r))
    b.rp * (1 / Real.cos (chic / 2) ^ 2) / (1 + b.rp ^ 2 * Real.tan (chic / 2) ^ 2)
  else 1

/-- `bipolar_dist` 135-169; `none` is "This tripolar grid not transformed from rectangular grid" -/
def bipolarDist (small radius : ℝ) (b : Bip) (x1 y1 x2 y2 : ℝ) : Option ℝ :=
  let h1 := fun x => radius * Real.cos (bpPhi x b.bpsp b.bpnp * d2r)
  if x1 = x2 then some (distant (bpLam x1 y1 b.bpeq b.rp) (bpLam x2 y2 b.bpeq b.rp)
    (metric small b x1 y1 * h1 x1) (metric small b x2 y2 * h1 x2))
  else if y1 = y2 then some (distant (bpPhi x1 b.bpsp b.bpnp) (bpPhi x2 b.bpsp b.bpnp)
    (metric small b x1 y1 * radius) (metric small b x2 y2 * radius))
  else none

/-- `dx` 426-435, from the points before the transformation -/
def dx (p : Par) (j i : Nat) : Option ℝ :=
  if j < p.jJoin then sphericalDist p.radius (p.xb i) (p.yb j) (p.xb (i + 1)) (p.yb j)
  else bipolarDist p.small p.radius p.bip (p.xb i) (p.yb j) (p.xb (i + 1)) (p.yb j)

/-- `dy` 437-446 -/
def dy (p : Par) (j i : Nat) : Option ℝ :=
  if j < p.jJoin then sphericalDist p.radius (p.xb i) (p.yb j) (p.xb i) (p.yb (j + 1))
  else bipolarDist p.small p.radius p.bip (p.xb i) (p.yb j) (p.xb i) (p.yb (j + 1))

/-- The areas with `--great_circle_algorithm`, 457-478: `get_grid_great_circle_area`, here `gc`, has longitudes and latitudes
in radians as arguments and is called with the first two Cartesian coordinates. -/
def greatCircleArea {A : Type} (gc : (Nat → Nat → ℝ) → (Nat → Nat → ℝ) → Nat → Nat → A) (x y : Nat → Nat → ℝ) : Nat → Nat → A :=
  gc (fun j i => toXyz (x j i * d2r) (y j i * d2r) 0) (fun j i => toXyz (x j i * d2r) (y j i * d2r) 1)

end

end Verif.Tripolar
