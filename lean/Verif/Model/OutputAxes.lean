import Verif.Model.Extent
import Mathlib.Algebra.Field.Defs
/-
Output grid of fregrid given by its size, levels given by a file, and the axes written for them: /repo/src/fre-grid/fregrid_util.c
`get_output_grid_by_size` 565-660, `get_output_vgrid` 703-726, axes in `set_output_metadata` 1539-1634.

Simplifications: numbers are those of a field (degrees are stored as radians with the factor `d2r` and written with its inverse); cartesian coordinates and
unit vectors of the fine grid are left out (C77, C119).
-/
namespace Verif.OutputAxes

variable {K : Type} [Field K]

/-- `--lonBegin`, `--lonEnd`, `--latBegin`, `--latEnd`, `--nlon`, `--nlat`, `--finer_step`, `--center_y` (fregrid.c 740 sets it for conservative methods). -/
structure Req (K : Type) where
  lonBegin : K
  lonEnd : K
  latBegin : K
  latEnd : K
  nlon : Nat
  nlat : Nat
  finer : Nat
  centerY : Bool
  bilinear : Bool

/-- The arrays of the grid; `latt1D` and the like are functions of the index. -/
structure Arrays (K : Type) where
  nx : Nat
  ny : Nat
  nxFine : Nat
  nyFine : Nat
  lont1D : Nat → K
  lonc1D : Nat → K
  latt1D : Nat → K
  latc1D : Nat → K
  lonFine : Nat → K
  latFine : Nat → K

/-- How the function can end otherwise: with a message, or with values that are not numbers. -/
inductive Err
  | refused
  | notNumbers
  deriving DecidableEq

/-- `get_output_grid_by_size` 573-637 (one tile). Without `center_y` one row of latitudes is divided by zero (606). -/
def bySize (d2r : K) (q : Req K) : Except Err (Arrays K) :=
  if q.finer ≠ 0 && !q.bilinear then .error .refused
  else if !q.centerY && q.nlat == 1 then .error .notNumbers
  else
    let nyFine := 2 ^ q.finer * (q.nlat - 1) + 1
    let nxFine := 2 ^ q.finer * q.nlon
    let dlon := (q.lonEnd - q.lonBegin) / q.nlon
    let range := q.latEnd - q.latBegin
    let dlat := if q.centerY then range / q.nlat else range / ((q.nlat - 1 : Nat) : K)
    let dlonFine := (q.lonEnd - q.lonBegin) / nxFine
    let dlatFine := if q.centerY then range / nyFine else range / ((nyFine - 1 : Nat) : K)
    .ok {
      nx := q.nlon, ny := q.nlat, nxFine := nxFine, nyFine := nyFine
      lont1D := fun i => (q.lonBegin + (i + 1 / 2) * dlon) * d2r
      lonc1D := fun i => (q.lonBegin + i * dlon) * d2r
      latt1D := fun j => if q.centerY then (q.latBegin + (j + 1 / 2) * dlat) * d2r else (q.latBegin + j * dlat) * d2r
      latc1D := fun j => if q.centerY then (q.latBegin + j * dlat) * d2r else (q.latBegin + (j - 1 / 2) * dlat) * d2r
      lonFine := fun i => (q.lonBegin + (i + 1 / 2) * dlonFine) * d2r
      latFine := fun j => if q.centerY then (q.latBegin + (j + 1 / 2) * dlatFine) * d2r else (q.latBegin + j * dlatFine) * d2r }

/-- Corners of the part of a process, 645-654, rows `jsc` to `jec + 1`: value at row `j` and column `i` of the part. -/
def partLon (a : Arrays K) (isc : Int) (_j i : Nat) : K := a.lonc1D (i + isc).toNat

def partLat (a : Arrays K) (jsc : Int) (j _i : Nat) : K := a.latc1D (j + jsc).toNat

/-- Levels and their bounds, 703-726: `zeta` holds bounds and levels by turns. -/
def outLevels (zeta : List K) : Except Err (List K × List K) :=
  if (zeta.length - 1) % 2 ≠ 0 then .error .refused
  else
    let nz := (zeta.length - 1) / 2
    .ok ((List.range nz).map fun k => zeta.getD (2 * k + 1) 0, (List.range (nz + 1)).map fun k => zeta.getD (2 * k) 0)

inductive Cart
  | X
  | Y
  | Z
  | other
  deriving DecidableEq

/-- An axis of a file with its bounds: `bndtype` 0 without, 1 with `size + 1` edges, 2 and 3 with pairs. -/
structure Axis (K : Type) where
  cart : Cart
  size : Nat
  bndtype : Nat
  data : Nat → K
  bnddata : Nat → K

/-- Pairs of neighbouring edges (1596-1599). -/
def pairs (edge : Nat → K) (l : Nat) : K := edge (l / 2 + l % 2)

/-- Edges in the layout of the bounds. -/
def layoutBnd (bndtype : Nat) (edge : Nat → K) : Nat → K := if bndtype = 1 then edge else pairs edge

/-- 1539-1634: the axis of the output file for an axis of the input file. `levels` are those of `--dst_vgrid`. -/
def outAxis (d2r : K) (standardDim dstLatLon : Bool) (a : Arrays K) (levels : Option (List K × List K)) (x : Axis K) : Axis K :=
  let horizontal := decide (x.cart = .X) || decide (x.cart = .Y)
  let bndtype := if horizontal && (standardDim || (x.bndtype == 0 && dstLatLon)) then 3 else x.bndtype
  match x.cart with
  | .X => ⟨.X, a.nx, bndtype, fun l => a.lont1D l * (1 / d2r), layoutBnd bndtype fun l => a.lonc1D l * (1 / d2r)⟩
  | .Y => ⟨.Y, a.ny, bndtype, fun l => a.latt1D l * (1 / d2r), layoutBnd bndtype fun l => a.latc1D l * (1 / d2r)⟩
  | .Z =>
    match levels with
    | some (z, zb) => ⟨.Z, z.length, bndtype, fun l => z.getD l 0, layoutBnd bndtype fun l => zb.getD l 0⟩
    | none => ⟨.Z, x.size, bndtype, x.data, x.bnddata⟩
  | .other => ⟨.other, x.size, bndtype, x.data, x.bnddata⟩

end Verif.OutputAxes
