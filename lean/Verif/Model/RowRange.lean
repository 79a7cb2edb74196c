import Verif.Model.XGrid
import Mathlib.Algebra.Order.Floor.Ring
/-
Model of the choice of the rows of the source grid that are searched for exchange cells.

Source: /repo/src/fre-grid/conserve_interp.c `setup_conserve_interp` 169-200;
/repo/src/fregrid-gpu/conserve_interp_gpu.c `get_bounding_indices_gpu` 765-798;
/repo/lib/libfrencutils/create_xgrid.c: corners and latitude tests of `create_xgrid_2dx2d_order1` 771-795 and
728-752 (`lat_out_min_list`), `_order2` likewise; /repo/lib/libfrencutils_gpu/create_xgrid_gpu.c 73-108.

Simplifications: latitudes are elements of an ordered ring; an `int` is unbounded. What the loop body does after
the latitude tests is left open: `lonNear` are the longitude tests, `clip` the clipping with the area threshold.
-/
namespace Verif.RowRange

variable {K : Type}

section order
variable [LinearOrder K]

/-- `minval_double`, `maxval_double` (mosaic_util.c) over the first `n` elements, `n ≥ 1`. -/
def minval (f : Nat → K) (n : Nat) : K := (List.range n).foldl (fun m k => min m (f k)) (f 0)
def maxval (f : Nat → K) (n : Nat) : K := (List.range n).foldl (fun m k => max m (f k)) (f 0)

/-- The four corners of cell `(i, j)` in an array with `nx + 1` points in a row: `n0` to `n3` (773-778). -/
def corner (nx i j : Nat) : Nat → Nat
  | 0 => j * (nx + 1) + i
  | 1 => j * (nx + 1) + i + 1
  | 2 => (j + 1) * (nx + 1) + i + 1
  | _ => (j + 1) * (nx + 1) + i

/-- `lat_in_min`, `lat_in_max` (779-780), `lat_out_min_list`, `lat_out_max_list`. -/
def cellMin (lat : Nat → K) (nx i j : Nat) : K := minval (fun k => lat (corner nx i j k)) 4
def cellMax (lat : Nat → K) (nx i j : Nat) : K := maxval (fun k => lat (corner nx i j k)) 4

/-- Two grids, as far as the row range is concerned. -/
structure Pair (K β : Type) where
  nx1 : Nat
  ny1 : Nat
  nx2 : Nat
  ny2 : Nat
  /-- `grid_in[m].latc` -/
  lat1 : Nat → K
  /-- `grid_out[n].latc` -/
  lat2 : Nat → K
  /-- the longitude tests, source cell `(i1, j1)` and target number `ij` -/
  lonNear : Nat → Nat → Nat → Bool
  /-- the part the two cells have in common, `none` if empty or too small -/
  clip : Nat → Nat → Nat → Option β

variable {β : Type} (p : Pair K β)

/-- The latitude tests and then the longitude tests (793, 818): neither `continue` is taken. -/
def near (i1 j1 ij : Nat) : Bool :=
  if cellMin p.lat2 p.nx2 (ij % p.nx2) (ij / p.nx2) ≥ cellMax p.lat1 p.nx1 i1 j1 ∨
      cellMax p.lat2 p.nx2 (ij % p.nx2) (ij / p.nx2) ≤ cellMin p.lat1 p.nx1 i1 j1 then false
  else p.lonNear i1 j1 ij

/-- The loop body for source cell `(i1, j1)` and target number `ij`. -/
def hit (i1 j1 ij : Nat) : Option β := if near p i1 j1 ij then p.clip i1 j1 ij else none

/-- 172-181 (GPU: 786-792): smallest row with a point north of `y_min`, largest row with a point south of
`y_max`. -/
def scan (yMin yMax : K) (lat : Nat → K) (nx ny : Nat) : Int × Int :=
  (List.range (ny + 1)).foldl (fun s j => (List.range (nx + 1)).foldl (fun (s : Int × Int) i =>
    (if lat (j * (nx + 1) + i) > yMin then min s.1 (j : Int) else s.1,
      if lat (j * (nx + 1) + i) < yMax then max s.2 (j : Int) else s.2)) s) ((ny : Int), -1)

/-- 182-183 (GPU: 795-796). -/
def clampRows (ny : Nat) (s : Int × Int) : Int × Int := (max 0 (s.1 - 1), min ((ny : Int) - 1) (s.2 + 1))

/-- `y_min`, `y_max` (169-170). -/
def yMin : K := minval p.lat2 ((p.nx2 + 1) * (p.ny2 + 1))
def yMax : K := maxval p.lat2 ((p.nx2 + 1) * (p.ny2 + 1))

/-- `jstart`, `jend` of the CPU version. -/
def rows : Int × Int := clampRows p.ny1 (scan (yMin p) (yMax p) p.lat1 p.nx1 p.ny1)

/-- The call of `create_xgrid_2dx2d_order1` (187-189) with `ny` rows from row `js` on; the mask is 1
everywhere (161). -/
def slice (js : Int) (ny : Int) : XGrid.Grids β where
  nx1 := p.nx1
  ny1 := ny.toNat
  nx2 := p.nx2
  ny2 := p.ny2
  mask := fun _ _ => true
  hit := fun i1 j1 ij => hit p i1 (j1 + js.toNat) ij

/-- `j_in[i] += jstart` (190). -/
def shift (js : Int) (c : XGrid.Cell β) : XGrid.Cell β := { c with j1 := c.j1 + js.toNat }

/-- The exchange grid of one pair of tiles (182-191), with a limit, a number of threads and a schedule of the
threads. -/
def setupTile (maxx nb : Nat) (sched : List Nat) : Except XGrid.Stop (List (Option (XGrid.Cell β))) :=
  match XGrid.create2dx2d (slice p (rows p).1 ((rows p).2 - (rows p).1 + 1)) maxx nb sched with
  | .error e => .error e
  | .ok out => .ok (out.map (Option.map (shift (rows p).1)))

end order

/-! ### The GPU version -/
section gpu
variable [Field K] [LinearOrder K] [FloorRing K]

/-- Conversion of a `double` to an `int`: towards zero. -/
def toInt (x : K) : Int := if 0 ≤ x then ⌊x⌋ else ⌈x⌉

variable {β : Type} (p : Pair K β)

/-- `get_bounding_indices_gpu` 765-798: `ref_min_lat`, `ref_max_lat` are of type `int` (771). -/
def rowsGpu : Int × Int :=
  clampRows p.ny1 (scan ((toInt (yMin p) : Int) : K) ((toInt (yMax p) : Int) : K) p.lat1 p.nx1 p.ny1)

end gpu

end Verif.RowRange
