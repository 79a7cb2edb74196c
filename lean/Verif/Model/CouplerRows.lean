import Verif.Model.Extent
import Mathlib.Algebra.Order.Field.Basic
/-
Model of the search for the grid rows that can overlap, in make_coupler_mosaic with the legacy clipping.

Source: /repo/src/make-coupler-mosaic/make_coupler_mosaic.c: latitude band of the cells of one process 1284-1307,
2581-2604, 3094-3127; rows of the other grid for atmosphere cells 1309-1356; rows of the ocean grid for land
cells 2605-2618 and for wave cells 3130-3141; loops and latitude test 1361-1412, 1467-1469 (atmosphere and land),
1629 (atmosphere and ocean), 2621-2674 (land and ocean), 3152-3185, 3222 (wave and ocean).

Simplifications: one tile of each grid, all columns (`is = 0`, `ie = nx-1`, the case of different grids);
latitudes in an ordered field; the tests in longitude, the mask and the clipping, which come after the latitude
test, are left out; in the loop over the atmosphere and the ocean the latitude test is made only for cells with
some ocean, the other cells go to the clipping, which finds no overlap for them.
-/
namespace Verif.CouplerRows

variable {K : Type*} [Field K] [LinearOrder K]

/-- The latitudes at the corners `n0, n1, n2, n3` of cell `la` (1288-1298): `y` has `nx+1` values in each row. -/
def corners (nx : Nat) (y : Nat → K) (la : Nat) : List K :=
  let i := la % nx
  let j := la / nx
  [y (j * (nx + 1) + i), y (j * (nx + 1) + i + 1), y ((j + 1) * (nx + 1) + i + 1), y ((j + 1) * (nx + 1) + i)]

/-- One comparison of 1299-1306: the least and the greatest latitude so far. -/
def bandStep (s : K × K) (v : K) : K × K := (if v < s.1 then v else s.1, if v > s.2 then v else s.2)

/-- `ya_min, ya_max` after 1284-1307: the latitude band of the cells of one process. -/
def band (nx : Nat) (y : Nat → K) (cells : List Nat) : K × K :=
  (cells.flatMap (corners nx y)).foldl bandStep (9999, -9999)

/-- The points of the other grid in the order of the loops 1311, 1335, 2607 and 3132. -/
def points (nx ny : Nat) : List (Nat × Nat) :=
  (List.range (ny + 1)).flatMap fun j => (List.range (nx + 1)).map fun i => (j, i)

/-- One round of 1312-1318 and 1336-1342: `js` and `je` are found by separate conditions. -/
def rowStepAtm (nx : Nat) (y : Nat → K) (lo hi : K) (s : Int × Int) (p : Nat × Nat) : Int × Int :=
  let yy := y (p.1 * (nx + 1) + p.2)
  (if yy > lo ∧ (p.1 : Int) < s.1 then (p.1 : Int) else s.1,
   if yy < hi ∧ (p.1 : Int) > s.2 then (p.1 : Int) else s.2)

/-- One round of 2608-2612 and 3133-3137: both are found by one condition. -/
def rowStepOcn (nx : Nat) (y : Nat → K) (lo hi : K) (s : Int × Int) (p : Nat × Nat) : Int × Int :=
  let yy := y (p.1 * (nx + 1) + p.2)
  if yy > lo ∧ yy < hi then
    (if (p.1 : Int) < s.1 then (p.1 : Int) else s.1, if (p.1 : Int) > s.2 then (p.1 : Int) else s.2)
  else s

/-- 1320-1321, 1344-1345, 2614-2615, 3139-3140: one more row on both sides, within the grid. -/
def widen (ny : Nat) (s : Int × Int) : Int × Int := (max 0 (s.1 - 1), min ((ny : Int) - 1) (s.2 + 1))

/-- `js, je` of land or ocean rows for a band of atmosphere cells. -/
def rowsAtm (nx ny : Nat) (y : Nat → K) (b : K × K) : Int × Int :=
  widen ny ((points nx ny).foldl (rowStepAtm nx y b.1 b.2) ((ny : Int), -1))

/-- `js, je` of ocean rows for a band of land or wave cells. -/
def rowsOcn (nx ny : Nat) (y : Nat → K) (b : K × K) : Int × Int :=
  widen ny ((points nx ny).foldl (rowStepOcn nx y b.1 b.2) ((ny : Int), -1))

/-- `minval_double` of the latitudes of a cell (mosaic_util.c 176-188). -/
def minval : List K → K
  | [] => 0
  | v :: vs => vs.foldl (fun m x => if x < m then x else m) v

/-- `maxval_double` (mosaic_util.c 157-169). -/
def maxval : List K → K
  | [] => 0
  | v :: vs => vs.foldl (fun m x => if x > m then x else m) v

/-- The latitude test 1469, 1629, 2674, 3222: true if the pair is left out. -/
def latReject (a o : List K) : Bool :=
  decide (minval o ≥ maxval a) || decide (maxval o ≤ minval a)

/-- `for(j = js; j <= je; j++)`. -/
def rowLoop (r : Int × Int) : List Nat := (List.range (r.2 - r.1 + 1).toNat).map fun k => r.1.toNat + k

/-- The pairs (cell of the first grid, cell `j*nx+i` of the second grid) that reach the clipping on a process
with the given cells, in the order of the loops. -/
def examined (rows : Nat → Nat → (Nat → K) → K × K → Int × Int) (nx1 : Nat) (y1 : Nat → K) (nx2 ny2 : Nat)
    (y2 : Nat → K) (cells : List Nat) : List (Nat × Nat) :=
  cells.flatMap fun la =>
    (rowLoop (rows nx2 ny2 y2 (band nx1 y1 cells))).flatMap fun j =>
      (List.range nx2).filterMap fun i =>
        if latReject (corners nx1 y1 la) (corners nx2 y2 (j * nx2 + i)) then none else some (la, j * nx2 + i)

/-- The cells `is..ie` of a process (1254-1255, 1361). -/
def cellsOf (x : Int × Int) : List Nat := (List.range (x.2 - x.1 + 1).toNat).map fun k => x.1.toNat + k

/-- What all processes together examine, gathered in the order of the processes; the cells are divided by
`mpp_define_domain2d` with layout `npes x 1`. -/
def gathered (rows : Nat → Nat → (Nat → K) → K × K → Int × Int) (nx1 ny1 : Nat) (y1 : Nat → K) (nx2 ny2 : Nat)
    (y2 : Nat → K) (npes : Nat) : Except ExtErr (List (Nat × Nat)) :=
  match mppComputeExtent (nx1 * ny1) npes with
  | .error e => .error e
  | .ok ext => .ok (ext.flatMap fun x => examined rows nx1 y1 nx2 ny2 y2 (cellsOf x))

end Verif.CouplerRows
