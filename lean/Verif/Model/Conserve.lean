import Mathlib.Algebra.Order.Field.Basic
/-
Model of conservative interpolation through an exchange grid.

Source: /repo/lib/libfrencutils/interp.c `conserve_interp` 262-304 (and `conserve_interp_great_circle`
312-356, the same after the exchange grid has been made); /repo/src/fre-grid/conserve_interp.c
`setup_conserve_interp` 42-500 (centroids of order 2: 218-222, 252-255, 303-304, 319-357; remap file: 60-119,
359-425), `do_scalar_conserve_interp` 507-910; /repo/lib/libfrencutils/read_mosaic.c
`read_mosaic_xgrid_order1` 407-440, `read_mosaic_xgrid_order2` 518-558.

Simplifications: numbers are an ordered field; one output tile and one level (`nz = 1`; fregrid calls with
more levels only for extrapolated data); the exchange grid is given as a list of cells in the order of the
arrays; arrays are functions of the position computed as in the code; the printed conservation check is
not modelled.
-/
namespace Verif.Conserve

variable {K : Type} [Field K] [LinearOrder K]

/-- One entry of the exchange grid arrays: source tile `t1`, source cell `(i1, j1)`, target cell
`(i2, j2)`, area, and the distances used by order 2. -/
structure XCell (K : Type) where
  t1 : Nat
  i1 : Nat
  j1 : Nat
  i2 : Nat
  j2 : Nat
  area : K
  di : K
  dj : K
  deriving DecidableEq

/-- `a[k] += v`. -/
def addAt (a : Nat → K) (k : Nat) (v : K) : Nat → K := fun n => if n = k then a n + v else a n

/-! ### conserve_interp -/

/-- 283-284 -/
def dstArea (nx2 : Nat) (cells : List (XCell K)) : Nat → K :=
  cells.foldl (fun a c => addAt a (c.j2 * nx2 + c.i2) c.area) (fun _ => 0)

/-- 286-294. Source data on one tile with `nx1` cells in a row. -/
def conserveInterp (nx1 nx2 : Nat) (cells : List (XCell K)) (src : Nat → K) : Nat → K :=
  let da := dstArea nx2 cells
  cells.foldl (fun d c => addAt d (c.j2 * nx2 + c.i2)
    (src (c.j1 * nx1 + c.i1) * (c.area / da (c.j2 * nx2 + c.i2)))) (fun _ => 0)

/-! ### do_scalar_conserve_interp -/

/-- What the routine takes from the variable, the grids and the options. -/
structure Conf (K : Type) where
  /-- number of source cells in a row, per tile -/
  nx1 : Nat → Nat
  /-- number of target cells in a row -/
  nx2 : Nat
  order2 : Bool
  hasMissing : Bool
  /-- the missing value; -1e20 if the variable has none (541) -/
  missing : K
  /-- `weight_exist`: weights of the source cells -/
  weight : Option (Nat → Nat → K)
  /-- `cell_methods == CELL_METHODS_SUM` -/
  sum : Bool
  /-- `cell_measures`: the area field of the variable -/
  measures : Option (Nat → Nat → K)
  areaMissing : K
  /-- `grid_in[].cell_area` -/
  cellArea : Nat → Nat → K
  target : Bool
  /-- `grid_out[].cell_area` -/
  cellAreaOut : Nat → K

/-- Source data: `data` without halo for order 1, with a halo of one cell for order 2. -/
structure Src (K : Type) where
  data : Nat → Nat → K
  gradX : Nat → Nat → K
  gradY : Nat → Nat → K
  gradMask : Nat → Nat → Bool

variable (cf : Conf K) (s : Src K)

/-- `n1` -/
def n1 (c : XCell K) : Nat := c.j1 * cf.nx1 c.t1 + c.i1
/-- `n0` -/
def n0 (c : XCell K) : Nat := c.j2 * cf.nx2 + c.i2

/-- The source value tested for missing: `data[n1]` (588), or `data[n2]` for order 2 (759). -/
def srcVal (c : XCell K) : K :=
  if cf.order2 then s.data c.t1 ((c.j1 + 1) * (cf.nx1 c.t1 + 2) + c.i1 + 1) else s.data c.t1 (n1 cf c)

/-- The value added for an exchange cell: 598, 620, 772-778, 806-807. The mask is used only with
missing values. -/
def xVal (c : XCell K) : K :=
  if cf.order2 then
    if cf.hasMissing && s.gradMask c.t1 (n1 cf c) then srcVal cf s c
    else srcVal cf s c + s.gradX c.t1 (n1 cf c) * c.di + s.gradY c.t1 (n1 cf c) * c.dj
  else srcVal cf s c

/-- `area` after 584, 589-597 (also 611, 615-618, 754, 762-770, 798, 802-805). -/
def xArea (c : XCell K) : K :=
  let a := match cf.weight with
    | some w => c.area * w c.t1 (n1 cf c)
    | none => c.area
  if cf.sum then a / cf.cellArea c.t1 (n1 cf c)
  else match cf.measures with
    | some m => a * (m c.t1 (n1 cf c) / cf.cellArea c.t1 (n1 cf c))
    | none => a

/-- The cell is used. -/
def used (c : XCell K) : Bool := !cf.hasMissing || decide (srcVal cf s c ≠ cf.missing)

/-- 592-595, 764-767: data present, area missing. -/
def areaError (c : XCell K) : Bool :=
  cf.hasMissing && used cf s c && !cf.sum &&
    (match cf.measures with | some m => decide (m c.t1 (n1 cf c) = cf.areaMissing) | none => false)

/-- `field_out.data`, `out_area`, `out_miss`. -/
structure Acc (K : Type) where
  data : Nat → K
  area : Nat → K
  miss : Nat → Bool

/-- One round of the loop over the exchange cells (572-623, 746-811, not monotonic). -/
def step (a : Acc K) (c : XCell K) : Acc K :=
  if used cf s c then
    ⟨addAt a.data (n0 cf c) (xVal cf s c * xArea cf c), addAt a.area (n0 cf c) (xArea cf c),
      fun n => if n = n0 cf c then true else a.miss n⟩
  else a

def accumulate (cells : List (XCell K)) : Acc K :=
  cells.foldl (step cf s) ⟨fun _ => 0, fun _ => 0, fun _ => false⟩

/-- `out_area` of the target grid option (842-858). -/
def targetArea (cells : List (XCell K)) : Nat → K :=
  cells.foldl (fun a c => addAt a (n0 cf c)
    (match cf.measures with
      | some m => c.area * m c.t1 (n1 cf c) / cf.cellArea c.t1 (n1 cf c)
      | none => c.area)) (fun _ => 0)

/-- 821-865: the output at one target cell. -/
def finish (cells : List (XCell K)) (a : Acc K) (n : Nat) : K :=
  if cf.sum then
    if a.area n = 0 then (if a.miss n then 0 else cf.missing) else a.data n
  else
    let d := if a.area n > 0 then a.data n / a.area n else if a.miss n then 0 else cf.missing
    if cf.target then
      if d ≠ cf.missing then d * (targetArea cf cells n / cf.cellAreaOut n) else d
    else d

/-- `do_scalar_conserve_interp` (order 1, and order 2 that is not monotonic); `none` is the error of
592-595. -/
def scalarInterp (cells : List (XCell K)) : Option (Nat → K) :=
  if cells.any (areaError cf s) then none else some (finish cf cells (accumulate cf s cells))

/-! ### Centroids of order 2 (setup_conserve_interp) -/

/-- An entry before the centroids are subtracted: `clon`, `clat` are the integrals from
`create_xgrid_2dx2d_order2`. -/
structure XRaw (K : Type) where
  t1 : Nat
  i1 : Nat
  j1 : Nat
  i2 : Nat
  j2 : Nat
  area : K
  clon : K
  clat : K

/-- 218-223: sums over the exchange cells of each source cell, all target tiles and processors
together. -/
def cellSum (nx1 : Nat → Nat) (f : XRaw K → K) (raw : List (XRaw K)) : Nat → Nat → K :=
  raw.foldl (fun a r => fun t => if t = r.t1 then addAt (a t) (r.j1 * nx1 r.t1 + r.i1) (f r) else a t)
    (fun _ _ => 0)

/-- 327-348: centroid of a source cell. `full` is the centroid computed from the corners, used when the
exchange cells do not cover the source cell. -/
def cellCentroid (nx1 : Nat → Nat) (ratio : K) (cellArea full : Nat → Nat → K) (f : XRaw K → K)
    (raw : List (XRaw K)) (t ii : Nat) : K :=
  let sa := cellSum nx1 (fun r => r.area) raw t ii
  if sa > 0 then
    if |sa - cellArea t ii| / cellArea t ii < ratio then cellSum nx1 f raw t ii / sa
    else full t ii / cellArea t ii
  else cellSum nx1 f raw t ii

/-- 252-255, 303-304, 350-357. -/
def recentre (nx1 : Nat → Nat) (ratio : K) (cellArea fullLon fullLat : Nat → Nat → K)
    (raw : List (XRaw K)) : List (XCell K) :=
  raw.map fun r =>
    ⟨r.t1, r.i1, r.j1, r.i2, r.j2, r.area,
      r.clon / r.area - cellCentroid nx1 ratio cellArea fullLon (fun r => r.clon) raw r.t1 (r.j1 * nx1 r.t1 + r.i1),
      r.clat / r.area - cellCentroid nx1 ratio cellArea fullLat (fun r => r.clat) raw r.t1 (r.j1 * nx1 r.t1 + r.i1)⟩

/-! ### Monotonic order 2 (624-744) -/

/-- `f_bar_max`, `f_bar_min` of a source cell: largest and smallest value that is not missing among the
cell and its eight neighbours (636-653), starting from ∓`maxval`. -/
def barMax (maxval missing : K) (vals : List K) : K :=
  vals.foldl (fun m v => if v ≠ missing then (if v > m then v else m) else m) (-maxval)

def barMin (maxval missing : K) (vals : List K) : K :=
  vals.foldl (fun m v => if v ≠ missing then (if v < m then v else m) else m) maxval

/-- The nine values of source cell `(i, j)` of tile `t` in an array with halo, `nx` cells in a row
(646-648). -/
def nine (data : Nat → Nat → K) (nx t i j : Nat) : List K :=
  [0, 1, 2].flatMap fun dj => [0, 1, 2].map fun di => data t ((j + dj) * (nx + 2) + i + di)

/-- The scaling of one exchange value (697-702, 711-714): `fbar` the source value, `fmax`, `fmin` the
extreme exchange values of the source cell, `bmax`, `bmin` the extremes of the neighbourhood. -/
def monoAdjust (fbar fmax fmin bmax bmin x : K) : K :=
  if fmax > bmax then fbar + (x - fbar) / (fmax - fbar) * (bmax - fbar)
  else if fmin < bmin then fbar + (x - fbar) / (fmin - fbar) * (bmin - fbar)
  else x

/-- The checks behind the scaling (703-709, 715-721): `none` is the call of `mpp_error`; values beyond
the bound by less than the tolerance are set to it. -/
def monoCheck (tol fmax fmin bmax bmin x : K) : Option K :=
  if fmax > bmax then
    if x > bmax then (if x - bmax < tol then some bmax else none) else some x
  else if fmin < bmin then
    if x < bmin then (if bmin - x < tol then some bmin else none) else some x
  else some x

section mono
variable (maxval tol : K) (nxl : Nat)

/-- `xdata[n]` before adjustment (656-676), `none` for missing. `nx1` is not set in this branch after
the loop over the tiles (630-631), so it is `nxl`, that of the last tile, for all tiles. -/
def monoVal (c : XCell K) : Option K :=
  let d := s.data c.t1 ((c.j1 + 1) * (nxl + 2) + c.i1 + 1)
  if d ≠ cf.missing then
    some (if s.gradMask c.t1 (c.j1 * nxl + c.i1) then d
      else d + s.gradX c.t1 (c.j1 * nxl + c.i1) * c.di + s.gradY c.t1 (c.j1 * nxl + c.i1) * c.dj)
  else none

/-- `f_max[n1]` of tile `t` after 669 (one processor; with more the maximum over all is taken,
680-685). -/
def monoMax (cells : List (XCell K)) (t n : Nat) : K :=
  cells.foldl (fun m c => match monoVal cf s nxl c with
    | some x => if c.t1 = t ∧ c.j1 * nxl + c.i1 = n ∧ x > m then x else m
    | none => m) (-maxval)

def monoMin (cells : List (XCell K)) (t n : Nat) : K :=
  cells.foldl (fun m c => match monoVal cf s nxl c with
    | some x => if c.t1 = t ∧ c.j1 * nxl + c.i1 = n ∧ x < m then x else m
    | none => m) maxval

/-- The value after scaling, before the checks (697-698, 711). The extremes of the neighbourhood are stored
with the size of the tile itself (630-653) but fetched with `nxl`; `bmax`, `bmin` are the arrays. -/
def monoAdj (cells : List (XCell K)) (bmax bmin : Nat → Nat → K) (c : XCell K) (x : K) : K :=
  let n := c.j1 * nxl + c.i1
  monoAdjust (s.data c.t1 ((c.j1 + 1) * (nxl + 2) + c.i1 + 1)) (monoMax cf s maxval nxl cells c.t1 n)
    (monoMin cf s maxval nxl cells c.t1 n) (bmax c.t1 n) (bmin c.t1 n) x

/-- `xdata[n]` after adjustment (687-724): `none` skip (the source or the value is missing, 695),
`some none` the error, `some (some x)` the value. -/
def monoX (cells : List (XCell K)) (bmax bmin : Nat → Nat → K) (c : XCell K) : Option (Option K) :=
  match monoVal cf s nxl c with
  | none => none
  | some x =>
    if x = cf.missing then none
    else
      let n := c.j1 * nxl + c.i1
      some (monoCheck tol (monoMax cf s maxval nxl cells c.t1 n) (monoMin cf s maxval nxl cells c.t1 n)
        (bmax c.t1 n) (bmin c.t1 n) (monoAdj cf s maxval nxl cells bmax bmin c x))

/-- What the last loop uses (733): values equal to the missing value are skipped there too. -/
def monoUse : Option (Option K) → Option K
  | some (some v) => if v = cf.missing then none else some v
  | _ => none

/-- 727-743: one round of the final loop; `out_miss` is not set here. (Weights and cell areas are fetched
here with the size of the tile itself, in the code with `nxl`; the same for tiles of one size.) -/
def monoStep (x : XCell K → Option (Option K)) (a : Acc K) (c : XCell K) : Acc K :=
  match monoUse cf (x c) with
  | some v => ⟨addAt a.data (n0 cf c) (v * xArea cf c), addAt a.area (n0 cf c) (xArea cf c), a.miss⟩
  | none => a

/-- `do_scalar_conserve_interp`, monotonic. -/
def monoInterp (bmax bmin : Nat → Nat → K) (cells : List (XCell K)) : Option (Nat → K) :=
  let x := monoX cf s maxval tol nxl cells bmax bmin
  if cells.any (fun c => decide (x c = some none)) then none
  else some (finish cf cells (cells.foldl (monoStep cf x) ⟨fun _ => 0, fun _ => 0, fun _ => false⟩))

end mono

/-! ### Remap file (write 359-425, read 63-113) -/

/-- A record of the remap file: `tile1`, `tile1_cell`, `tile2_cell`, `xgrid_area`, `tile1_distance`. -/
structure RemapRec (K : Type) where
  tile1 : Int
  cell1 : Int × Int
  cell2 : Int × Int
  area : K
  dist : K × K

/-- One processor's entries as written; `isc`, `jsc` start its target compute domain. -/
def writeRec (isc jsc : Nat) (c : XCell K) : RemapRec K :=
  ⟨(c.t1 : Int) + 1, ((c.i1 : Int) + 1, (c.j1 : Int) + 1),
    ((c.i2 : Int) + isc + 1, (c.j2 : Int) + jsc + 1), c.area, (c.di, c.dj)⟩

/-- The file holds the entries of all processors in the order of the processors
(`mpp_gather_field_*`). -/
def writeRemap (parts : List (Nat × Nat × List (XCell K))) : List (RemapRec K) :=
  parts.flatMap fun p => p.2.2.map (writeRec p.1 p.2.1)

/-- A record as read by a processor with target compute domain `isc..iec`, `jsc..jec` (86-113): skipped
unless inside; indices become zero based and local. `area` is divided by `garea` on reading and multiplied
by it again. -/
def readRec (garea : K) (isc iec jsc jec : Int) (r : RemapRec K) : Option (XCell K) :=
  if r.cell2.1 - 1 ≤ iec ∧ isc ≤ r.cell2.1 - 1 ∧ r.cell2.2 - 1 ≤ jec ∧ jsc ≤ r.cell2.2 - 1 then
    some ⟨(r.tile1 - 1).toNat, (r.cell1.1 - 1).toNat, (r.cell1.2 - 1).toNat,
      (r.cell2.1 - 1 - isc).toNat, (r.cell2.2 - 1 - jsc).toNat, r.area / garea * garea,
      r.dist.1, r.dist.2⟩
  else none

def readRemap (garea : K) (isc iec jsc jec : Int) (f : List (RemapRec K)) : List (XCell K) :=
  f.filterMap (readRec garea isc iec jsc jec)

end Verif.Conserve
