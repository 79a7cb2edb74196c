import Verif.Model.Conserve
import Verif.Model.RowRange
/-
make_topog with `--topog_type realistic`: /repo/src/make-topog/topog.c `create_realistic_topog` 355-549 up to the call of `filter_topo` (520), and
`fill_first_row` (525-529); /repo/lib/libfrencutils/interp.c `conserve_interp` 262-304 with the loops of `create_xgrid_2dx2d_order1`
(/repo/lib/libfrencutils/create_xgrid.c 769-830); /repo/src/make-topog/make_topog.c 763-800 (the part of the grid that a process has).

Simplifications: numbers are an ordered field; the longitude tests, the clipping and the area with its threshold are a function `clip` of the source box and the four corners
of the target cell (`none`: no exchange cell); the blocks of threads are one block (C04 has the threads) and the limit of the number of exchange cells is left out; the great
circle version is left out; `filter_topo` and `process_topo` are in Model/Topog.
-/
namespace Verif.RealTopog
open Conserve RowRange

variable {K : Type}

/-- Ways in which the program does not give a result: it stops with a message, or it uses memory that it does not own or that has no value. -/
inductive Err
  | stopped
  | undefined
  deriving DecidableEq

/-- The file with the topography: axes with the centres of the cells (degrees), field, `missing_value`. -/
structure Source (K : Type) where
  nx : Nat
  ny : Nat
  xt : Nat → K
  yt : Nat → K
  /-- row `j`, column `i` -/
  val : Nat → Nat → K
  missing : K

/-- The corners of the model grid (degrees): column `i`, row `j`. -/
structure Grid (K : Type) where
  x : Nat → Nat → K
  y : Nat → Nat → K

/-- The part of the grid that a process has: first column and row, number of columns and rows (make_topog.c 763-769). -/
structure Piece where
  isc : Nat
  jsc : Nat
  nx : Nat
  ny : Nat

/-- A box of the source grid. -/
structure Box (K : Type) where
  x0 : K
  x1 : K
  y0 : K
  y1 : K

/-- The four corners of a target cell, as in create_xgrid.c 733-742. -/
structure Quad (K : Type) where
  p0 : K × K
  p1 : K × K
  p2 : K × K
  p3 : K × K

section
variable [Field K] [LinearOrder K]

/-- 416, 420: the middle between two centres. -/
def mid (t : Nat → K) (i : Nat) : K := (t (i - 1) + t i) / 2

/-- 416-418, 420-422: bounds of the cells. -/
def edge (n : Nat) (t : Nat → K) (i : Nat) : K :=
  if i = 0 then 2 * t 0 - mid t 1
  else if i = n then 2 * t (n - 1) - mid t (n - 1)
  else mid t i

/-- 426-427: in radians. `rad` is `D2R`. -/
def xc (rad : K) (s : Source K) (i : Nat) : K := edge s.nx s.xt i * rad
def yc (rad : K) (s : Source K) (j : Nat) : K := edge s.ny s.yt j * rad

/-- 429-434: the points of the piece, in radians; the array has `nx + 1` points in a row. -/
def xOut (rad : K) (g : Grid K) (p : Piece) (n : Nat) : K := g.x (p.isc + n % (p.nx + 1)) (p.jsc + n / (p.nx + 1)) * rad
def yOut (rad : K) (g : Grid K) (p : Piece) (n : Nat) : K := g.y (p.isc + n % (p.nx + 1)) (p.jsc + n / (p.nx + 1)) * rad

/-- 439-446: first and last bound between `lo` and `hi`. -/
def scanEdges (ny : Nat) (e : Nat → K) (lo hi : K) : Int × Int :=
  (List.range (ny + 1)).foldl (fun (s : Int × Int) j => if lo < e j ∧ e j < hi then (min s.1 (j : Int), max s.2 (j : Int)) else s) ((ny : Int), -1)

/-- 437-448: `jstart` and `jend`. -/
def window (rad : K) (s : Source K) (g : Grid K) (p : Piece) : Int × Int :=
  clampRows s.ny (scanEdges s.ny (yc rad s) (minval (yOut rad g p) ((p.nx + 1) * (p.ny + 1))) (maxval (yOut rad g p) ((p.nx + 1) * (p.ny + 1))))

/-- 492-502: the value after scaling, and the mask. -/
def scaled (s : Source K) (scale : K) (j i : Nat) : K := if s.val j i = s.missing then s.val j i else s.val j i * scale
def ocean (s : Source K) (scale : K) (j i : Nat) : Bool :=
  if s.val j i = s.missing then false else if s.val j i * scale ≤ 0 then false else true

/-- The box of the source cell in column `i` and row `j` (455-459). -/
def box (rad : K) (s : Source K) (j i : Nat) : Box K := ⟨xc rad s i, xc rad s (i + 1), yc rad s j, yc rad s (j + 1)⟩

/-- Corners of the target cell with number `ij` of the piece. -/
def quad (rad : K) (g : Grid K) (p : Piece) (ij : Nat) : Quad K :=
  let c := fun k => let n := corner p.nx (ij % p.nx) (ij / p.nx) k; (xOut rad g p n, yOut rad g p n)
  ⟨c 0, c 1, c 2, c 3⟩

/-- create_xgrid.c 793: neither cell is north of the other one. -/
def latNear (rad : K) (s : Source K) (g : Grid K) (p : Piece) (j ij : Nat) : Bool :=
  !(decide (cellMin (yOut rad g p) p.nx (ij % p.nx) (ij / p.nx) ≥ max (yc rad s j) (yc rad s (j + 1))) ||
    decide (cellMax (yOut rad g p) p.nx (ij % p.nx) (ij / p.nx) ≤ min (yc rad s j) (yc rad s (j + 1))))

variable (clip : Box K → Quad K → Option K)

/-- create_xgrid.c 769-830, called with the rows from `js` on: `j1` counts from `js`. -/
def cells (rad scale : K) (s : Source K) (g : Grid K) (p : Piece) (js nyNow : Nat) : List (XCell K) :=
  (List.range nyNow).flatMap fun j1 => (List.range s.nx).flatMap fun i1 =>
    if ocean s scale (js + j1) i1 then
      (List.range (p.nx * p.ny)).filterMap fun ij =>
        if latNear rad s g p (js + j1) ij then
          (clip (box rad s (js + j1) i1) (quad rad g p ij)).map fun a => ⟨0, i1, j1, ij % p.nx, ij / p.nx, a, 0, 0⟩
        else none
    else []

/-- 512-519 with interp.c 262-304. -/
def interpolate (rad scale : K) (s : Source K) (g : Grid K) (p : Piece) (js nyNow : Nat) : Nat → K :=
  conserveInterp s.nx p.nx (cells clip rad scale s g p js nyNow) fun n => scaled s scale (js + n / s.nx) (n % s.nx)

/-- 503-511: `--on_grid`. The loop is over the source cells that were read; `depth` has `nx_dst*ny_dst` elements. -/
def onGrid (scale : K) (s : Source K) (p : Piece) (js nyNow : Nat) : Except Err (Nat → K) :=
  if s.nx * nyNow ≠ p.nx * p.ny then .error .undefined
  else .ok fun n => if scaled s scale (js + n / s.nx) (n % s.nx) = s.missing then 0 else scaled s scale (js + n / s.nx) (n % s.nx)

/-- 400-529 without `filter_topo`. An axis of one point: `xc_src[1]` has no value in 417. With a negative number of rows `nc_get_vara` (473) refuses the request. -/
def depth (rad scale : K) (s : Source K) (g : Grid K) (p : Piece) (same fillFirst : Bool) : Except Err (Nat → K) :=
  if s.nx < 2 ∨ s.ny < 2 then .error .undefined
  else
    let w := window rad s g p
    let nyNow := w.2 - w.1 + 1
    if nyNow < 0 then .error .stopped
    else
      match (if same then onGrid scale s p w.1.toNat nyNow.toNat else .ok (interpolate clip rad scale s g p w.1.toNat nyNow.toNat)) with
      | .error e => .error e
      | .ok d => .ok fun n => if fillFirst ∧ n < p.nx then 0 else d n

end

end Verif.RealTopog
