import Verif.Model.TransferMosaic
import Mathlib.Analysis.SpecialFunctions.Trigonometric.Arctan
import Mathlib.Analysis.SpecialFunctions.Pow.Real
/-
Model of `make_hgrid --grid_type from_file`: the grid is given by a file with cell centres and corners (NetCDF) or by a text file.

Source: /repo/src/make-hgrid/create_grid_from_file.c (`create_grid_from_file` 50-237, `create_grid_from_text_file` 241-305, `get_grid_v1` 307-320,
`get_grid_v5` 322-376, `get_grid_v2` 378-415, `get_grid_v3` 417-461, `get_grid_v4` 464-586) and /repo/src/make-hgrid/make_hgrid.c 873-933 (sizes),
1129-1138 (places of the tiles), 1269, 1318-1328 (places of the output).

Simplifications: numbers are elements of a field (real numbers for `get_grid_v4`). Arrays are memory with flat indices (Model/TransferMosaic), `none` is
memory that was not written. `mid_pt_sphere` and the distance are parameters. Areas are not part of the model, angles are set to 0.
-/
namespace Verif.GridFromFile
open Verif.TransferMosaic (Mem put loop2)

/-! ### Which form -/

/-- Dimensions and variables that are asked for. -/
structure File where
  dim : String → Bool
  var : String → Bool

inductive Form
  | v1 | v2 | v3 | v4 | v5
deriving DecidableEq, Repr

/-- create_grid_from_file.c 78-87; `none`: nothing is read, the arrays stay as they were allocated. -/
def form (f : File) : Option Form :=
  if f.dim "grid_xt" && f.var "grid_lon" then some .v1
  else if f.dim "grid_xt" && f.var "grid_xt" then some .v5
  else if f.dim "rlon" || f.dim "i" then some .v2
  else if f.dim "lon" then some .v3
  else if f.dim "x" then some .v4
  else none

/-- make_hgrid.c 886-919: names of the dimensions that give the size; an error if there are none or the second is missing. -/
def sizeDims (f : File) : Option (String × String) :=
  let two := fun a b => if f.dim b then some (a, b) else none
  if f.dim "grid_xt" then two "grid_xt" "grid_yt"
  else if f.dim "rlon" then two "rlon" "rlat"
  else if f.dim "lon" then two "lon" "lat"
  else if f.dim "i" then two "i" "j"
  else if f.dim "x" then two "x" "y"
  else none

/-! ### The supergrid -/

section
variable {F : Type} [Field F]

/-- The arrays that are read: corners and centres. -/
structure Src (F : Type) where
  xc : Mem F
  yc : Mem F
  xt : Mem F
  yt : Mem F

/-- 92-97 -/
def putCorners (ni nj nxp : Nat) (c : Mem F) (a : Mem F) : Mem F :=
  loop2 (nj + 1) (ni + 1) (fun j i a => put a (j * 2 * nxp + i * 2) (c (j * (ni + 1) + i))) a

/-- 98-103 -/
def putCentres (ni nj nxp : Nat) (t : Mem F) (a : Mem F) : Mem F :=
  loop2 nj ni (fun j i a => put a ((j * 2 + 1) * nxp + i * 2 + 1) (t (j * ni + i))) a

/-- 105-120 -/
def isUniform [DecidableEq F] (ni nj : Nat) (xt yt : Mem F) : Bool :=
  ((List.range nj).all fun j => (List.range (ni - 1)).all fun i => decide (yt (j * ni + (i + 1)) = yt (j * ni))) &&
  ((List.range ni).all fun i => (List.range (nj - 1)).all fun j => decide (xt ((j + 1) * ni + i) = xt i))

/-- Half the sum of two values in memory. -/
def half (a b : Option F) : Option F := do
  let x ← a
  let y ← b
  return (1 / 2) * (x + y)

/-- The point half way on the great circle, of two points in memory (a coordinate of `mid_pt_sphere`; degrees, the factors D2R and R2D are
part of `mid`). -/
def midOf (mid : F × F → F × F → F × F) (pr : F × F → F) (ax ay bx by' : Option F) : Option F := do
  let a1 ← ax
  let a2 ← ay
  let b1 ← bx
  let b2 ← by'
  return pr (mid (a1, a2) (b1, b2))

/-- How the points on the sides of the cells are found. -/
inductive Mode
  | uniform | angular | sphere
deriving DecidableEq, Repr

/-- 123-128, 137-143, 155-166: points on the southern side of cell (j, i), also on the northern side of the last row. -/
def sideX (m : Mode) (mid : F × F → F × F → F × F) (ni : Nat) (s : Src F) (j i : Nat) : Option F × Option F :=
  let k := j * (ni + 1) + i
  match m with
  | .uniform => (s.xt i, s.yc k)
  | .angular => (half (s.xc k) (s.xc (k + 1)), half (s.yc k) (s.yc (k + 1)))
  | .sphere => (midOf mid Prod.fst (s.xc k) (s.yc k) (s.xc (k + 1)) (s.yc (k + 1)), midOf mid Prod.snd (s.xc k) (s.yc k) (s.xc (k + 1)) (s.yc (k + 1)))

/-- 129-133, 144-150, 167-178: points on the western side of cell (j, i), also on the eastern side of the last column. -/
def sideY (m : Mode) (mid : F × F → F × F → F × F) (ni : Nat) (s : Src F) (j i : Nat) : Option F × Option F :=
  let k := j * (ni + 1) + i
  let k' := (j + 1) * (ni + 1) + i
  match m with
  | .uniform => (s.xc k, s.yt (j * ni))
  | .angular => (half (s.xc k) (s.xc k'), half (s.yc k) (s.yc k'))
  | .sphere => (midOf mid Prod.fst (s.xc k) (s.yc k) (s.xc k') (s.yc k'), midOf mid Prod.snd (s.xc k) (s.yc k) (s.xc k') (s.yc k'))

/-- 122-180 -/
def putSides (pr : Option F × Option F → Option F) (m : Mode) (mid : F × F → F × F → F × F) (ni nj nxp : Nat) (s : Src F) (a : Mem F) : Mem F :=
  let a := loop2 (nj + 1) ni (fun j i a => put a (j * 2 * nxp + i * 2 + 1) (pr (sideX m mid ni s j i))) a
  loop2 nj (ni + 1) (fun j i a => put a ((j * 2 + 1) * nxp + i * 2) (pr (sideY m mid ni s j i))) a

/-- 122-136: `is_uniform` first, then the option `--angular_midpoint`. -/
def modeOf [DecidableEq F] (angular : Bool) (ni nj : Nat) (s : Src F) : Mode :=
  if isUniform ni nj s.xt s.yt then .uniform else if angular then .angular else .sphere

/-- `x` and `y` of a supergrid with `nx` by `ny` cells. -/
def superX [DecidableEq F] (angular : Bool) (mid : F × F → F × F → F × F) (nx ny : Nat) (s : Src F) : Mem F :=
  putSides Prod.fst (modeOf angular (nx / 2) (ny / 2) s) mid (nx / 2) (ny / 2) (nx + 1) s
    (putCentres (nx / 2) (ny / 2) (nx + 1) s.xt (putCorners (nx / 2) (ny / 2) (nx + 1) s.xc (fun _ => none)))

def superY [DecidableEq F] (angular : Bool) (mid : F × F → F × F → F × F) (nx ny : Nat) (s : Src F) : Mem F :=
  putSides Prod.snd (modeOf angular (nx / 2) (ny / 2) s) mid (nx / 2) (ny / 2) (nx + 1) s
    (putCentres (nx / 2) (ny / 2) (nx + 1) s.yt (putCorners (nx / 2) (ny / 2) (nx + 1) s.yc (fun _ => none)))

/-- 182-189, 278-284: lengths in x-direction. -/
def lenX (dist : Option F × Option F → Option F × Option F → F) (nx ny : Nat) (x y : Mem F) : Mem F :=
  loop2 (ny + 1) nx (fun j i a => put a (j * nx + i) (some (dist (x (j * (nx + 1) + i), y (j * (nx + 1) + i))
    (x (j * (nx + 1) + i + 1), y (j * (nx + 1) + i + 1))))) (fun _ => none)

/-- 190-197, 286-292: lengths in y-direction. -/
def lenY (dist : Option F × Option F → Option F × Option F → F) (nx ny : Nat) (x y : Mem F) : Mem F :=
  loop2 ny (nx + 1) (fun j i a => put a (j * (nx + 1) + i) (some (dist (x (j * (nx + 1) + i), y (j * (nx + 1) + i))
    (x ((j + 1) * (nx + 1) + i), y ((j + 1) * (nx + 1) + i))))) (fun _ => none)

/-- 270-277: the text file; `n` runs through all places. -/
def textX (nx ny : Nat) (xb : Nat → F) : Mem F := loop2 (ny + 1) (nx + 1) (fun j i a => put a (j * (nx + 1) + i) (some (xb i))) (fun _ => none)
def textY (nx ny : Nat) (yb : Nat → F) : Mem F := loop2 (ny + 1) (nx + 1) (fun j i a => put a (j * (nx + 1) + i) (some (yb j))) (fun _ => none)

/-! ### Reading the corners -/

/-- `get_grid_v2` 395-411: one coordinate; `v` are the vertices of the file, four for each cell. -/
def corners2 (n m : Nat) (v : Nat → F) : Mem F :=
  let a := loop2 m n (fun j i a => put a (j * (n + 1) + i) (some (v ((j * n + i) * 4)))) (fun _ => none)
  let a := (List.range m).foldl (fun a j => put a (j * (n + 1) + n) (some (v ((j * n + n - 1) * 4 + 1)))) a
  let a := (List.range n).foldl (fun a i => put a (m * (n + 1) + i) (some (v (((m - 1) * n + i) * 4 + 3)))) a
  put a (m * (n + 1) + n) (some (v ((m * n - 1) * 4 + 2)))

/-- `get_grid_v3` 442-447 -/
def lonCorners3 (n m : Nat) (bnds : Nat → F) : Mem F :=
  (List.range (m + 1)).foldl (fun a j =>
    put ((List.range n).foldl (fun a i => put a (j * (n + 1) + i) (some (bnds (2 * i)))) a) (j * (n + 1) + n) (some (bnds (2 * n - 1)))) (fun _ => none)

/-- `get_grid_v3` 449-454 -/
def latCorners3 (n m : Nat) (bnds : Nat → F) : Mem F :=
  (List.range (n + 1)).foldl (fun a i =>
    put ((List.range m).foldl (fun a j => put a (j * (n + 1) + i) (some (bnds (2 * j)))) a) (m * (n + 1) + i) (some (bnds (2 * m - 1)))) (fun _ => none)

/-- 437-440, 346-351; also 356-360 and 363-373, there for the corners: the first row (column) is found and then copied, here it is written to all rows at once. -/
def rows (n m : Nat) (lon : Nat → F) : Mem F := loop2 m n (fun j i a => put a (j * n + i) (some (lon i))) (fun _ => none)
def columns (n m : Nat) (lat : Nat → F) : Mem F := loop2 m n (fun j i a => put a (j * n + i) (some (lat j))) (fun _ => none)

end

/-! ### Only centres -/

section
variable {F : Type} [Field F] [LinearOrder F]

/-- `get_grid_v5` 340-343 -/
def reversed (yt : Nat → F) : Bool := decide (0 < yt 0)

/-- 348-351: latitudes of the rows. -/
def lat5 (nj : Nat) (yt : Nat → F) (j : Nat) : F := if reversed yt then yt (nj - j - 1) else yt j

/-- 353-358: longitudes of the corners, the same in each row (360). -/
def lonEdge5 (ni : Nat) (xt : Nat → F) (i : Nat) : F :=
  let x1 := if xt 0 + 180 < xt (ni - 1) then xt (ni - 1) - 360 else xt (ni - 1)
  let first := (1 / 2) * (x1 + xt 0)
  if i = ni then first + 360 else if i = 0 then first else (1 / 2) * (xt (i - 1) + xt i)

/-- 363-371: latitudes of the corners, the same in each column. -/
def latEdge5 (nj : Nat) (yt : Nat → F) (j : Nat) : F :=
  if j = nj then 90 else if j = 0 then -90
  else if reversed yt then (1 / 2) * (yt (nj - j - 1) + yt (nj - j)) else (1 / 2) * (yt (j - 1) + yt j)

end

section
variable {F : Type} [Field F] [LinearOrder F]

/-- What is read from a file of form 2, 3 and 5. Form 1 has the four arrays as they are. -/
def src2 (n m : Nat) (lonV latV : Nat → F) (lon lat : Mem F) : Src F := ⟨corners2 n m lonV, corners2 n m latV, lon, lat⟩
def src3 (n m : Nat) (lon lat lonB latB : Nat → F) : Src F := ⟨lonCorners3 n m lonB, latCorners3 n m latB, rows n m lon, columns n m lat⟩
def src5 (ni nj : Nat) (xt yt : Nat → F) : Src F :=
  ⟨rows (ni + 1) (nj + 1) (lonEdge5 ni xt), columns (ni + 1) (nj + 1) (latEdge5 nj yt), rows ni nj xt, columns ni nj (lat5 nj yt)⟩

end

/-! ### Lambert's projection (`get_grid_v4`) -/

/-- 554-556, 559-561: the edges between the projected centres, in one direction; more than one cell. -/
def edges4 {F : Type} [Field F] (n : Nat) (c : Nat → F) (i : Nat) : F :=
  let inner := fun i => (1 / 2) * (c (i - 1) + c i)
  if i = 0 then 2 * c 0 - inner 1 else if i = n then 2 * c (n - 1) - inner (n - 1) else inner i


/-- The loop 538-545 that should check the rows: state `i`, `j`; the result is the list of rows looked at within `f` turns, and
whether it has ended. -/
def rowCheck (nlon nlat : Nat) : Nat → Nat → Nat → List Nat × Bool
  | 0, _, _ => ([], false)
  | f + 1, i, j => if i < nlat then
      -- the inner loop leaves `i` at `nlon`, or at 1 if there is one column
      let r := rowCheck nlon nlat f (max nlon 1) (j + 1)
      (j :: r.1, r.2)
    else ([], true)

noncomputable section
open Real

/-- 517-518, with `phi1`, `phi2` in radians. -/
def coneN (phi1 phi2 : ℝ) : ℝ := log (cos phi1 / cos phi2) / log (tan (π / 4 + phi2 / 2) / tan (π / 4 + phi1 / 2))
def coneF (phi1 n : ℝ) : ℝ := cos phi1 * (tan (π / 4 + phi1 / 2)) ^ n

/-- 519-523; `rho0` is `rho` at the central latitude. -/
def rho (n F lat : ℝ) : ℝ := F * (1 / tan (π / 4 + lat / 2)) ^ n
def projX (n F lon0 lon lat : ℝ) : ℝ := rho n F lat * sin (n * (lon - lon0))
def projY (n F rho0 lon0 lon lat : ℝ) : ℝ := rho0 - rho n F lat * cos (n * (lon - lon0))

/-- 566-570 -/
def backRho (n rho0 x y : ℝ) : ℝ := if n < 0 then - √(x * x + (rho0 - y) ^ 2) else √(x * x + (rho0 - y) ^ 2)
def backLon (n rho0 lon0 x y : ℝ) : ℝ := lon0 + arctan (x / (rho0 - y)) / n
def backLat (n F rho0 x y : ℝ) : ℝ := 2 * arctan ((F / backRho n rho0 x y) ^ (1 / n)) - π / 2

end

/-! ### Tiles -/

/-- make_hgrid.c 929-932: all tiles must have the size of the first. -/
def sameSize (sizes : List (Nat × Nat)) : Bool :=
  match sizes with
  | [] => true
  | s :: l => l.all fun t => decide (t = s)

/-- 1132: where `x` of tile `n` is put, with the size of the first tile. -/
def tileStart (nx ny n : Nat) : Nat := n * (nx + 1) * (ny + 1)

/-- 1269, 1318-1324: where `x` of tile `n` is taken from when it is written. -/
def outStart (sizes : List (Nat × Nat)) (n : Nat) : Nat := ((sizes.take n).map fun s => (s.1 + 1) * (s.2 + 1)).sum

end Verif.GridFromFile
