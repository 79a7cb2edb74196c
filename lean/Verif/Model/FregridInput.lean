import Verif.Model.FregridHalo
/-
Model of how fregrid takes its grids from the supergrid files.

Source: /repo/src/fre-grid/fregrid_util.c `get_input_grid` 157-266 (points, angles) and 276-297, 301-327 (halo, see Model/FregridHalo);
`get_output_grid_from_mosaic` 414-560 (one-dimensional axes, points of the rows of one process, angles).

Simplifications: the factor `D2R` is left out: it is applied to each value. Arrays are functions of flat indices; which indices lie inside is a theorem.
Reading of files by contract: an array holds the values row after row.
-/
namespace Verif.FregridInput
open Verif.FregridHalo

/-- 196-201: sizes of the grid from those of the supergrid; odd sizes stop the program. -/
def sizes (nxs nys : Nat) : Option (Nat × Nat) := if nxs % 2 ≠ 0 then none else if nys % 2 ≠ 0 then none else some (nxs / 2, nys / 2)

/-- A double loop that copies: `a[(j+halo)*w + i+halo] = src[s(j,i)]`. -/
def copyPoints {F : Type} (w halo : Int) (nI nJ : Nat) (src : Int → F) (s : Nat → Nat → Int) (a : Int → F) : Int → F :=
  (List.range nJ).foldl (fun a (j : Nat) => (List.range nI).foldl (fun a (i : Nat) => fun x => if x = ((j : Int) + halo) * w + i + halo then src (s j i) else a x) a) a

/-- Index of a corner in the supergrid, 228. -/
def cornerIndex (nx : Nat) (j i : Nat) : Int := 2 * (j : Int) * (2 * nx + 1) + 2 * i

/-- Index of a centre in the supergrid, 237. -/
def centreIndex (nx : Nat) (j i : Nat) : Int := (2 * (j : Int) + 1) * (2 * nx + 1) + 2 * i + 1

/-- 222-231: `lonc` or `latc`; `old` is what the array holds before. -/
def corners {F : Type} [Zero F] (halo nx ny : Nat) (sg old : Int → F) : Int → F :=
  copyPoints ((nx : Int) + 1 + 2 * halo) halo (nx + 1) (ny + 1) sg (cornerIndex nx) (if 0 < halo then initHalo ((nx : Int) + 1) ((ny : Int) + 1) 1 old else old)

/-- 232-245: `lont` or `latt`. -/
def centres {F : Type} [Zero F] (nx ny : Nat) (sg old : Int → F) : Int → F :=
  initHalo nx ny 1 (copyPoints ((nx : Int) + 2) 1 nx ny sg (centreIndex nx) old)

/-- 219: `lont1D`, also 527 -/
def lonAxis {F : Type} (nx : Nat) (sg : Int → F) (i : Nat) : F := sg (2 * nx + 1 + 2 * i + 1)

/-- 220: `latt1D` of the input grid -/
def latAxisIn {F : Type} (nx : Nat) (sg : Int → F) (j : Nat) : F := sg ((2 * (j : Int) + 1) * (2 * nx + 1) + 1)

/-- 262: index of the angle of a cell of the input grid -/
def angleIndexIn (nx j i : Nat) : Int := (2 * (j : Int) + 2) * (2 * nx + 2) + 2 * i + 2

/-- All tiles of the input mosaic: centres with halo, 276-297. -/
def centreGrid {F : Type} [Zero F] (cs : List MosaicContact.Contact) (nx ny : Nat → Nat) (ntiles : Nat) (sg old : Nat → Int → F) : Except Err (Mem F) :=
  fill cs 0 1 (fun t => (nx t : Int)) (fun t => (ny t : Int)) ntiles (fun t => centres (nx t) (ny t) (sg t) (old t))

/-- All tiles of the input mosaic: corners with halo (bilinear interpolation), 301-327. -/
def cornerGrid {F : Type} [Zero F] (cs : List MosaicContact.Contact) (nx ny : Nat → Nat) (ntiles : Nat) (sg old : Nat → Int → F) : Except Err (Mem F) :=
  fill cs 1 1 (fun t => (nx t : Int)) (fun t => (ny t : Int)) ntiles (fun t => corners 1 (nx t) (ny t) (sg t) (old t))

/-! ### Output grid -/

/-- Column used for latitudes, 519-526: corners and centres -/
def latColumn (tripolar : Bool) (nx : Nat) : Int × Int := if tripolar then (2 * ((nx / 4 : Nat) : Int), 2 * ((nx / 4 : Nat) : Int)) else (0, 2)

/-- 524: `lonc1D` -/
def lonEdges {F : Type} (sg : Int → F) (i : Nat) : F := sg (2 * i)

/-- 525: `latc1D` -/
def latEdges {F : Type} (tripolar : Bool) (nx : Nat) (sg : Int → F) (j : Nat) : F := sg (2 * (j : Int) * (2 * nx + 1) + (latColumn tripolar nx).1)

/-- 528: `latt1D` -/
def latAxisOut {F : Type} (tripolar : Bool) (nx : Nat) (sg : Int → F) (j : Nat) : F := sg ((2 * (j : Int) + 1) * (2 * nx + 1) + (latColumn tripolar nx).2)

/-- 508-513: `lonc`, `latc` of the part of one process: rows from `jsc`, columns from `isc`, `nxc` by `nyc` cells -/
def cornersOut {F : Type} (nx isc jsc nxc nyc : Nat) (sg old : Int → F) : Int → F :=
  copyPoints ((nxc : Int) + 1) 0 (nxc + 1) (nyc + 1) sg (fun j i => cornerIndex nx (j + jsc) (i + isc)) old

/-- 541-543: index of the angle of a cell of the output grid -/
def angleIndexOut (nx isc jsc j i : Nat) : Int := 2 * ((j : Int) + jsc) * (2 * nx + 1) + 2 * ((i : Int) + isc)

end Verif.FregridInput
