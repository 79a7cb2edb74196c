import Verif.Model.CString
import Mathlib.Algebra.Order.Floor.Ring
import Mathlib.Algebra.Order.Field.Basic
/-
Model of src/make-regional-mosaic/make_regional_mosaic.c. Coordinates and values of axes are elements of an ordered field.
A file of a tile is its number of rows and columns of supergrid points and the arrays `x` and `y`. Names of files and
attributes written to the output are left out.
-/
namespace Verif.Regional

open Verif.CString

/-- Grid file of a tile: `nyp` rows and `nxp` columns of points -/
structure TileFile (K : Type) where
  nyp : Nat
  nxp : Nat
  x : Nat → Nat → K
  y : Nat → Nat → K

inductive Err
  | noTile
  | notContiguousX
  | notContiguousY
  | undefined
  | netcdf
deriving DecidableEq, Repr

/-- What is written: number of the tile counted from 0 (l.236, l.258), cells (l.239-242) and points (l.262-263) -/
structure Out (K : Type) where
  tile : Nat
  ny : Nat
  nx : Nat
  x : Nat → Nat → K
  y : Nat → Nat → K

/-- The tile number in the name of the file, l.137-155: the first number whose `.tile%d.nc` is a part of the name -/
def tileOf (ntiles : Nat) (name : List Char) : Option Nat :=
  (List.range ntiles).find? fun n => strstr name (".tile".toList ++ digits (n + 1) ++ ".nc".toList)

variable {K : Type} [Field K] [LinearOrder K] [IsStrictOrderedRing K] [FloorRing K]

/-- `round_to_nearest_int`, lib/libfrencutils/tool_util.c l.45-48. The conversion to `int` is exact. -/
def roundInt (r : K) : Int := if 0 < r then ⌊r + 1 / 2⌋ else ⌈r - 1 / 2⌉

/-- First index of a range and the check of the range, l.181-188. Of an empty axis the code reads element `-1`. -/
def axisStart (e : Err) (axis : List K) : Except Err Int :=
  match (axis.map roundInt).head?, (axis.map roundInt).getLast? with
  | some a, some b => if b - a + 1 = axis.length then .ok a else .error e
  | _, _ => .error .undefined

/-- Reading a block of a variable, l.216-222, by the contract of the NetCDF library: a block outside the variable is an
error. A negative start is converted to `size_t` and so lies outside. -/
def readBlock (nyp nxp : Nat) (v : Nat → Nat → K) (j0 i0 : Int) (nj ni : Nat) : Except Err (Nat → Nat → K) :=
  if 0 ≤ j0 ∧ 0 ≤ i0 ∧ j0 + nj ≤ nyp ∧ i0 + ni ≤ nxp then .ok fun j i => v (j0.toNat + j) (i0.toNat + i) else .error .netcdf

/-- The program: l.137-155 (tile), l.157-189 (indices), l.191-223 (points), l.226-265 (output) -/
def run (ntiles : Nat) (name : List Char) (xaxis yaxis : List K) (files : Nat → TileFile K) : Except Err (Out K) := do
  let tile ← match tileOf ntiles name with
    | some t => .ok t
    | none => .error .noTile
  -- l.181-184 read all four ends before the checks of l.187-188
  if xaxis = [] ∨ yaxis = [] then .error .undefined
  let imin ← axisStart .notContiguousX xaxis
  let jmin ← axisStart .notContiguousY yaxis
  let f := files tile
  let x ← readBlock f.nyp f.nxp f.x (2 * jmin - 2) (2 * imin - 2) (2 * yaxis.length + 1) (2 * xaxis.length + 1)
  let y ← readBlock f.nyp f.nxp f.y (2 * jmin - 2) (2 * imin - 2) (2 * yaxis.length + 1) (2 * xaxis.length + 1)
  return { tile, ny := yaxis.length, nx := xaxis.length, x, y }

end Verif.Regional
