import Mathlib.Data.List.Basic
/-
The time axis of the output of fregrid: /repo/src/fre-grid/fregrid_util.c `get_input_metadata` 1301-1331 (time axis and its bounds are read), `set_output_metadata` 1575-1620 (copied),
`write_output_time` 2005-2030, called from /repo/src/fre-grid/fregrid.c 1029-1032 for each time step; types in /repo/lib/libfrencutils/mpp_io.c `mpp_get_var_value_block`, `mpp_put_var_value_block` 1352-1390.

Simplifications: numbers are of any type; the bounds have the type of the axis. An array of `size` doubles in which `int`s are stored (4 bytes each, from the start) is a list of `2 * size` places. Cases of
the axis: `NC_DOUBLE` or `NC_FLOAT`, and `NC_INT`. Reading beyond an array gives `junk`, as memory that was never set.
-/
namespace Verif.OutputTime

inductive Kind where
  | double
  | int
deriving DecidableEq

/-- An element of a variable in a file: never written, or written with something. -/
inductive Cell (α : Type) where
  | fill
  | junk
  | val (x : α)
deriving DecidableEq

variable {α : Type}

/-- 1303, 1314-1316, 1330: an array of `size` doubles, after elements from `start` have been read into it; its places of 8 or 4 bytes. -/
def load (k : Kind) (file : List α) (start count size : Nat) : List (Cell α) :=
  let l := ((file.drop start).take count).map Cell.val
  l ++ List.replicate ((match k with | .double => size | .int => 2 * size) - l.length) .junk

/-- the `j`-th number behind the address of the double number `i` -/
def at' (k : Kind) (mem : List (Cell α)) (i j : Nat) : Cell α :=
  mem.getD ((match k with | .double => i | .int => 2 * i) + j) .junk

/-- `nc_put_vara` of one element -/
def put (var : Nat → Cell α) (pos : Nat) (c : Cell α) : Nat → Cell α := fun p => if p = pos then c else var p

/-- 2018-2020 for the time steps up to `m` -/
def times (k : Kind) (mem : List (Cell α)) : Nat → Nat → Cell α
  | 0 => fun _ => .fill
  | m + 1 => put (times k mem m) m (at' k mem m 0)

/-- 2021-2025, bounds with two dimensions: element `2 * m + j` is bound `j` of step `m`. -/
def bounds (k : Kind) (mem : List (Cell α)) : Nat → Nat → Cell α
  | 0 => fun _ => .fill
  | m + 1 => put (put (bounds k mem m) (2 * m) (at' k mem (2 * m) 0)) (2 * m + 1) (at' k mem (2 * m) 1)

/-- 2021-2025, edges with one dimension: only the first element of `start` and `nwrite` counts. -/
def edges (k : Kind) (mem : List (Cell α)) : Nat → Nat → Cell α
  | 0 => fun _ => .fill
  | m + 1 => put (edges k mem m) m (at' k mem (2 * m) 0)

/-- Times of a run from step `lstart` (from 0) with `nt` steps -/
def timeOut (k : Kind) (file : List α) (lstart nt : Nat) : Nat → Cell α := times k (load k file lstart nt nt) nt
/-- 1325-1330: the bounds of one step follow each other in the file. -/
def boundsOut (k : Kind) (file : List α) (lstart nt : Nat) : Nat → Cell α := bounds k (load k file (2 * lstart) (2 * nt) (2 * nt)) nt
/-- 1320-1323 -/
def edgesOut (k : Kind) (file : List α) (lstart nt : Nat) : Nat → Cell α := edges k (load k file lstart (nt + 1) (nt + 1)) nt

end Verif.OutputTime
