import Verif.Model.MergeRank
/-
Model of combine-ncc: combining files that are compressed by gathering.

Source: /repo/src/land_utils/combine-ncc.F90: `inquire_dimension` 270-318, `reorder_compressed_index`
321-355, loop over compressed variables 194-262.

Simplifications: one compressed dimension with its index variable (the program treats each compressed
dimension by itself, 196); the indices are read as 32-bit integers by the program, here integers;
values are copied through doubles, here any type; the netCDF calls succeed, with the documented
meaning; the definitions of dimensions and variables that come from the last file (107-160) and the
copying of variables without compressed dimension (163-192) are not part of this file. Index vectors
are in Fortran order and count from 0.
-/
namespace Verif.CombineNcc
open MergeRank

/-- What the program reads of an input file for one compressed dimension: the index variable, and the
values of each variable. -/
structure CFile (α : Type) where
  index : List Int
  val : Nat → List Nat → α

/-- `inquire_dimension` with `len` (311-315): number of non-negative indices in all files. -/
def outLen {α : Type} (files : List (CFile α)) : Nat :=
  (files.map fun f => f.index.countP (fun v => decide (0 ≤ v))).sum

/-- The concatenated indices (330-335). -/
def allIndex {α : Type} (files : List (CFile α)) : List Int := files.flatMap CFile.index

/-- Value at position `p` counted from 1. -/
def at1 (buff : List Int) (p : Nat) : Int := buff.getD (p - 1) 0

/-- `reorder_compressed_index` (321-355). -/
def reorder (buff : List Int) : List Int :=
  let rank := rankAscending (at1 buff) buff.length
  let k := (rank.takeWhile fun p => decide (at1 buff p < 0)).length
  (rank.drop k).map Int.ofNat ++ List.replicate k (-1)

/-- `buffer(rank(k))`; `none` is an access outside the array. -/
def pick {α : Type} (buffer : List α) (p : Int) : Option α :=
  if 1 ≤ p then buffer[(p - 1).toNat]? else none

/-- Start of slice `ii` (232-239): the compressed dimension, number `c` from here, starts at 0, the
others follow from `ii`. -/
def startOf : List Nat → Nat → Nat → List Nat
  | [], _, _ => []
  | _ :: ls, 0, ii => 0 :: startRest ls ii
  | l :: ls, c + 1, ii => ii % l :: startOf ls c (ii / l)
where
  /-- Behind the compressed dimension. -/
  startRest : List Nat → Nat → List Nat
    | [], _ => []
    | l :: ls, ii => ii % l :: startRest ls (ii / l)

/-- Reading one slice of variable `v` from all files (242-248). -/
def readSlice {α : Type} (files : List (CFile α)) (v c : Nat) (start : List Nat) : List α :=
  files.flatMap fun f => (List.range f.index.length).map fun k => f.val v (start.set c k)

/-- Storing a slice (254-256). -/
def writeSlice {α : Type} (out : List Nat → α) (c : Nat) (start : List Nat) (buf : List α) :
    List Nat → α :=
  fun idx => if idx.set c 0 = start ∧ idx.length = start.length
    then (buf[idx.getD c 0]?).getD (out idx) else out idx

/-- One slice (230-256): read, reorder, write. -/
def doSlice {α : Type} (files : List (CFile α)) (rank : List Int) (len v : Nat) (lens : List Nat)
    (c : Nat) (out : List Nat → α) (ii : Nat) : Option (List Nat → α) := do
  let start := startOf lens c ii
  let buffer := readSlice files v c start
  let obuffer ← (rank.take len).mapM (pick buffer)
  pure (writeSlice out c start obuffer)

/-- All slices of variable `v` (215-257), whose dimensions have lengths `lens` in the last file and
whose compressed dimension is number `c`. `fill` is the content of the new variable. `none` is an
access outside an array. -/
def combineVar {α : Type} (files : List (CFile α)) (v : Nat) (lens : List Nat) (c : Nat)
    (fill : List Nat → α) : Option (List Nat → α) :=
  if outLen files = 0 then some fill
  else (List.range (lens.prod / lens.getD c 0)).foldlM
    (doSlice files (reorder (allIndex files)) (outLen files) v lens c) fill

/-- The index variable as a variable of the file: it has the compressed dimension only. -/
def asIndex {α : Type} (f : CFile α) : CFile Int := ⟨f.index, fun _ idx => f.index.getD (idx.headD 0) 0⟩

end Verif.CombineNcc
