import Verif.Model.Compress
import Verif.Model.CombineNcc
/-
Model of scatter-ncc: distributing a file that is compressed by gathering.

Source: /repo/src/land_utils/scatter-ncc.F90 96-313.

Simplifications: one compressed dimension, the first dimension of its variables; each slice (fixed
indices in the other dimensions, 247-290) is treated by itself as in the program. `buffer_2d` and
`mask_2d` are one array of options. Access outside an array is the outcome `none`. Dimension names,
attributes and the copying of variables without compressed dimension are not part of the model. File
numbers and indices count from 0.
-/
namespace Verif.ScatterNcc
open Compress CombineNcc

/-- Grid size, number of entries per grid cell (the other dimensions named in the `compress` attribute)
and I/O layout. -/
structure Layout where
  nlon : Nat
  nlat : Nat
  nt : Nat
  npex : Nat
  npey : Nat

namespace Layout
variable (L : Layout)
/-- 119-121, 200-201 -/
def nlonL : Nat := L.nlon / L.npex
def nlatL : Nat := L.nlat / L.npey
def npts : Nat := L.nlon * L.nlat
def nptsL : Nat := L.nlonL * L.nlatL
def nfiles : Nat := L.npex * L.npey
def vsize : Nat := L.npts * L.nt
def vsizeL : Nat := L.vsize / L.nfiles
/-- File of element `l` of the unpacked array (261-267; also 157-162). -/
def block (l : Nat) : Nat :=
  let ij := l % L.npts
  let i := ij % L.nlon
  let j := ij / L.nlon
  j / L.nlatL * L.npex + i / L.nlonL
/-- Its position in that file's array (268-270). -/
def loc (l : Nat) : Nat :=
  let ij := l % L.npts
  let t := l / L.npts
  let i := ij % L.nlon
  let j := ij / L.nlon
  t * L.nptsL + j % L.nlatL * L.nlonL + i % L.nlonL
end Layout

/-- `nfu_get_compressed_var_r8n` for one slice of a variable whose first dimension is compressed
(256-259): unpacked values and mask. -/
def unpack {α : Type} (L : Layout) (ix : List Int) (zero : α) (vals : List α) :
    Option (List α × List Bool) :=
  getCompressed [CDim.mk ix.length (some (ix, L.vsize))] vals none
    (List.replicate L.vsize zero) (List.replicate L.vsize false)

/-- One round of the loop over the unpacked array (260-274). -/
def distStep {α : Type} (L : Layout) (data : List α) (mask : List Bool)
    (a2 : Nat → Nat → Option α) (l : Nat) : Option (Nat → Nat → Option α) :=
  match mask[l]? with
  | none => none
  | some false => some a2
  | some true =>
    match data[l]? with
    | none => none
    | some v =>
      if L.block l < L.nfiles ∧ L.loc l < L.vsizeL then
        some fun n k => if n = L.block l ∧ k = L.loc l then some v else a2 n k
      else none

/-- One slice of a variable: the values written to each file (250-284). -/
def scatterSlice {α : Type} (L : Layout) (ix : List Int) (zero : α) (vals : List α) :
    Option (Nat → List α) := do
  let (data, mask) ← unpack L ix zero vals
  let a2 ← (List.range L.vsize).foldlM (distStep L data mask) fun _ _ => none
  pure fun n => (List.range L.vsizeL).filterMap fun k => a2 n k

/-- The values of variable `v` of `f` for fixed indices `tl` in the other dimensions. -/
def sliceOf {α : Type} (f : CFile α) (v : Nat) (tl : List Nat) : List α :=
  (List.range f.index.length).map fun k => f.val v (k :: tl)

/-- Output file `n`. `fillI`, `fillV`: what netCDF delivers for values never written (a file without
points has a compressed dimension of length 1 that is never written, 165-170, 277). -/
def scatterFile {α : Type} (L : Layout) (f : CFile α) (zero : α) (fillI : Int) (fillV : α) (n : Nat) :
    CFile α where
  index :=
    match scatterSlice L f.index 0 f.index with
    | none => []
    | some s => if (s n).length = 0 then [fillI] else s n
  val v idx := ((scatterSlice L f.index zero (sliceOf f v idx.tail)).bind
    fun s => (s n)[idx.headD 0]?).getD fillV

/-- The program (96-313): it stops unless the layout divides the grid (115-117; a layout number that is
not given is 0, and `mod` then divides by zero). -/
def scatter {α : Type} (L : Layout) (f : CFile α) (zero : α) (fillI : Int) (fillV : α) :
    Option (List (CFile α)) :=
  if L.npex = 0 ∨ L.npey = 0 then none
  else if L.nlon % L.npex ≠ 0 ∨ L.nlat % L.npey ≠ 0 then none
  else some ((List.range L.nfiles).map (scatterFile L f zero fillI fillV))

/-- Length of the compressed dimension of file `n` (147-173), from the unpacked index variable. -/
def dimLen (L : Layout) (ix : List Int) (n : Nat) : Option Nat := do
  let (_, mask) ← unpack L ix 0 ix
  let cnt ← (List.range L.vsize).foldlM (fun (c : Nat → Nat) l =>
    match mask[l]? with
    | none => none
    | some false => some c
    | some true => if L.block l < L.nfiles then
        some fun m => if m = L.block l then c m + 1 else c m else none) fun _ => 0
  pure (max (cnt n) 1)

end Verif.ScatterNcc
