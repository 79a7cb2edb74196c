import Mathlib.Analysis.SpecialFunctions.Trigonometric.Basic
/-
Model of the regridding of river runoff to an ocean grid (runoff_regrid).

Source: /repo/src/runoff-regrid/runoff_regrid.c: land sea mask of `get_output_grid` 420-423, map to the nearest
ocean cell of `setup_remap` 505-522, `process_data` 626-664 for one time level, `distance` 690-704, `nearest`
708-726.

Simplifications: numbers are real numbers; one time level, since time levels are independent; the exchange grid
is a list of entries as computed by `create_xgrid_1dx2d_order1` (modelled in `Verif/Model/XGrid.lean`) and
gathered from the processes (modelled in `Verif/Model/Mpp.lean`); the map is computed by one process for all
cells; arrays are functions on the index `j*nx+i`.  Using the map entry -1 as an index, which is outside the
array, is the outcome `none`.
-/
namespace Verif.Runoff

open Real

/-- One entry of the exchange grid: `i_in, j_in, i_out, j_out, xgrid_area`. -/
structure XEntry where
  iIn : Nat
  jIn : Nat
  iOut : Nat
  jOut : Nat
  area : ℝ

/-- Land sea mask on the output grid with `nExt` rows added in the south (420-423): true for ocean. -/
noncomputable def oceanMask (nx ny nExt : Nat) (depth : Nat → ℝ) (seaLevel : ℝ) (l : Nat) : Bool :=
  if nExt * nx ≤ l ∧ l < nx * ny then
    @decide (depth (l - nExt * nx) > seaLevel) (Classical.propDecidable _)
  else false

/-- `distance`: length of the chord between two points of the unit sphere. -/
noncomputable def distance (lon1 lat1 lon2 lat2 : ℝ) : ℝ :=
  let z1 := sin lat1
  let z2 := sin lat2
  let x1 := cos lat1 * cos lon1
  let x2 := cos lat2 * cos lon2
  let y1 := cos lat1 * sin lon1
  let y2 := cos lat2 * sin lon2
  sqrt ((z1 - z2) ^ 2 + (x1 - x2) ^ 2 + (y1 - y2) ^ 2)

/-- One round of the loop of `nearest`, 716-723: the best distance and cell so far. -/
noncomputable def nearestStep (mask : Nat → Bool) (lon lat : Nat → ℝ) (plon plat : ℝ) (s : ℝ × Option Nat)
    (n : Nat) : ℝ × Option Nat :=
  if mask n then
    let r1 := distance plon plat (lon n) (lat n)
    if r1 < s.1 then (r1, some n) else s
  else s

/-- `nearest`: the index of the cell chosen, `none` when `iout, jout` keep the value -1 given to them in
505-508.  The two loops run through the indices `j*nlon+i` in increasing order. -/
noncomputable def nearest (nlon nlat : Nat) (mask : Nat → Bool) (lon lat : Nat → ℝ) (plon plat : ℝ) : Option Nat :=
  ((List.range (nlon * nlat)).foldl (nearestStep mask lon lat plon plat)
    (distance 0 (π / 2) 0 (-π / 2), none)).2

/-- `remap->imap, jmap` (505-522): the nearest ocean cell of a land cell. -/
noncomputable def landMap (nx ny : Nat) (mask : Nat → Bool) (lon lat : Nat → ℝ) (l : Nat) : Option Nat :=
  if mask l then none else nearest nx ny mask lon lat (lon l) (lat l)

/-- `data_out` after 626-637: the sum of input value times exchange area per output cell. -/
noncomputable def accumulate (nxIn nx : Nat) (dataIn : Nat → ℝ) (xs : List XEntry) : Nat → ℝ :=
  xs.foldl (fun a e => Function.update a (e.jOut * nx + e.iOut)
    (a (e.jOut * nx + e.iOut) + dataIn (e.jIn * nxIn + e.iIn) * e.area)) (fun _ => 0)

/-- One round of 640-648. -/
noncomputable def moveStep (mask : Nat → Bool) (map : Nat → Option Nat) (a : Nat → ℝ) (l : Nat) :
    Option (Nat → ℝ) :=
  if 0 < a l ∧ mask l = false then
    match map l with
    | none => none
    | some t =>
      let a := Function.update a t (a t + a l)
      some (Function.update a l 0)
  else some a

/-- The loop 640-648. -/
noncomputable def move (nx ny : Nat) (mask : Nat → Bool) (map : Nat → Option Nat) (a : Nat → ℝ) :
    Option (Nat → ℝ) :=
  (List.range (nx * ny)).foldlM (moveStep mask map) a

/-- The field written for one time level, 626-664: value at index `l` of the file, which has `ny - nExt`
rows. -/
noncomputable def process (nxIn nx ny nExt : Nat) (mask : Nat → Bool) (map : Nat → Option Nat) (area : Nat → ℝ)
    (dataIn : Nat → ℝ) (xs : List XEntry) : Option (Nat → ℝ) :=
  (move nx ny mask map (accumulate nxIn nx dataIn xs)).map fun a l => a (l + nExt * nx) / area (l + nExt * nx)

end Verif.Runoff
