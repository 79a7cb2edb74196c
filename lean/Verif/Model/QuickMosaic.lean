import Mathlib.Algebra.Order.Field.Basic
/-
Model of the land and ocean areas, masks and exchange cells of make_quick_mosaic.

Source: /repo/src/make-quick-mosaic/make_quick_mosaic.c: topography 289-360, land fraction 362-407, coupler mosaic
410-473, masks 475-531, exchange cells 590-606 and 648-664; thresholds 33-34.

Simplifications: numbers belong to an ordered field; one tile; `area_frac` and `depth`, `land_frac` and the
exchange grid files are given as data; areas of the exchange grid file are in the unit of the cell areas; arrays
are functions on the index `j*nx+i`.
-/
namespace Verif.QuickMosaic

variable {K : Type} [Field K] [LinearOrder K]

/-- `land_area` and `ocean_area` of a cell from the ocean mask (347-356). -/
def fromTopog (cell omask : K) : K × K := if omask = 1 then (0, cell) else (cell, 0)

/-- The ocean mask when the file has no `area_frac` (341-343). -/
def depthMask (depth seaLevel : K) : K := if depth > seaLevel then 1 else 0

/-- `land_area` and `ocean_area` of a cell from the land fraction (400-403). -/
def fromFrac (cell lfrac : K) : K × K := (cell * lfrac, cell * (1 - lfrac))

/-- `land_area` from the exchange grid between atmosphere and land (439-444): indices `i2, j2` and area. -/
def landFromXgrid (nx : Nat) (xs : List (Nat × Nat × K)) : Nat → K :=
  xs.foldl (fun s e => Function.update s (e.2.1 * nx + e.1) (s (e.2.1 * nx + e.1) + e.2.2)) (fun _ => 0)

/-- `ocean_area` of a cell when its land area is known (458-471); `none` for the error. -/
def oceanFromLand (cell land : K) : Option K :=
  let ocean := if cell < land + 1 / 1000000 * cell ∧ cell > land - 1 / 10000 * cell then 0 else cell - land
  if ocean < 0 then none else some ocean

/-- The mask written for land or ocean (482, 511). -/
def maskOf (cell area : K) : K := area / cell

/-- The exchange cells of one file (593-606, 651-664): indices `i1, j1, i2, j2` and area. -/
def xcells (nx ny : Nat) (area : Nat → K) : List ((Nat × Nat × Nat × Nat) × K) :=
  (List.range ny).flatMap fun j => (List.range nx).filterMap fun i =>
    if area (j * nx + i) > 0 then some ((i + 1, j + 1, i + 1, j + 1), area (j * nx + i)) else none

end Verif.QuickMosaic
