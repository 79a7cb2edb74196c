import Verif.Model.XGrid
import Mathlib.Algebra.Order.Field.Basic
/-
Model of how make_coupler_mosaic divides an atmosphere cell into land and ocean exchange cells, and of the land
and ocean masks made from them.

Source: /repo/src/make-coupler-mosaic/make_coupler_mosaic.c: constants 150-153, loop over the land cells
1410-1562, loop over the ocean cells 1565-1722, output of the land exchange cells 1724-1742, sums per land and
ocean cell 1786-1841, masks 2057-2068 and 2111-2117, centroid distances 1868-2034, last lines 3812-3819.

Simplifications: numbers belong to an ordered field; the areas found by clipping (`clip_2dx2d` or
`clip_2dx2d_great_circle` followed by the area function) are data, `none` when a latitude or longitude test or
the clipping finds nothing; the cells of all tiles are in one list in loop order; the limit on the number of
exchange cells is left out (modelled in `Verif/Model/XGrid.lean`), the limit `MX` is kept; printing is left out.
-/
namespace Verif.CouplerTile

/-- What the loop over land and ocean cells reads for one atmosphere cell. `outside o` is the test of 1629, which
leaves the whole round of the loop. -/
structure Geometry (K L O : Type) where
  areaA : K
  areaL : L → K
  areaO : O → K
  clipAL : L → Option K
  clipAO : O → Option K
  clipALO : L → O → Option K
  outside : O → Bool
  frac : O → K

variable {K L O : Type} [Field K] [LinearOrder K]

/-- `MIN_AREA_FRAC` (153). -/
def minFrac : K := 1 / 10000

/-- One round of 1412-1560: an atmosphere by land piece that is large enough is remembered, in arrays of `mx`
elements which are written before the count is tested. -/
def keepStep (g : Geometry K L O) (thresh : K) (mx : Nat) (ks : List L) (l : L) : Except XGrid.Stop (List L) :=
  match g.clipAL l with
  | none => .ok ks
  | some x =>
    if x / min (g.areaL l) g.areaA > thresh then
      if ks.length < mx then
        if ks.length + 1 > mx then .error .error else .ok (ks ++ [l])
      else .error .oob
    else .ok ks

/-- 1409-1562. -/
def keep (g : Geometry K L O) (thresh : K) (mx : Nat) (lnds : List L) : Except XGrid.Stop (List L) :=
  lnds.foldlM (keepStep g thresh mx) []

/-- One round of 1679-1719: the part of ocean cell `o` that is land is added to a remembered piece. -/
def addLand (g : Geometry K L O) (thresh : K) (o : O) (p : L × K) : L × K :=
  match g.clipALO p.1 o with
  | none => p
  | some x =>
    if x * (1 - g.frac o) / min (g.areaL p.1) g.areaA > thresh then (p.1, p.2 + x * (1 - g.frac o)) else p

/-- 1677-1720. -/
def landPart (g : Geometry K L O) (thresh : K) (o : O) (axl : List (L × K)) : List (L × K) :=
  if 1 - g.frac o > minFrac then axl.map (addLand g thresh o) else axl

/-- 1648-1675: an exchange cell with the ocean. -/
def ocnEntry (g : Geometry K L O) (thresh : K) (o : O) (axo : List (O × K)) : List (O × K) :=
  match g.clipAO o with
  | none => axo
  | some x =>
    if x * g.frac o / min (g.areaO o) g.areaA > thresh then axo ++ [(o, x * g.frac o)] else axo

/-- One round of 1566-1721. -/
def ocnStep (g : Geometry K L O) (thresh : K) (s : List (L × K) × List (O × K)) (o : O) :
    List (L × K) × List (O × K) :=
  if g.frac o > minFrac then
    if g.outside o then s
    else (landPart g thresh o s.1, ocnEntry g thresh o s.2)
  else (landPart g thresh o s.1, s.2)

/-- The exchange cells of one atmosphere cell with the ocean and with the land. -/
def cellXgrid (g : Geometry K L O) (thresh : K) (mx : Nat) (lnds : List L) (ocns : List O) :
    Except XGrid.Stop (List (O × K) × List (L × K)) := do
  let ks ← keep g thresh mx lnds
  let s := ocns.foldl (ocnStep g thresh) (ks.map fun l => (l, 0), [])
  pure (s.2, s.1.filter fun p => decide (p.2 / min (g.areaL p.1) g.areaA > thresh))

/-! ### All atmosphere cells -/

/-- Exchange cells of all atmosphere cells: with the ocean and with the land. -/
def xgrid {A : Type} (geo : A → Geometry K L O) (thresh : K) (mx : Nat) (lnds : List L) (ocns : List O) :
    List A → Except XGrid.Stop (List (A × O × K) × List (A × L × K))
  | [] => .ok ([], [])
  | a :: as => do
    let (axo, axl) ← cellXgrid (geo a) thresh mx lnds ocns
    let (xo, xl) ← xgrid geo thresh mx lnds ocns as
    pure (axo.map (fun e => (a, e)) ++ xo, axl.map (fun e => (a, e)) ++ xl)

/-- `o_area` and `l_area`, 1786-1841: area of the exchange cells of each parent cell, without those of the nest
tile. -/
def parentArea {A P : Type} [DecidableEq P] (nest : A → Bool) (xs : List (A × P × K)) : P → K :=
  xs.foldl (fun s e => if nest e.1 then s else Function.update s e.2.1 (s e.2.1 + e.2.2)) (fun _ => 0)

/-- The mask written for land and ocean (2060, 2112). -/
def mask {A P : Type} [DecidableEq P] (nest : A → Bool) (area : P → K) (xs : List (A × P × K)) (p : P) : K :=
  parentArea nest xs p / area p

/-- `nbad`: number of ocean cells whose mask differs by more than `TOLORENCE` from the mask read (2061). -/
def nbad {A : Type} [DecidableEq O] (nest : A → Bool) (area omask : O → K) (xs : List (A × O × K)) (ocns : List O) :
    Nat :=
  (ocns.filter fun o => decide (|omask o - mask nest area xs o| > 1 / 10000)).length

/-- How the program ends, 3812-3819: true for an error. -/
def endsWithError (verbose : Bool) (nbad : Nat) : Bool := verbose && decide (nbad ≠ 0)

/-! ### Centroid distances of second order exchange grids -/

/-- An exchange cell seen from one parent grid: parent cell, area, area times centroid coordinate
(`clon` or `clat`), and whether it takes part in the sums (its atmosphere tile is not the nest tile). -/
structure XCell (K P : Type) where
  parent : P
  area : K
  moment : K
  counted : Bool

/-- The sums of 1903-1912 and 1951-1960. -/
def sums {P : Type} [DecidableEq P] (xs : List (XCell K P)) : (P → K) × (P → K) :=
  xs.foldl (fun s e => if e.counted then
      (Function.update s.1 e.parent (s.1 e.parent + e.area), Function.update s.2 e.parent (s.2 e.parent + e.moment))
    else s) (fun _ => 0, fun _ => 0)

/-- Centroid of a parent cell (1972-1977, 2001-2005, 2020-2024). -/
def centroid {P : Type} [DecidableEq P] (xs : List (XCell K P)) (p : P) : K :=
  if (sums xs).1 p > 0 then (sums xs).2 p / (sums xs).1 p else (sums xs).2 p

/-- The distances `dia, dja, dil, djl, dio, djo` of 1980-1993, 2007-2013 and 2026-2032. -/
def distance {P : Type} [DecidableEq P] (xs : List (XCell K P)) (e : XCell K P) : K :=
  e.moment / e.area - centroid xs e.parent

end Verif.CouplerTile
