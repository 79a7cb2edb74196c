import Mathlib.Algebra.Order.Field.Basic
import Mathlib.Order.MinMax
import Verif.Model.Interp

/-!
# Ocean depth and number of levels (`src/make-topog/topog.c`)

`filter_topo` (687-761) and `process_topo` (551-672) with the routines it calls:
`remove_isolated_cells` (830-875), `restrict_partial_cells` (878-942) and
`enforce_min_depth` (987-1048).

Simplifications.  Arrays over the grid are functions of row `j` and column `i`.  Every process
gathers the whole grid, works on it and keeps its own part of the answer
(`mpp_global_field_all_double`); the part kept is treated cell by cell afterwards, so the
decomposition does not matter and one process owning the whole grid is modelled.  Depths are
elements of an ordered field.  Printing is left out.
-/

namespace Verif.Topog

open Verif.Interp

/-- Why the program stops: `nearest_index` failed, an array was read outside its bounds, or
`mpp_error` in `enforce_min_depth`. -/
inductive Stop where
  | search (e : Interp.Fail)
  | oob
  | refused
  deriving DecidableEq

variable {K : Type _}

/-! ### filter_topo -/

section Filter

variable [Field K] [LinearOrder K]

/-- The weight `f[m]`, `m = (ip+1)*3 + jp+1` (708-716), for offsets `ip`, `jp` counted from 0. -/
def weight (ip jp : Nat) : K :=
  match ip, jp with
  | 1, 1 => 1 / 4
  | 1, _ => 1 / 8
  | _, 1 => 1 / 8
  | _, _ => 1 / 16

/-- One term of the sum (735-738): the neighbour at offset `(ip-1, jp-1)` of cell `(j, i)`, or the
cell itself where the neighbour is land. -/
def term (mask : Nat → Nat → Bool) (d : Nat → Nat → K) (j i ip jp : Nat) : K :=
  (if mask (j + jp - 1) (i + ip - 1) then d (j + jp - 1) (i + ip - 1) else d j i) * weight ip jp

/-- The sum over the nine neighbours, in the order of the two loops (730-740). -/
def smoothed (mask : Nat → Nat → Bool) (d : Nat → Nat → K) (j i : Nat) : K :=
  0 + term mask d j i 0 0 + term mask d j i 0 1 + term mask d j i 0 2
    + term mask d j i 1 0 + term mask d j i 1 1 + term mask d j i 1 2
    + term mask d j i 2 0 + term mask d j i 2 1 + term mask d j i 2 2

/-- Lines 741-744: limit the deepening, multiply with the mask. -/
def limited (deepen : Bool) (mask : Nat → Nat → Bool) (d : Nat → Nat → K) (j i : Nat) : K :=
  (if deepen = false ∧ d j i < smoothed mask d j i then d j i else smoothed mask d j i)
    * (if mask j i then 1 else 0)

/-- One pass (728-747).  `s` keeps on the edges of the grid what it had before, the values of the
first copy (720). -/
def filterPass (nxg nyg : Nat) (deepen : Bool) (mask : Nat → Nat → Bool)
    (s d : Nat → Nat → K) : Nat → Nat → K :=
  fun j i => if 1 ≤ j ∧ j + 1 < nyg ∧ 1 ≤ i ∧ i + 1 < nxg then limited deepen mask d j i else s j i

/-- `num_pass` passes; after each one the depth is replaced by `s` (747). -/
def filterLoop (nxg nyg : Nat) (deepen : Bool) (mask : Nat → Nat → Bool) :
    Nat → (Nat → Nat → K) → (Nat → Nat → K) → (Nat → Nat → K)
  | 0, _, d => d
  | n + 1, s, d =>
    filterLoop nxg nyg deepen mask n (filterPass nxg nyg deepen mask s d)
      (filterPass nxg nyg deepen mask s d)

/-- `filter_topo`: the mask (719-725) is taken from the first depths. -/
def filterTopo (nxg nyg numPass : Nat) (deepen : Bool) (depth : Nat → Nat → K) : Nat → Nat → K :=
  filterLoop nxg nyg deepen (fun j i => decide (depth j i ≠ 0)) numPass depth depth

end Filter

/-! ### process_topo -/

/-- The options of `process_topo`. -/
structure Opts (K : Type _) where
  tripolar : Bool
  cyclicX : Bool
  cyclicY : Bool
  fullCell : Bool
  flatBottom : Bool
  adjust : Bool
  fillIsolated : Bool
  dontChangeLandmask : Bool
  openVeryThin : Bool
  roundShallow : Bool
  deepenShallow : Bool
  fillShallow : Bool
  kmtMin : Int
  minThickness : K
  fractionFullCell : K

/-- The arrays `ht` and `kmt`.  `kmt` is the index of the bottom level, -1 on land. -/
structure State (K : Type _) where
  ht : Nat → Nat → K
  kmt : Nat → Nat → Int

/-- Store depth and level of one cell. -/
def State.set (s : State K) (c : Nat × Nat) (r : K × Int) : State K where
  ht := fun j i => if (j, i) = c then r.1 else s.ht j i
  kmt := fun j i => if (j, i) = c then r.2 else s.kmt j i

/-- The cells of `for(j=1; j<=nj; j++) for(i=1; i<=ni; i++)`. -/
def cells (ni nj : Nat) : List (Nat × Nat) :=
  (List.range nj).flatMap fun j => (List.range ni).map fun i => (j + 1, i + 1)

/-- A loop over cells which treats each one on its own. -/
def eachCell (f : K → Int → Except Stop (K × Int)) :
    List (Nat × Nat) → State K → Except Stop (State K)
  | [], s => .ok s
  | c :: cs, s =>
    match f (s.ht c.1 c.2) (s.kmt c.1 c.2) with
    | .error e => .error e
    | .ok r => eachCell f cs (s.set c r)

section Process

variable [Field K] [LinearOrder K]

/-- Lines 574-579: land with depth 0 everywhere, then the depths inside the halo of width 1. -/
def initial (ni nj : Nat) (depth : Nat → Nat → K) : State K where
  ht := fun j i => if 1 ≤ j ∧ j ≤ nj ∧ 1 ≤ i ∧ i ≤ ni then depth (j - 1) (i - 1) else 0
  kmt := fun _ _ => -1

/-- Lines 586-600: a cell whose nearest level `n` lies above its depth. -/
def belowNearest (zw : Nat → K) (nk : Nat) (minThickness h : K) (n : Nat) : K × Int :=
  if h - zw n < minThickness then (zw n, n)
  else if n + 1 = nk then (zw n, n)
  else (h, n + 1)

/-- Lines 582-603: bottom level of one cell. -/
def bottomLevel (zw : Nat → K) (nk : Nat) (minThickness : K) (h : K) (k : Int) :
    Except Stop (K × Int) :=
  if 0 < h then
    match nearestIndex h zw nk with
    | .error e => .error (.search e)
    | .ok n => .ok (if zw n < h then belowNearest zw nk minThickness h n else (h, n))
  else .ok (h, k)

/-- Lines 605-610: a level index -1 here would be a read outside `zw`. -/
def fullCells (zw : Nat → K) (on : Bool) (h : K) (k : Int) : Except Stop (K × Int) :=
  if on = true ∧ 0 < h then (if k < 0 then .error .oob else .ok (zw k.toNat, k)) else .ok (h, k)

/-- Lines 612-620. -/
def flatBottoms (zw : Nat → K) (nk : Nat) (on : Bool) (h : K) (k : Int) : Except Stop (K × Int) :=
  if on = true ∧ 0 < h then .ok (zw (nk - 1), (nk : Int) - 1) else .ok (h, k)

end Process

/-- Lines 623-636: the rows beyond the first and the last one. -/
def haloY {α : Type _} (ni nj : Nat) (tripolar cyclicY : Bool) (f : Nat → Nat → α) : Nat → Nat → α :=
  fun j i =>
    if 1 ≤ i ∧ i ≤ ni then
      if tripolar then (if j = nj + 1 then f nj (ni - i + 1) else f j i)
      else if cyclicY then (if j = 0 then f nj i else if j = nj + 1 then f 1 i else f j i)
      else f j i
    else f j i

/-- Lines 638-645: the columns beyond the first and the last one. -/
def haloX {α : Type _} (ni nj : Nat) (cyclicX : Bool) (f : Nat → Nat → α) : Nat → Nat → α :=
  fun j i =>
    if cyclicX = true ∧ j ≤ nj + 1 then
      (if i = 0 then f j ni else if i = ni + 1 then f j 1 else f j i)
    else f j i

/-- Lines 622-645. -/
def halo {α : Type _} (ni nj : Nat) (o : Opts K) (f : Nat → Nat → α) : Nat → Nat → α :=
  haloX ni nj o.cyclicX (haloY ni nj o.tripolar o.cyclicY f)

/-! ### remove_isolated_cells -/

section Isolated

/-- `hmin` and `kmin` (808-826): the smallest of the four cells around the corner north-east of
cell `(j, i)`. -/
def blockMin {α : Type _} [LinearOrder α] (f : Nat → Nat → α) (j i : Nat) : α :=
  min (min (f j i) (f j (i + 1))) (min (f (j + 1) i) (f (j + 1) (i + 1)))

/-- The argument of `max4_int` / `max4_double` (852, 856). -/
def bestBlock {α : Type _} [LinearOrder α] (f : Nat → Nat → α) (j i : Nat) : α :=
  max (max (blockMin f j i) (blockMin f j (i - 1)))
    (max (blockMin f (j - 1) i) (blockMin f (j - 1) (i - 1)))

variable [LinearOrder K]

/-- Lines 852-862 for one cell; the arrays are changed in place. -/
def removeStep (dontChangeLandmask : Bool) (s : State K) (c : Nat × Nat) : State K :=
  let k := bestBlock s.kmt c.1 c.2
  if (0 ≤ k ∨ dontChangeLandmask = false) ∧ s.kmt c.1 c.2 ≠ k then
    s.set c (bestBlock s.ht c.1 c.2, k)
  else s

/-- Lines 836-842: the last row of a tripolar grid is not looked at. -/
def checkedRows (nj : Nat) (tripolar : Bool) : Nat := if tripolar then nj - 1 else nj

/-- `remove_isolated_cells`. -/
def removeIsolated (ni nj : Nat) (tripolar fillIsolated dontChangeLandmask : Bool) (s : State K) :
    State K :=
  if fillIsolated then
    (cells ni (checkedRows nj tripolar)).foldl (removeStep dontChangeLandmask) s
  else s

end Isolated

/-! ### restrict_partial_cells -/

section Restrict

variable [Field K] [LinearOrder K]

/-- `p_cell_min` (888-893). -/
def pCellMin (zw : Nat → K) (minThickness fraction : K) (k : Nat) : K :=
  if fraction = 0 then min 50 (zw 0)
  else if k = 0 then fraction * zw 0
  else max (fraction * (zw k - zw (k - 1))) minThickness

/-- Lines 904-931: a cell whose bottom layer, level `k`, is too thin. -/
def tooThin (zw : Nat → K) (p : Nat → K) (openIt : Bool) (h : K) (k : Nat) : K × Int :=
  if openIt then (zw (k - 1) + p k, k)
  else if h - zw (k - 1) < zw (k - 1) + p k - h then (zw (k - 1), (k : Int) - 1)
  else (zw (k - 1) + p k, k)

/-- `restrict_partial_cells` (900-934) for one cell. -/
def restrictCell (zw : Nat → K) (p : Nat → K) (openIt : Bool) (h : K) (k : Int) :
    Except Stop (K × Int) :=
  if 0 < k ∧ h - zw (k.toNat - 1) < p k.toNat then .ok (tooThin zw p openIt h k.toNat)
  else .ok (h, k)

/-! ### enforce_min_depth -/

/-- Lines 1016-1025: rounding of a shallow cell. -/
def roundCell (zw : Nat → K) (kmtMinLocal k : Int) : K × Int :=
  if zw k.toNat < 1 / 2 * zw kmtMinLocal.toNat then (0, -1) else (zw kmtMinLocal.toNat, kmtMinLocal)

/-- Lines 1012-1037 for one cell.  Reading `zw[-1]` is reading outside the array. -/
def enforceCell (zw : Nat → K) (o : Opts K) (h : K) (k : Int) : Except Stop (K × Int) :=
  if 0 < h ∧ k < o.kmtMin - 1 then
    if o.roundShallow = true ∨ (o.deepenShallow = false ∧ o.fillShallow = false) then
      (if k < 0 then .error .oob else .ok (roundCell zw (o.kmtMin - 1) k))
    else if o.fillShallow then .ok (0, -1)
    else .ok (zw (o.kmtMin - 1).toNat, o.kmtMin - 1)
  else .ok (h, k)

/-- How many of the three treatments of shallow cells were asked for (1002-1005). -/
def shallowCount (o : Opts K) : Nat :=
  (if o.roundShallow then 1 else 0) + (if o.fillShallow then 1 else 0)
    + (if o.deepenShallow then 1 else 0)

/-- `enforce_min_depth`.  With at most one option set (1006) the three blocks 1015-1036 exclude each
other. -/
def enforceMinDepth (ni nj nk : Nat) (zw : Nat → K) (o : Opts K) (s : State K) :
    Except Stop (State K) :=
  if (nk : Int) < o.kmtMin then .error .refused
  else if 1 < shallowCount o then .error .refused
  else eachCell (enforceCell zw o) (cells ni nj) s

/-- Lines 582-620: levels before any adjustment. -/
def levels (ni nj nk : Nat) (zw : Nat → K) (o : Opts K) (s : State K) : Except Stop (State K) :=
  match eachCell (bottomLevel zw nk o.minThickness) (cells ni nj) s with
  | .error e => .error e
  | .ok s =>
    match eachCell (fullCells zw o.fullCell) (cells ni nj) s with
    | .error e => .error e
    | .ok s => eachCell (flatBottoms zw nk o.flatBottom) (cells ni nj) s

/-- Lines 622-649: halo and removal of isolated cells. -/
def connect (ni nj : Nat) (o : Opts K) (s : State K) : State K :=
  let s : State K := ⟨halo ni nj o s.ht, halo ni nj o s.kmt⟩
  if o.adjust then removeIsolated ni nj o.tripolar o.fillIsolated o.dontChangeLandmask s else s

/-- Lines 659-664: thin bottom cells and shallow cells. -/
def adjustCells (ni nj nk : Nat) (zw : Nat → K) (o : Opts K) (s : State K) :
    Except Stop (State K) :=
  if o.adjust then
    match eachCell (restrictCell zw (pCellMin zw o.minThickness o.fractionFullCell) o.openVeryThin)
        (cells ni nj) s with
    | .error e => .error e
    | .ok s => enforceMinDepth ni nj nk zw o s
  else .ok s

/-- What `process_topo` returns: `depth` and `num_levels`, counted from 0 again. -/
structure Out (K : Type _) where
  depth : Nat → Nat → K
  numLevels : Nat → Nat → Int

/-- `process_topo`. -/
def processTopo (ni nj nk : Nat) (zw : Nat → K) (o : Opts K) (depth : Nat → Nat → K) :
    Except Stop (Out K) :=
  match levels ni nj nk zw o (initial ni nj depth) with
  | .error e => .error e
  | .ok s =>
    match adjustCells ni nj nk zw o (connect ni nj o s) with
    | .error e => .error e
    | .ok t => .ok ⟨fun j i => t.ht (j + 1) (i + 1), fun j i => t.kmt (j + 1) (i + 1) + 1⟩

end Restrict

end Verif.Topog
