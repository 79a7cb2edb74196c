import Verif.Model.CheckMask
import Verif.Model.QSort
/-
Model of `river_regrid`: flow directions, travel, basins and drained areas of a river network on the land grid.

Source: /repo/src/river-regrid/river_regrid.c.

A place is tile, column and row; the cells of a tile have columns 1..nx and rows 1..ny, the places around them are the
halo. An array of a tile is a function of the place. Reading of the files, the overlap of source cells and land cells
(`clip`, `poly_area`, see C28, C29 and C48), `celllength` and the writing of the result are not modelled. Integers are
unbounded, floating point numbers are an ordered field.
-/
namespace Verif.River
open CheckMask (copyLoop)

abbrev Place := Nat × Nat × Nat

/-- `opcode`, 87-89 and 590-610. -/
structure Opcode where
  xCyclic : Bool
  yCyclic : Bool
  cubic : Bool
deriving DecidableEq

structure Grid where
  op : Opcode
  ntiles : Nat
  nx : Nat
  ny : Nat
deriving DecidableEq

/-- The place that the index `j*nxp2+i` refers to if the column runs beyond the row. Places with a row beyond `ny + 1`
are outside the array (undefined behaviour). -/
def wrap (nx : Nat) (p : Place) : Place := (p.1, p.2.1 % (nx + 2), p.2.2 + p.2.1 / (nx + 2))

/-- `update_halo_double`, 806-826: the assignments for one tile of a cubic grid. -/
def cubicCopies (ntiles nx ny n : Nat) : List (Place × Place) :=
  let js := (List.range ny).map (· + 1)
  let is := (List.range nx).map (· + 1)
  if n % 2 = 1 then
    let tw := (n + 5) % ntiles
    let te := (n + 2) % ntiles
    let ts := (n + 4) % ntiles
    let tn := (n + 1) % ntiles
    (js.flatMap fun j => [((n, 0, j), (tw, nx, j)), ((n, nx + 1, j), (te, nx + 1 - j, 1))]) ++
    (is.flatMap fun i => [((n, i, 0), (ts, nx, ny + 1 - i)), ((n, i, ny + 1), (tn, i, 1))])
  else
    let tw := (n + 4) % ntiles
    let te := (n + 1) % ntiles
    let ts := (n + 5) % ntiles
    let tn := (n + 2) % ntiles
    (js.flatMap fun j => [((n, 0, j), (tw, nx + 1 - j, ny)), ((n, nx + 1, j), (te, 1, j))]) ++
    (is.flatMap fun i => [((n, i, 0), (ts, i, ny)), ((n, i, ny + 1), (tn, 1, ny + 1 - i))])

/-- `update_halo_double`, 776-830: the assignments in their order. The loop over columns for `Y_CYCLIC` ends at
`nyp1`, as in the source (791). -/
def haloCopies (g : Grid) : List (Place × Place) :=
  (if g.op.xCyclic then
    ((List.range g.ny).map (· + 1)).flatMap fun j => [((0, 0, j), (0, g.nx, j)), ((0, g.nx + 1, j), (0, 1, j))]
   else []) ++
  (if g.op.yCyclic then
    ((List.range g.ny).map (· + 1)).flatMap fun i =>
      [(wrap g.nx (0, i, 0), wrap g.nx (0, i, g.ny)), (wrap g.nx (0, i, g.ny + 1), wrap g.nx (0, i, 1))]
   else []) ++
  (if g.op.xCyclic ∧ g.op.yCyclic then
    [((0, 0, 0), (0, 0, g.ny)), ((0, g.nx + 1, 0), (0, 1, g.ny)),
      ((0, g.nx + 1, g.ny + 1), (0, 1, 1)), ((0, 0, g.ny + 1), (0, g.nx, 1))]
   else []) ++
  (if g.op.cubic then (List.range g.ntiles).flatMap (cubicCopies g.ntiles g.nx g.ny) else [])

/-- `update_halo_double` and `update_halo_int` (832-855), which converts to double and back. -/
def updateHalo {V : Type*} (g : Grid) (w : Place → V) : Place → V := copyLoop (haloCopies g) w

/-- The loops `for n, for j, for i` over all cells. -/
def cells (g : Grid) : List Place :=
  (List.range g.ntiles).flatMap fun n => (List.range g.ny).flatMap fun j => (List.range g.nx).map fun i =>
    (n, i + 1, j + 1)

def inside (g : Grid) (p : Place) : Bool :=
  p.1 < g.ntiles && 1 ≤ p.2.1 && p.2.1 ≤ g.nx && 1 ≤ p.2.2 && p.2.2 ≤ g.ny

/-- `array[p] = v`. -/
def setAt {V : Type*} (w : Place → V) (p : Place) (v : V) : Place → V := fun q => if q = p then v else w q

/-- Missing values of the source file. -/
structure Missing (K : Type*) where
  subA : K
  tocell : Int
  travel : Int
  basin : Int

inductive Err
  | powDir | noBasin | steps | basinRange | noSubA | rank | oceanPoint | riverPoint | noOutlet | moreOutlets
deriving DecidableEq

section
variable {K : Type*} [Field K] [LinearOrder K]

/-- `LARGE_VALUE`, 86. -/
def large : K := 10 ^ 20
/-- `suba_cutoff`, 112. -/
def cutoff : K := 10 ^ 12

/-- 544-551: the land fraction after the thresholds. -/
def landFraction (landThresh minFrac x : K) : Option K :=
  if x > 1 + 1 / 1000 then none
  else
    let x := if x > 1 - landThresh then 1 else x
    let x := if |x| < minFrac then 0 else x
    if x > 1 ∨ x < 0 then none else some x

/-- `calc_max_subA`, 694-770. `srcs p` are the values of those source cells that are not missing and overlap the
cell enough, in the order of the loops. -/
def calcMaxSubA (g : Grid) (m : Missing K) (landfrac : Place → K) (srcs : Place → List K) : Place → K :=
  updateHalo g fun p =>
    if inside g p then
      if landfrac p < 1 then large else (srcs p).foldl (fun b x => if x > b then x else b) m.subA
    else m.subA

/-- The loops over `joff` and `ioff` without the centre: `(ioff, joff)`. -/
def offsets : List (Nat × Nat) := [(0, 0), (1, 0), (2, 0), (0, 1), (2, 1), (0, 2), (1, 2), (2, 2)]

/-- The place `ii = im1 + ioff`, `jj = jm1 + joff`. -/
def around (c : Place) (o : Nat × Nat) : Place := (c.1, c.2.1 - 1 + o.1, c.2.2 - 1 + o.2)

/-- 919-940: one neighbour, for a cell above the cutoff. -/
def highStep (me : K) (v : Nat × Nat → K) (s : K × Option (Nat × Nat)) (o : Nat × Nat) : K × Option (Nat × Nat) :=
  if v o > me then
    if s.1 = -999 then (if v o > s.1 then (v o, some o) else s)
    else if s.1 < large then (if v o > s.1 ∧ v o < large then (v o, some o) else s)
    else (v o, some o)
  else s

/-- 951-958: one neighbour, for other cells. -/
def lowStep (missing : K) (v : Nat × Nat → K) (s : K × Option (Nat × Nat)) (o : Nat × Nat) : K × Option (Nat × Nat) :=
  if v o ≠ missing then (if v o ≥ s.1 then (v o, some o) else s) else s

/-- 911-961: `tval`, `iget` and `jget`. -/
def scanNeighbours (missing me : K) (v : Nat × Nat → K) : K × Option (Nat × Nat) :=
  offsets.foldl (if me > cutoff then highStep me v else lowStep missing v) (-999, none)

def outFlow : List Int := [8, 4, 2, 16, -1, 1, 32, 64, 128]
def outDir : List Int := [3, 2, 1, 4, -1, 0, 5, 6, 7]

/-- 904-974: `tocell` and `dir` of one cell. -/
def tocellAt (m : Missing K) (landfrac subA : Place → K) (c : Place) : Int × Int :=
  if landfrac c = 0 then (m.tocell, -1)
  else if landfrac c < 1 then (0, -1)
  else
    let me := subA c
    let s := scanNeighbours m.subA me fun o => subA (around c o)
    match s.2 with
    | none => (0, -1)
    | some o => if s.1 > me then (outFlow.getD (o.2 * 3 + o.1) 0, outDir.getD (o.2 * 3 + o.1) 0) else (0, -1)

/-- `calc_tocell`, 880-982: `tocell` and `dir`, with their halo. The loop reads only arrays that it does not write, so
the order of the cells does not matter. -/
def calcTocell (g : Grid) (m : Missing K) (landfrac subA : Place → K) :
    Except Err ((Place → Int) × (Place → Int)) :=
  let r := tocellAt m landfrac subA
  if (cells g).any fun c => decide ((r c).2 ≥ 0) && decide ((2 : Int) ^ (r c).2.toNat ≠ (r c).1) then .error .powDir
  else .ok (updateHalo g fun p => if inside g p then (r p).1 else m.tocell,
    updateHalo g fun p => if inside g p then (r p).2 else -1)

def di : List Int := [1, 1, 0, -1, -1, -1, 0, 1]
def dj : List Int := [0, -1, -1, -1, 0, 1, 1, 1]

/-- `i_dest = i + di[dir]`, `j_dest = j + dj[dir]`. -/
def dest (p : Place) (dir : Int) : Place :=
  (p.1, ((p.2.1 : Int) + di.getD dir.toNat 0).toNat, ((p.2.2 : Int) + dj.getD dir.toNat 0).toNat)

/-- Basins, travel and last points, and the number of basins so far. -/
structure Net where
  basin : Place → Int
  travel : Place → Int
  last : Place → Bool
  cur : Int

/-- 1070-1084: the end points of rivers. -/
def coastStep (m : Missing K) (tocell dir : Place → Int) (s : Net) (c : Place) : Net :=
  if tocell c = 0 then
    ⟨setAt s.basin c (s.cur + 1), setAt s.travel c 0, setAt s.last c true, s.cur + 1⟩
  else if tocell c > 0 then
    if tocell (dest c (dir c)) = m.tocell then
      ⟨setAt s.basin c (s.cur + 1), setAt s.travel c 1, setAt s.last c true, s.cur + 1⟩
    else s
  else s

/-- 1066-1089, with the initial values of 673-684. -/
def coast (g : Grid) (m : Missing K) (tocell dir : Place → Int) : Net :=
  let s := (cells g).foldl (coastStep m tocell dir) ⟨fun _ => m.basin, fun _ => m.travel, fun _ => false, 0⟩
  { s with basin := updateHalo g s.basin, travel := updateHalo g s.travel }

structure PassSt where
  basin : Place → Int
  travel : Place → Int
  notDone : Bool

/-- 1099-1111: one cell. -/
def passStep (m : Missing K) (dir : Place → Int) (cur : Int) (s : PassSt) (c : Place) : Except Err PassSt :=
  if dir c ≥ 0 ∧ s.basin c = m.basin then
    let d := dest c (dir c)
    if s.travel d = cur then
      if s.basin d = m.basin then .error .noBasin
      else .ok ⟨setAt s.basin c (s.basin d), setAt s.travel c (cur + 1), true⟩
    else .ok s
  else .ok s

/-- 1094-1117: the loop `while(not_done)`; basins and travel at its end. -/
def travelLoop (g : Grid) (m : Missing K) (dir : Place → Int) :
    Nat → Int → (Place → Int) → (Place → Int) → Except Err ((Place → Int) × (Place → Int))
  | 0, _, _, _ => .error .steps
  | fuel + 1, cur, basin, travel =>
    match (cells g).foldlM (passStep m dir cur) ⟨basin, travel, false⟩ with
    | .error e => .error e
    | .ok s =>
      if s.notDone then travelLoop g m dir fuel (cur + 1) (updateHalo g s.basin) (updateHalo g s.travel)
      else .ok (updateHalo g s.basin, updateHalo g s.travel)

/-- 1120-1128: the largest value on the cells, at least -1. -/
def maxOver (g : Grid) (f : Place → Int) : Int := (cells g).foldl (fun b c => max b (f c)) (-1)

/-- 1144-1157: the direction seen from the tile of the place `p` of the halo. -/
def rotated (g : Grid) (p : Place) (dir : Int) : Int :=
  if g.op.cubic then
    if p.2.1 = 0 then (if p.1 % 2 = 0 then (dir + 2) % 8 else dir)
    else if p.2.1 = g.nx + 1 then (if p.1 % 2 = 1 then (dir + 2) % 8 else dir)
    else if p.2.2 = 0 then (if p.1 % 2 = 1 then (dir + 6) % 8 else dir)
    else if p.2.2 = g.ny + 1 then (if p.1 % 2 = 0 then (dir + 6) % 8 else dir)
    else dir
  else dir

/-- 1138-1161: one neighbour of the cell. -/
def gatherStep (g : Grid) (dir : Place → Int) (subA : Place → K) (c : Place) (acc : K) (o : Nat × Nat) : K :=
  let p := around c o
  if dir p ≥ 0 then
    if dest p (rotated g p (dir p)) = c then acc + subA p else acc
  else acc

/-- 1132-1163: one cell. -/
def accStep (g : Grid) (dir travel : Place → Int) (cellarea : Place → K) (now : Int) (subA : Place → K) (c : Place) :
    Place → K :=
  if travel c = now then setAt subA c (offsets.foldl (gatherStep g dir subA c) (cellarea c)) else subA

/-- 1130-1166, for `travelnow` from `k - 1` down to 0. -/
def accLoop (g : Grid) (dir travel : Place → Int) (cellarea : Place → K) : Nat → (Place → K) → Place → K
  | 0, subA => subA
  | k + 1, subA =>
    accLoop g dir travel cellarea k (updateHalo g ((cells g).foldl (accStep g dir travel cellarea k) subA))

/-- 1037, 1049: area of the land in the cell; missing where there is none. -/
def cellArea (m : Missing K) (landfrac area : Place → K) (c : Place) : K :=
  if landfrac c > 0 then area c * landfrac c else m.subA

/-- The network. -/
structure Rivers (K : Type*) where
  tocell : Place → Int
  dir : Place → Int
  travel : Place → Int
  basin : Place → Int
  last : Place → Bool
  subA : Place → K

/-- `calc_river_data`, 991-1172. The number of passes is limited by the number of cells, see `C55_ends`. -/
def calcRiverData (g : Grid) (m : Missing K) (landfrac area : Place → K) (tocell dir : Place → Int) :
    Except Err (Rivers K) :=
  let s := coast g m tocell dir
  match travelLoop g m dir ((cells g).length + 1) 0 s.basin s.travel with
  | .error e => .error e
  | .ok (basin, travel) =>
    let subA := accLoop g dir travel (cellArea m landfrac area) (maxOver g travel + 1).toNat fun _ => m.subA
    .ok ⟨tocell, dir, travel, basin, s.last, subA⟩

/-- 1342-1346: `maxsuba`. -/
def maxSubStep (maxbasin : Int) (r : Rivers K) (a : Nat → K) (c : Place) : Except Err (Nat → K) :=
  if r.last c then
    if r.basin c > maxbasin ∨ r.basin c < 1 then .error .basinRange
    else .ok fun k => if k = (r.basin c - 1).toNat then r.subA c else a k
  else .ok a

/-- 1339, 1356: `rank[indx[n]] = n`. -/
def rankOf (indx : Nat → Nat) (n : Nat) : Nat → Int :=
  (List.range n).foldl (fun a k => fun x => if x = indx k then (k : Int) else a x) fun _ => -1

/-- 1362-1368: the new basins. -/
def newBasin (g : Grid) (m : Missing K) (maxbasin : Int) (rank : Nat → Int) (basin : Place → Int) : Place → Int :=
  fun p =>
    if inside g p then
      if basin p ≠ m.basin then maxbasin - rank (basin p - 1).toNat else basin p
    else basin p

/-- `sort_basin`, 1298-1376. -/
def sortBasin (g : Grid) (m : Missing K) (r : Rivers K) : Except Err (Rivers K) :=
  let maxbasin := maxOver g r.basin
  match (cells g).foldlM (maxSubStep maxbasin r) (fun _ => m.subA) with
  | .error e => .error e
  | .ok maxsuba =>
    let n := maxbasin.toNat
    if (List.range n).any fun k => decide (maxsuba k = m.subA) then .error .noSubA
    else
      match QSort.qsort (2 * n + 1) (n + 1) (fun k => (maxsuba k, k)) 0 (n - 1) with
      | none => .error .steps
      | some b =>
        let rank := rankOf (fun k => (b k).2) n
        if (List.range n).any fun k => decide (rank k < 0) then .error .rank
        else if (cells g).any fun c => decide (r.basin c ≠ m.basin) && decide (r.basin c > maxbasin ∨ r.basin c < 1)
        then .error .basinRange
        else .ok { r with basin := newBasin g m maxbasin rank r.basin }

/-- `check_river_data`, 1180-1290, without its messages. -/
def checkRiverData (g : Grid) (m : Missing K) (landfrac : Place → K) (r : Rivers K) : Except Err Unit :=
  let maxbasin := maxOver g r.basin
  if (cells g).any fun c => decide (landfrac c = 0) && decide (r.tocell c ≠ m.tocell ∨ r.travel c ≠ m.travel ∨
      r.basin c ≠ m.basin ∨ r.subA c ≠ m.subA) then .error .oceanPoint
  else if (cells g).any fun c => decide (landfrac c ≠ 0) && decide (r.tocell c = m.tocell ∨ r.travel c = m.travel ∨
      r.basin c = m.basin ∨ r.subA c = m.subA) then .error .riverPoint
  else
    let ncoast := fun (n : Nat) => ((cells g).filter fun c => r.last c && decide (r.basin c = n + 1)).length
    if (List.range maxbasin.toNat).any fun n => decide (ncoast n = 0) then .error .noOutlet
    else if (List.range maxbasin.toNat).any fun n => decide (ncoast n > 1) then .error .moreOutlets
    else .ok ()

/-- `main`, 275-285: from the land fractions, the source values and the areas to the network that is written. -/
def riverRegrid (g : Grid) (m : Missing K) (landfrac area : Place → K) (srcs : Place → List K) :
    Except Err (Rivers K) :=
  let subA := calcMaxSubA g m landfrac srcs
  match calcTocell g m landfrac subA with
  | .error e => .error e
  | .ok (tocell, dir) =>
    match calcRiverData g m landfrac area tocell dir with
    | .error e => .error e
    | .ok r =>
      match sortBasin g m r with
      | .error e => .error e
      | .ok r =>
        match checkRiverData g m landfrac r with
        | .error e => .error e
        | .ok () => .ok r

end
end Verif.River
