import Verif.Model.Bilinear
/-
Model of the search for the cell of an output point in the bilinear interpolation of fregrid.

Source: /repo/src/fre-grid/bilinear_interp.c `setup_bilinear_interp` 115-265 (search), `sort_index` 618-648, `get_index`
655-738, `get_closest_index` 745-897.

Simplifications: coordinates are real numbers; the arrays `xt`, `yt`, `zt` of a tile with halo are one function of column
and row (index `j*nxd+i`) with values in space, those of the output grid one function of the flat index; conversions from
`double` to `int` do not overflow. The entry `index[3*l]` that is left from an earlier cell if no distance is below 2 pi is
never used, as distances are at most pi; the model starts with `(0, 0)`. The global sweep (226-256) is modelled by its parts
`sort_index` and `get_index` only.
-/
namespace Verif.BilSearch

open Verif.Vec3 Verif.Bilinear

noncomputable section

/-- The test `max(angle_a, angle_b) <= angle` at the corner `v` between the sides to `a` and `b`. -/
def inSector (eps : ℝ) (v a b p : V ℝ) : Prop :=
  max (sphericalAngle eps v a p) (sphericalAngle eps v b p) ≤ sphericalAngle eps v a b

open Classical in
/-- `get_closest_index` 745-897: the lower left corner of the cell around `p` that has the centre `(i, j)` as one of its
corners; `none` is the return value 0. -/
def closest (eps : ℝ) (nx ny : Nat) (g : Nat → Nat → V ℝ) (i j : Nat) (p : V ℝ) : Option (Nat × Nat) :=
  let v1 := g i j
  let v2 := g (i + 1) j
  let v3 := g i (j + 1)
  if inSector eps v1 v2 v3 p then
    if (if i = nx ∧ j = ny then inSector eps v2 v3 v1 p else inSector eps (g (i + 1) (j + 1)) v3 v2 p) then some (i, j)
    else none
  else
    let v4 := g (i - 1) j
    if inSector eps v1 v3 v4 p then
      if (if i = 1 ∧ j = ny then inSector eps v3 v1 v4 p else inSector eps (g (i - 1) (j + 1)) v3 v4 p) then
        some (i - 1, j)
      else none
    else
      let v6 := g i (j - 1)
      if inSector eps v1 v4 v6 p ∧ i > 1 ∧ j > 1 then
        if inSector eps (g (i - 1) (j - 1)) v6 v4 p then some (i - 1, j - 1) else none
      else if inSector eps v1 v6 v2 p then
        if (if i = nx ∧ j = 1 then inSector eps v2 v1 v6 p else inSector eps (g (i + 1) (j - 1)) v2 v6 p) then
          some (i, j - 1)
        else none
      else none

/-- The centres 181-197 looks at, in its order. -/
def candidates (nx ny ic jc : Nat) : List (Nat × Nat) :=
  (if jc + 1 ≤ ny then [jc, jc + 1] else [jc]).flatMap fun jcc =>
    (if ic + 1 ≤ nx then [ic, ic + 1] else [ic]).map fun icc => (icc, jcc)

open Classical in
/-- 180-198: the nearest of them. -/
def nearest (nx ny : Nat) (g : Nat → Nat → V ℝ) (ic jc : Nat) (p : V ℝ) : Nat × Nat :=
  ((candidates nx ny ic jc).foldl (fun (s : ℝ × Nat × Nat) c =>
    let d := greatCircle (g c.1 c.2) p
    if d < s.1 then (d, c) else s) (Real.pi + Real.pi, 0, 0)).2

/-- The input and output grids and the geometry of the output grid. -/
structure Setting where
  eps : ℝ
  ntiles : Nat
  nx : Nat
  ny : Nat
  nxOut : Nat
  nyOut : Nat
  /-- tile, column, row -/
  g : Nat → Nat → Nat → V ℝ
  lont : Nat → Nat → Nat → ℝ
  latt : Nat → Nat → Nat → ℝ
  /-- centres of the output grid -/
  out : Nat → V ℝ
  dlon : ℝ
  dlat : ℝ
  lonbegin : ℝ
  latbegin : ℝ

variable (s : Setting)

/-- `found` and `interp->index` together: column, row and tile for each output point found. -/
abbrev Found := Nat → Option (Nat × Nat × Nat)

/-- 175-205: one output point for one cell of the input. -/
def visit (l jc ic : Nat) (f : Found) (n0 : Nat) : Found :=
  match f n0 with
  | some _ => f
  | none =>
    let c := nearest s.nx s.ny (s.g l) ic jc (s.out n0)
    let r := (closest s.eps s.nx s.ny (s.g l) c.1 c.2 (s.out n0)).map fun x => (x.1, x.2, l)
    fun n => if n = n0 then r else f n

/-- `j_min`, `j_max` (161-162). -/
def jRange (iter l jc ic : Nat) : Int × Int :=
  let dcub := iter * greatCircle (s.g l ic jc) (s.g l (ic + 1) (jc + 1))
  (max 1 (⌊(s.latt l ic jc - dcub - s.latbegin) / s.dlat⌋ - iter + 1),
    min s.nyOut (⌈(s.latt l ic jc + dcub - s.latbegin) / s.dlat⌉ + iter - 1))

/-- `i_min`, `i_max` (163-170). -/
def iRange (iter l jc ic : Nat) : Int × Int :=
  let r := jRange s iter l jc ic
  if r.1 = 1 ∨ r.2 = s.nyOut then (1, s.nxOut)
  else
    let dcub := iter * greatCircle (s.g l ic jc) (s.g l (ic + 1) (jc + 1))
    (max 1 ⌊(s.lont l ic jc - dcub - s.lonbegin) / s.dlon - iter + 1⌋,
      min s.nxOut ⌈(s.lont l ic jc + dcub - s.lonbegin) / s.dlon + iter - 1⌉)

/-- `for(x = r.min-1; x < r.max; x++)`: the numbers the loop runs through. -/
def loop (r : Int × Int) : List Nat := (List.range (r.2 - (r.1 - 1)).toNat).map fun k => (r.1 - 1).toNat + k

/-- The output points 171 runs through, as flat indices. -/
def points (iter l jc ic : Nat) : List Nat :=
  (loop (jRange s iter l jc ic)).flatMap fun j => (loop (iRange s iter l jc ic)).map fun i => j * s.nxOut + i

/-- 144-208: all cells of all tiles once. -/
def sweep (iter : Nat) (f : Found) : Found :=
  (List.range s.ntiles).foldl (fun f l => (List.range s.ny).foldl (fun f jj => (List.range s.nx).foldl (fun f ii =>
    (points s iter l (jj + 1) (ii + 1)).foldl (visit s l (jj + 1) (ii + 1)) f) f) f) f

/-- 211-220: all output points are found. -/
def allDone (f : Found) : Bool := (List.range (s.nxOut * s.nyOut)).all fun n => (f n).isSome

/-- The loop over `iter` (142-221), from `iter` on for `k` further rounds. -/
def rounds : Nat → Nat → Found → Found
  | 0, _, f => f
  | k + 1, iter, f =>
    let f := sweep s iter f
    if iter > 1 ∧ allDone s f = true then f else rounds k (iter + 1) f

/-- 133-221 -/
def search : Found := rounds s 10 1 fun _ => none

/-! ### The parts of the global sweep -/

/-- One move of the loop 632-635 at `lll`. -/
def shift1 {K : Type} (st : (Nat → Int) × (Nat → K)) (lll : Nat) : (Nat → Int) × (Nat → K) :=
  (fun n => if n = 3 * lll + 1 then st.1 (3 * lll) else st.1 n, fun n => if n = lll + 1 then st.2 lll else st.2 n)

/-- 629-640 for one tile `l`. -/
def insert1 {K : Type} [LinearOrder K] (ntiles : Nat) (index : Nat → Int) (shortest : Nat → K) (st : (Nat → Int) × (Nat → K)) (l : Nat) :
    (Nat → Int) × (Nat → K) :=
  match (List.range ntiles).find? fun ll => decide (shortest l < st.2 ll) with
  | none => st
  | some ll =>
    let st := ((List.range (ntiles - 1 - ll)).map fun k => ntiles - 2 - k).foldl shift1 st
    (fun n => if 3 * ll ≤ n ∧ n < 3 * ll + 3 then index (3 * l + (n - 3 * ll)) else st.1 n,
      fun n => if n = ll then shortest l else st.2 n)

/-- `sort_index`; `alloc` is the number of integers in `index_sort`, `big` is 2 pi; `none` is a write outside of the
array (626). -/
def sortIndex {K : Type} [LinearOrder K] (big : K) (alloc ntiles : Nat) (index : Nat → Int) (shortest : Nat → K) :
    Option ((Nat → Int) × (Nat → K)) :=
  if alloc < 3 * ntiles then none
  else some ((List.range ntiles).foldl (insert1 ntiles index shortest) (fun _ => 0, fun _ => big))

open Classical in
/-- `get_index` 655-738 with the arrays as they are indexed there: `nxFine` is `grid_in->nx_fine`, which is never set for an
input grid; the output point is taken from `n1` (674-676). -/
def getIndex (eps : ℝ) (nxFine : Int) (gin gout : Int → V ℝ) (i j l : Int) (_iOut _jOut : Nat) : Option (Int × Int × Int) :=
  let n1 := j * nxFine + i
  let v0 := gout n1
  let a := sphericalAngle eps
  let v1 := gin n1
  let v2 := gin (n1 + 1)
  let v3 := gin (n1 + nxFine)
  if max (a v1 v2 v0) (a v1 v3 v0) < a v1 v2 v3 then some (i, j, l)
  else
    let v4 := gin (n1 - 1)
    if max (a v1 v3 v0) (a v1 v4 v0) < a v1 v3 v4 then some (i - 1, j, l)
    else
      let v5 := gin (n1 - nxFine)
      if max (a v1 v4 v0) (a v1 v5 v0) < a v1 v4 v5 ∧ i > 1 ∧ j > 1 then some (i - 1, j - 1, l)
      else if max (a v1 v5 v0) (a v1 v2 v0) < a v1 v5 v2 then some (i, j - 1, l)
      else none

end

end Verif.BilSearch
