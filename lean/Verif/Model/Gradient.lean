import Mathlib.Algebra.Order.Field.Basic
import Mathlib.Data.Fin.VecNotation
/-
Model of the gradient used by second order conservative interpolation.

Source: /repo/lib/libfrencutils/gradient_c2l.c `grad_c2l` 58-118, `a2b_ord2` 124-195, `get_edge` 198-325;
/repo/src/fre-grid/fregrid_util.c loop of `get_input_data` over levels 2193-2200.

Simplifications: numbers are elements of an ordered field; arrays of two dimensions are functions of row and column; a
corner which is not set is `none`; `great_circle_distance` and `mid_pt_sphere` in `get_edge` are parameters.
-/
namespace Verif.Gradient

variable {K : Type} [Field K] [LinearOrder K]

/-- `on_west_edge`, `on_east_edge`, `on_south_edge`, `on_north_edge` -/
structure Edges where
  west : Bool
  east : Bool
  south : Bool
  north : Bool

/-- `istart`, 138-141 -/
def istart (e : Edges) : Nat := if e.west then 1 else 0
/-- `iend`, 142-145 -/
def iend (e : Edges) (nx : Nat) : Nat := if e.east then nx else nx + 1
/-- `jstart`, 146-149 -/
def jstart (e : Edges) : Nat := if e.south then 1 else 0
/-- `jend`, 150-153 -/
def jend (e : Edges) (ny : Nat) : Nat := if e.north then ny else ny + 1

/-- The weights `edge_w`, `edge_e`, `edge_s`, `edge_n`. -/
structure EdgeWeights (K : Type) where
  w : Nat → K
  e : Nat → K
  s : Nat → K
  n : Nat → K

/-- `a2b_ord2`: `qin j i` is the value of row `j` and column `i` of the array with halo, the result the value of corner
`(j, i)`. The last assignment to a corner comes first here. -/
def a2b (e : Edges) (nx ny : Nat) (ew : EdgeWeights K) (qin : Nat → Nat → K) (j i : Nat) : Option K :=
  let rows := jstart e ≤ j ∧ j < jend e ny
  let cols := istart e ≤ i ∧ i < iend e nx
  if e.north ∧ j = ny ∧ cols then
    let q1 := fun i => 1 / 2 * (qin ny i + qin (ny + 1) i)
    some (ew.n i * q1 i + (1 - ew.n i) * q1 (i + 1))
  else if e.south ∧ j = 0 ∧ cols then
    let q1 := fun i => 1 / 2 * (qin 0 i + qin 1 i)
    some (ew.s i * q1 i + (1 - ew.s i) * q1 (i + 1))
  else if e.east ∧ i = nx ∧ rows then
    let q2 := fun j => 1 / 2 * (qin j nx + qin j (nx + 1))
    some (ew.e j * q2 j + (1 - ew.e j) * q2 (j + 1))
  else if e.west ∧ i = 0 ∧ rows then
    let q2 := fun j => 1 / 2 * (qin j 0 + qin j 1)
    some (ew.w j * q2 j + (1 - ew.w j) * q2 (j + 1))
  else if e.west ∧ e.north ∧ j = ny ∧ i = 0 then some (1 / 3 * (qin ny 1 + qin ny 0 + qin (ny + 1) 1))
  else if e.east ∧ e.north ∧ j = ny ∧ i = nx then some (1 / 3 * (qin ny nx + qin ny (nx + 1) + qin (ny + 1) nx))
  else if e.east ∧ e.south ∧ j = 0 ∧ i = nx then some (1 / 3 * (qin 1 nx + qin 0 nx + qin 1 (nx + 1)))
  else if e.west ∧ e.south ∧ j = 0 ∧ i = 0 then some (1 / 3 * (qin 1 1 + qin 1 0 + qin 0 1))
  else if rows ∧ cols then some (1 / 4 * (qin j i + qin j (i + 1) + qin (j + 1) i + qin (j + 1) (i + 1)))
  else none

/-- `get_edge`: the weights of an edge whose inner corners are `lo ≤ k < hi`; `mid k` is the middle of the cells `k` on
both sides of the edge, `corner k` the corner between `k` and `k + 1`. -/
def edgeWeight {P : Type} (dist : P → P → K) (on : Bool) (lo hi : Nat) (mid corner : Nat → P) (k : Nat) : K :=
  if on ∧ lo ≤ k ∧ k < hi then
    let d1 := dist (mid k) (corner k)
    let d2 := dist (mid (k + 1)) (corner k)
    d2 / (d1 + d2)
  else 1 / 2

/-- Lengths, normals, areas and unit vectors of `Grid_config`. -/
structure Metric (K : Type) where
  dx : Nat → Nat → K
  dy : Nat → Nat → K
  area : Nat → Nat → K
  enN : Nat → Nat → Fin 3 → K
  enE : Nat → Nat → Fin 3 → K
  vlon : Nat → Nat → Fin 3 → K
  vlat : Nat → Nat → Fin 3 → K

/-- `pdx` (78-84) -/
def pdx (m : Metric K) (pb : Nat → Nat → K) (j i : Nat) (n : Fin 3) : K :=
  1 / 2 * (pb j i + pb j (i + 1)) * m.dx j i * m.enN j i n

/-- `pdy` (86-91) -/
def pdy (m : Metric K) (pb : Nat → Nat → K) (j i : Nat) (n : Fin 3) : K :=
  1 / 2 * (pb j i + pb (j + 1) i) * m.dy j i * m.enE j i n

/-- `grad3` (94-99) -/
def grad3 (m : Metric K) (pb : Nat → Nat → K) (j i : Nat) (n : Fin 3) : K :=
  pdx m pb (j + 1) i n - pdx m pb j i n - pdy m pb j i n + pdy m pb j (i + 1) n

/-- 102-111: the gradient from the values at the corners; the first component is `grad_x`. -/
def gradCorners (radius : K) (m : Metric K) (pb : Nat → Nat → K) (j i : Nat) : K × K :=
  let g := grad3 m pb j i
  let vlon := m.vlon j i
  let vlat := m.vlat j i
  ((vlon 0 * g 0 + vlon 1 * g 1 + vlon 2 * g 2) / m.area j i * radius,
    (vlat 0 * g 0 + vlat 1 * g 1 + vlat 2 * g 2) / m.area j i * radius)

/-- `grad_c2l`; a corner which was not set would be an undefined value, here 0. -/
def gradC2l (radius : K) (e : Edges) (nx ny : Nat) (ew : EdgeWeights K) (m : Metric K) (pin : Nat → Nat → K)
    (j i : Nat) : K × K :=
  gradCorners radius m (fun j i => (a2b e nx ny ew pin j i).getD 0) j i

/-- The loop over levels in `get_input_data`: `grad k` is the gradient of level `k`, the result the array of gradients by
level. Every level is written to the start of the array. -/
def gradLevels {G : Type} (nz : Nat) (grad : Nat → G) : Nat → Option G :=
  (List.range nz).foldl (fun out k l => if l = 0 then some (grad k) else out l) (fun _ => none)

end Verif.Gradient
