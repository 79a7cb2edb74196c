import Verif.Model.RowRange
/-
Model of the exchange grid of fregrid_gpu: an upper bound for the number of exchange cells of every source cell, the
parallel search that stores them with gaps, and the copy that closes the gaps.

Source: /repo/lib/libfrencutils_gpu/create_xgrid_gpu.c `get_upbound_nxcells_2dx2d_gpu` 34-127,
`create_xgrid_2dx2d_order1_gpu` 135-276, `create_xgrid_2dx2d_order2_gpu` 283-436 (the same search);
/repo/lib/libfrencutils_gpu/create_xgrid_utils_gpu.c `create_upbound_nxcells_arrays_on_device_gpu` 749-769,
`copy_data_to_interp_on_device_gpu` 791-866; /repo/src/fregrid-gpu/conserve_interp_gpu.c
`setup_conserve_interp_gpu` 65-127; /repo/src/fregrid-gpu/interp_utils_gpu.c `get_input_grid_mask_gpu` 77-90.

Simplifications: one pair of tiles. The arrays for parents, area and centroid are one array of records; a record is
stored or copied in one step. An iteration of the first parallel loop is one step, because it reads nothing that
another iteration writes; the second loop and the copy are modelled record by record, in any interleaving. Host
and device copies of an array are one array. Memory allocation always succeeds; what it returns is not
initialised, so the first contents are a parameter.
-/
namespace Verif.GpuXgrid

/-- Source cell number, target cell number, and what they have in common. -/
structure Rec (β : Type) where
  ij1 : Nat
  ij2 : Nat
  val : β
  deriving DecidableEq

/-- What the loops need. -/
structure Job (β : Type) where
  /-- `input_grid_ncells`, `output_grid_ncells` -/
  n1 : Nat
  n2 : Nat
  /-- `ij1_start`, `ij1_end` -/
  lo : Nat
  hi : Nat
  /-- `mask_input_grid[ij1] > MASK_THRESH` -/
  mask : Nat → Bool
  /-- none of the four tests 93-108 (216-240) is met -/
  near : Nat → Nat → Bool
  /-- 242-246: the common part, `none` if empty or too small -/
  clip : Nat → Nat → Option β

variable {β : Type} (g : Job β)

def upd {α : Type} (f : Nat → α) (k : Nat) (v : α) : Nat → α := fun n => if n = k then v else f n

/-! ### Upper bounds -/

/-- `approx_xcells_per_ij1`, `ij2_start`, `ij2_end`, `upbound_nxcells`. -/
structure Bounds where
  approx : Nat → Int
  first : Nat → Int
  last : Nat → Int
  up : Int

/-- One iteration of the loop 66-123. The target cells are taken in the order `inner`. -/
def upStep (inner : Nat → List Nat) (b : Bounds) (ij1 : Nat) : Bounds :=
  if g.mask ij1 then
    let l := (inner ij1).filter (g.near ij1)
    { approx := upd b.approx ij1 (l.foldl (fun c _ => c + 1) (0 : Int))
      first := upd b.first ij1 (l.foldl (fun m (ij2 : Nat) => min m (ij2 : Int)) (g.n2 : Int))
      last := upd b.last ij1 (l.foldl (fun m (ij2 : Nat) => max m (ij2 : Int)) (0 : Int))
      up := l.foldl (fun c _ => c + 1) b.up }
  else b

/-- `get_upbound_nxcells_2dx2d_gpu`: the iterations in the order `order`; `b0` are the first contents of the
arrays, with `upbound_nxcells = 0` (51). -/
def upbound (order : List Nat) (inner : Nat → List Nat) (b0 : Bounds) : Bounds :=
  order.foldl (upStep g inner) b0

/-! ### Search -/

/-- `approx_nxcells_b4_ij1` (203), and the sums of 825-828. -/
def before (a : Nat → Int) (ij1 : Nat) : Int := ((List.range ij1).map a).sum

/-- `mask_input_grid[ij1] > MASK_THRESH` for an iteration of the loop 186. -/
def active (ij1 : Nat) : Bool := decide (g.lo ≤ ij1) && decide (ij1 < g.hi) && g.mask ij1

/-- The exchange cells of source cell `ij1` in the order found (207-253). -/
def work (b : Bounds) (ij1 : Nat) : List (Rec β) :=
  if active g ij1 then
    (List.range' (b.first ij1).toNat (b.last ij1 + 1 - b.first ij1).toNat).filterMap fun ij2 =>
      if g.near ij1 ij2 then (g.clip ij1 ij2).map (Rec.mk ij1 ij2) else none
  else []

/-- `ixcell` of every iteration, the arrays of size `upbound_nxcells`, and what is still to be entered. -/
structure St (β : Type) where
  ix : Nat → Nat
  mem : Nat → Option (Rec β)
  todo : Nat → List (Rec β)

/-- Access outside an array. -/
inductive Stop | oob
  deriving DecidableEq

/-- Iteration `ij1` enters its next exchange cell (247-250). -/
def step (b : Bounds) (s : St β) (ij1 : Nat) : Except Stop (St β) :=
  match s.todo ij1 with
  | [] => .ok s
  | c :: cs =>
    let k := before b.approx ij1 + (s.ix ij1 : Int)
    if 0 ≤ k ∧ k < b.up then
      .ok ⟨upd s.ix ij1 (s.ix ij1 + 1), upd s.mem k.toNat (some c), upd s.todo ij1 cs⟩
    else .error .oob

/-- A schedule is the list of the iterations in the order in which they take steps. -/
def run (b : Bounds) : List Nat → St β → Except Stop (St β)
  | [], s => .ok s
  | m :: ms, s => do run b ms (← step b s m)

/-- `nxcells` (185, 254). -/
def total (s : St β) : Nat := ((List.range g.hi).map fun ij1 => if active g ij1 then s.ix ij1 else 0).sum

/-- `nxcells_per_ij1` (204, 255), `cnt0` the first contents. -/
def counts (cnt0 : Nat → Int) (s : St β) (ij1 : Nat) : Int := if active g ij1 then (s.ix ij1 : Int) else cnt0 ij1

/-! ### Copy -/

/-- The pairs (to, from) of 821-836. -/
def copies (cnt approx : Nat → Int) : List (Int × Int) :=
  (List.range g.n1).flatMap fun ij1 =>
    (List.range (cnt ij1).toNat).map fun (i : Nat) => (before cnt ij1 + (i : Int), before approx ij1 + (i : Int))

/-- 832-834. -/
def copyStep (n : Nat) (up : Int) (mem : Nat → Option (Rec β)) (out : Nat → Option (Rec β)) (q : Int × Int) :
    Except Stop (Nat → Option (Rec β)) :=
  if 0 ≤ q.1 ∧ q.1 < (n : Int) ∧ 0 ≤ q.2 ∧ q.2 < up then .ok (upd out q.1.toNat (mem q.2.toNat)) else .error .oob

def copyAll (n : Nat) (up : Int) (mem : Nat → Option (Rec β)) :
    List (Int × Int) → (Nat → Option (Rec β)) → Except Stop (Nat → Option (Rec β))
  | [], out => .ok out
  | q :: qs, out => do copyAll n up mem qs (← copyStep n up mem out q)

/-- How the device executes the three loops. -/
structure Plan where
  order : List Nat
  inner : Nat → List Nat
  sched : List Nat
  /-- order of the copies, given the copies there are -/
  copyOrder : List (Int × Int) → List (Int × Int)

/-- `get_upbound_nxcells_2dx2d_gpu` and then `create_xgrid_2dx2d_order1_gpu`. The result `none`: the routine
returns before it writes to `interp_for_itile` (146), which stays as it was allocated. Elements of the result never
written are `none`. -/
def create (pl : Plan) (b0 : Bounds) (cnt0 : Nat → Int) : Except Stop (Option (List (Option (Rec β)))) :=
  let b := upbound g pl.order pl.inner b0
  if b.up < 1 then .ok none
  else
    match run b pl.sched ⟨fun _ => 0, fun _ => none, work g b⟩ with
    | .error e => .error e
    | .ok s =>
      let n := total g s
      if n > 0 then
        match copyAll n b.up s.mem (pl.copyOrder (copies g (counts g cnt0 s) b.approx)) (fun _ => none) with
        | .error e => .error e
        | .ok out => .ok (some ((List.range n).map out))
      else .ok (some [])

/-! ### The job of a pair of tiles -/

section pair
variable {K : Type} [LinearOrder K] (p : RowRange.Pair K β)

/-- 49-50, 155-156 with the rows `r` found by `get_bounding_indices_gpu`; the mask is 1 everywhere
(interp_utils_gpu.c 88). Source cell `ij1` is `(ij1 % nx1, ij1 / nx1)` (`get_cell_vertices_gpu` 735-736). -/
def jobOf (r : Int × Int) : Job β where
  n1 := p.nx1 * p.ny1
  n2 := p.nx2 * p.ny2
  lo := r.1.toNat * p.nx1
  hi := (r.2 + 1).toNat * p.nx1
  mask := fun _ => true
  near := fun ij1 ij2 => RowRange.near p (ij1 % p.nx1) (ij1 / p.nx1) ij2
  clip := fun ij1 ij2 => p.clip (ij1 % p.nx1) (ij1 / p.nx1) ij2

/-- A record as an exchange cell of the CPU version. -/
def toCell (nx1 nx2 : Nat) (c : Rec β) : XGrid.Cell β :=
  ⟨c.ij1 % nx1, c.ij1 / nx1, c.ij2 % nx2, c.ij2 / nx2, c.val⟩

end pair

end Verif.GpuXgrid
