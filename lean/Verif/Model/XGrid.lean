/-
Model of the collection of exchange cells.

Source: /repo/lib/libfrencutils/create_xgrid.c: `set_maxxgrid`, `get_maxxgrid` 40-69;
`create_xgrid_2dx2d_order1` 637-887 and `create_xgrid_2dx2d_order2` 909-1168 (threads);
`create_xgrid_1dx2d_order1` 224-308, `_order2` 328-408, `create_xgrid_2dx1d_order1` 429-508, `_order2`
530-614, `create_xgrid_great_circle` 1382-1482 (no threads).

Simplifications: what two cells have in common (longitude adjustment, quick rejection, clipping, area and area
threshold, 779-823) is a parameter `hit`: a function of the two cells only, because this part of the loop body
reads shared arrays and writes only variables declared inside the loop. The parallel arrays `pi_in`, `pj_in`,
`pi_out`, `pj_out`, `pxgrid_area` (and centroids) are one array of records, and a thread enters one record in one
step. Memory allocation always succeeds.
-/
namespace Verif.XGrid

/-- One exchange cell: source cell `(i1, j1)`, target cell `(i2, j2)`, area and centroid. -/
structure Cell (β : Type) where
  i1 : Nat
  j1 : Nat
  i2 : Nat
  j2 : Nat
  val : β
  deriving DecidableEq

/-- What the loops need: grid sizes, `mask_in > MASK_THRESH`, and the result for source cell `(i1, j1)` and
target number `ij`: `none` if skipped by a `continue` or by the area threshold. -/
structure Grids (β : Type) where
  nx1 : Nat
  ny1 : Nat
  nx2 : Nat
  ny2 : Nat
  mask : Nat → Nat → Bool
  hit : Nat → Nat → Nat → Option β

variable {β : Type} (g : Grids β)

/-! ### 2dx2d: blocks of target cells, one thread for each -/

/-- 709-719: `istart2[m]` and `npts_my` of the blocks; `left` and `blks` are `npts_left` and `nblks_left`. -/
def blockLoop : (blks left pos : Nat) → List (Nat × Nat)
  | 0, _, _ => []
  | b + 1, left, pos =>
    let my := left / (b + 1)
    (pos, my) :: blockLoop b (left - my) (pos + my)

def blocks (n nblocks : Nat) : List (Nat × Nat) := blockLoop nblocks n 0

/-- The inner loop over target cells 788-838 for one source cell: `i2 = ij % nx2`, `j2 = ij / nx2`. -/
def targets (i1 j1 : Nat) (b : Nat × Nat) : List (Cell β) :=
  (List.range' b.1 b.2).filterMap fun ij =>
    (g.hit i1 j1 ij).map fun v => ⟨i1, j1, ij % g.nx2, ij / g.nx2, v⟩

/-- The exchange cells found by the thread of block `b`, in the order found (766-841). -/
def found (b : Nat × Nat) : List (Cell β) :=
  (List.range g.ny1).flatMap fun j1 => (List.range g.nx1).flatMap fun i1 =>
    if g.mask i1 j1 then targets g i1 j1 b else []

/-- The shared state of the parallel loop: `pnxgrid`, the arrays, and what every thread has still to enter. -/
structure St (β : Type) where
  cnt : Nat → Nat
  mem : Nat → Option (Cell β)
  todo : Nat → List (Cell β)

/-- Why the program ends early: `error_handler`, or undefined behaviour (write outside the arrays). -/
inductive Stop | error | oob
  deriving DecidableEq

def upd {α : Type} (f : Nat → α) (k : Nat) (v : α) : Nat → α := fun n => if n = k then v else f n

/-- Thread `m` enters its next exchange cell (824-836). `maxx` is `get_maxxgrid()`, the size of the arrays;
a thread that is done does nothing. -/
def step (maxx nblocks : Nat) (s : St β) (m : Nat) : Except Stop (St β) :=
  match s.todo m with
  | [] => .ok s
  | c :: cs =>
    let n := s.cnt m + 1
    if n ≥ maxx / nblocks then .error .error
    else
      let nn := m * (maxx / nblocks) + n - 1
      if nn < maxx then .ok ⟨upd s.cnt m n, upd s.mem nn (some c), upd s.todo m cs⟩
      else .error .oob

/-- A schedule is the list of the threads in the order in which they take steps. -/
def run (maxx nblocks : Nat) : List Nat → St β → Except Stop (St β)
  | [], s => .ok s
  | m :: ms, s => do run maxx nblocks ms (← step maxx nblocks s m)

def start (nblocks : Nat) : St β where
  cnt := fun _ => 0
  mem := fun _ => none
  todo := fun m => match (blocks (g.nx2 * g.ny2) nblocks)[m]? with
    | some b => found g b
    | none => []

/-- 844-872: the copy to the result arrays, in block order. Elements never written are `none`. With one block
the arrays are the result arrays (690-696). -/
def collect (maxx nblocks : Nat) (s : St β) : List (Option (Cell β)) :=
  (List.range nblocks).flatMap fun m =>
    (List.range (s.cnt m)).map fun i => s.mem (m * (maxx / nblocks) + i)

/-- `create_xgrid_2dx2d_order1`/`_order2` under a schedule. The result arrays of the callers have
`get_maxxgrid()` elements too. -/
def create2dx2d (maxx nblocks : Nat) (sched : List Nat) : Except Stop (List (Option (Cell β))) :=
  match run maxx nblocks sched (start g nblocks) with
  | .error e => .error e
  | .ok s => if (collect maxx nblocks s).length ≤ maxx then .ok (collect maxx nblocks s) else .error .oob

/-! ### 1dx2d, 2dx1d and great circle: no threads -/

/-- 290-298: an exchange cell is written first and the limit is tested after. `acc` are the elements already
written, newest first. -/
def enter (maxx : Nat) : List (Cell β) → List (Cell β) → Except Stop (List (Cell β))
  | acc, [] => .ok acc.reverse
  | acc, c :: cs =>
    if acc.length < maxx then
      if acc.length + 1 > maxx then .error .error else enter maxx (c :: acc) cs
    else .error .oob

/-- `create_xgrid_1dx2d_order1` and the other routines without threads: all target cells in one loop. -/
def createSerial (maxx : Nat) : Except Stop (List (Cell β)) :=
  enter maxx [] (found g (0, g.nx2 * g.ny2))

/-! ### The limit itself -/

/-- `get_maxxgrid`: the `size_t` is converted to a 32-bit `int` (two's complement, as all supported compilers
do; the C standard leaves it to the implementation). -/
def getMaxxgrid (v : Nat) : Int :=
  if v % 4294967296 < 2147483648 then ((v % 4294967296 : Nat) : Int)
  else ((v % 4294967296 : Nat) : Int) - 4294967296

/-- `--maxxgrid` of fregrid and make_coupler_mosaic (make_coupler_mosaic.c 480-487): the value must be between
1e3 and 1e10. -/
def acceptMaxxgrid (v : Nat) : Bool := decide (1000 ≤ v) && decide (v ≤ 10000000000)

end Verif.XGrid
