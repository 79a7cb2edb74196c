import Verif.Model.Conserve
/-
Model of the remapping of a field by fregrid_gpu.

Source: /repo/src/fregrid-gpu/conserve_interp_gpu.c `do_scalar_conserve_interp_gpu` 466-594,
`get_input_area_weight` 635-670, `interp_data_order1` 672-706, `interp_data_order2` 708-758;
/repo/lib/libfrencutils_gpu/create_xgrid_gpu.c 447-464 (centroids of order 2).

Simplifications: numbers are a field; one output tile and one level; the sums printed by the conservation check
are not modelled. An atomic update is one step; the plain update of 575-576 is two, a load and a store. The steps of a
parallel loop are taken in any order (of which the interleavings of the iterations are a part). `Conf` and `Src`
are those of the CPU version. In 447-464 the corners are stored in arrays of four elements, which `fix_lon_gpu`
overruns for cells with a pole as corner; the overrun is not modelled.
-/
namespace Verif.GpuConserve
open Verif.Conserve

variable {K : Type} [Field K] [LinearOrder K]

/-- One entry of the arrays of an input tile: tile, `input_parent_cell_index`, `output_parent_cell_index`,
`xcell_area`, `dcentroid_lon`, `dcentroid_lat`. -/
structure GCell (K : Type) where
  t : Nat
  ij1 : Nat
  ij2 : Nat
  area : K
  dx : K
  dy : K

variable (cf : Conf K) (s : Src K)

/-- The same exchange cell in the form of the CPU version. -/
def gcell (c : XCell K) : GCell K := ⟨c.t1, n1 cf c, n0 cf c, c.area, c.di, c.dj⟩

/-- `input_area_weight` 648-668. -/
def areaWeight (t i : Nat) : K :=
  let w := if cf.sum then 1 / cf.cellArea t i
    else match cf.measures with
      | some m => m t i / cf.cellArea t i
      | none => 1
  match cf.weight with
  | some u => w * u t i
  | none => w

/-- `fieldin_data[ij1]` (696), or `fieldin_data[data_pt]` for order 2 (743-747). -/
def field (c : GCell K) : K :=
  if cf.order2 then
    s.data c.t ((c.ij1 / cf.nx1 c.t + 1) * (cf.nx1 c.t + 2) + (c.ij1 % cf.nx1 c.t + 1))
  else s.data c.t c.ij1

/-- 700, 751-752 without the factor `area`. -/
def value (c : GCell K) : K :=
  if cf.order2 then
    field cf s c + (1 - (if s.gradMask c.t c.ij1 then 1 else 0)) *
      (s.gradX c.t c.ij1 * c.dx + s.gradY c.t c.ij1 * c.dy)
  else field cf s c

/-- One access of the parallel loop to shared memory. -/
inductive Op (K : Type)
  | data (k : Nat) (v : K)
  | area (k : Nat) (v : K)
  | miss (k : Nat)

/-- One iteration: 696-703, 747-755. `missing` is -MAXVAL if the variable has none (475). -/
def ops (c : GCell K) : List (Op K) :=
  if field cf s c = cf.missing then []
  else
    let area := c.area * areaWeight cf c.t c.ij1
    [.data c.ij2 (value cf s c * area), .area c.ij2 area, .miss c.ij2]

def apply (a : Acc K) : Op K → Acc K
  | .data k v => { a with data := addAt a.data k v }
  | .area k v => { a with area := addAt a.area k v }
  | .miss k => { a with miss := fun n => if n = k then true else a.miss n }

/-- 492-518: all accesses, in some order. -/
def exec (l : List (Op K)) : Acc K := l.foldl apply ⟨fun _ => 0, fun _ => 0, fun _ => false⟩

/-! ### Target grid option -/

/-- What an iteration adds to `out_area` (574-576). -/
def addend (c : GCell K) : K :=
  match cf.measures with
  | some m => c.area * m c.t c.ij1 / cf.cellArea c.t c.ij1
  | none => c.area

/-- `out_area` and the registers: `none` not started, `some (some r)` value loaded, `some none` stored. -/
structure Race (K : Type) where
  area : Nat → K
  reg : Nat → Option (Option K)

/-- Iteration `ix` of the loop 571-577 takes its next step: load, then store. -/
def raceStep (cells : List (GCell K)) (r : Race K) (ix : Nat) : Race K :=
  match cells[ix]? with
  | none => r
  | some c =>
    match r.reg ix with
    | none => { r with reg := fun n => if n = ix then some (some (r.area c.ij2)) else r.reg n }
    | some (some v) =>
      { area := fun n => if n = c.ij2 then v + addend cf c else r.area n
        reg := fun n => if n = ix then some none else r.reg n }
    | some none => r

/-- The loop 571-577 for one input tile under a schedule. -/
def raceTile (sched : List Nat) (cells : List (GCell K)) (area : Nat → K) : Nat → K :=
  (sched.foldl (raceStep cf cells) ⟨area, fun _ => none⟩).area

/-- 580-583. -/
def scale (area d : Nat → K) : Nat → K :=
  fun n => if d n ≠ cf.missing then d n * (area n / cf.cellAreaOut n) else d n

/-- 557-584: adding up and scaling, both for each input tile. -/
def targetLoop (sched : Nat → List Nat) : List (List (GCell K)) → Nat → (area d : Nat → K) → Nat → K
  | [], _, _, d => d
  | cells :: tiles, t, area, d =>
    let area' := raceTile cf (sched t) cells area
    targetLoop sched tiles (t + 1) area' (scale cf area' d)

/-- 530-586. -/
def finishGpu (sched : Nat → List Nat) (tiles : List (List (GCell K))) (a : Acc K) : Nat → K :=
  if cf.sum then fun n => if a.area n = 0 then (if a.miss n then 0 else cf.missing) else a.data n
  else
    let d := fun n => if a.area n > 0 then a.data n / a.area n else if a.miss n then 0 else cf.missing
    if cf.target then targetLoop cf sched tiles 0 (fun _ => 0) d else d

/-- `do_scalar_conserve_interp_gpu` for one output tile; `order` is the order of the accesses and `sched` the
schedule of the loop of the target grid option, for each input tile. -/
def scalarGpu (order : List (Op K) → List (Op K)) (sched : Nat → List Nat) (tiles : List (List (GCell K))) : Nat → K :=
  finishGpu cf sched tiles (exec (order (tiles.flatten.flatMap (ops cf s))))

/-! ### Centroids of order 2 -/

/-- 447-464: distance of an exchange cell from the centroid of its source cell, in one coordinate: `f` the
integral over the exchange cell (`xcell_clon`), `full` the integral over the source cell. The sums are over the exchange
cells of this pair of tiles (416-418, 427-429). -/
def distance (nx1 : Nat → Nat) (ratio : K) (cellArea full : Nat → Nat → K) (f : XRaw K → K) (raw : List (XRaw K))
    (r : XRaw K) : K :=
  let i := r.j1 * nx1 r.t1 + r.i1
  let sa := cellSum nx1 (fun r => r.area) raw r.t1 i
  f r / r.area - (if |sa - cellArea r.t1 i| / cellArea r.t1 i > ratio then full r.t1 i / cellArea r.t1 i
    else cellSum nx1 f raw r.t1 i / sa)

end Verif.GpuConserve
