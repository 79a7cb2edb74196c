import Mathlib.Algebra.Order.Field.Basic
/-
Model of tools/simple_hydrog/rmvpr/rmv_parallel_rivers.F90 ("rmv") and of the parts of
tools/simple_hydrog/postp/cp_river_vars.F90 ("cp") that are the same.

Positions are counted from 1 inside a tile, so that the halo has the indices 0, -1 and nx + 1, nx + 2: this is index `i - 2` of
rmv and `i - 1` of cp. Numbers are those of an ordered field, and `tocell` is an integer. The lengths `celllength` and the
averages of latitude and longitude are left out; so are the test of the stop criterion and the messages. The lists of
outlets grow here without a bound; for the size of the arrays see `room`. Files are read with missing values already replaced.
-/
namespace Verif.Hydrog

/-- Number of tiles (1 or 6) and the size of each, rmv l.100-160 -/
structure Grid where
  nt : Int
  nx : Int
  ny : Int

structure Pos where
  x : Int
  y : Int
  n : Int
deriving DecidableEq

/-- `mval_mdl`, rmv l.49 -/
def mval : Int := -9999

/-- The position is a cell of the grid, not of the halo -/
def Grid.inside (g : Grid) (p : Pos) : Prop := 1 ≤ p.x ∧ p.x ≤ g.nx ∧ 1 ≤ p.y ∧ p.y ≤ g.ny ∧ 1 ≤ p.n ∧ p.n ≤ g.nt

instance (g : Grid) (p : Pos) : Decidable (g.inside p) := by unfold Grid.inside; infer_instance

/-- The order of the loops over n, j and i -/
def cells (g : Grid) : List Pos :=
  (List.range g.nt.toNat).flatMap fun (n : Nat) => (List.range g.ny.toNat).flatMap fun (y : Nat) =>
    (List.range g.nx.toNat).map fun (x : Nat) => (⟨x + 1, y + 1, n + 1⟩ : Pos)

/-- `out_flow(ii,jj)` in the order of the loops over jj and ii, with the steps ii - 2 and jj - 2, rmv l.92, cp l.76 -/
def dirs : List ((Int × Int) × Int) :=
  [((-1, -1), 8), ((0, -1), 4), ((1, -1), 2), ((-1, 0), 16), ((0, 0), 0), ((1, 0), 1), ((-1, 1), 32), ((0, 1), 64), ((1, 1), 128)]

/-- The step for a value of `tocell`: the comparison with `out_flow`, rmv l.655, cp l.573 -/
def offset (d : Int) : Option (Int × Int) := (dirs.find? fun e => e.2 = d).map (·.1)

/-- `mod(k,ntiles)` with 0 replaced by `ntiles`, rmv l.459-470 -/
def tile (g : Grid) (k : Int) : Int := if k % g.nt = 0 then g.nt else k % g.nt

/-- `itw`, `ite`, `its`, `itn`, rmv l.457-471, cp l.418-431 -/
def itw (g : Grid) (n : Int) : Int := if n % 2 = 0 then tile g (n + 5) else tile g (n + 4)
@[inherit_doc itw] def ite (g : Grid) (n : Int) : Int := if n % 2 = 0 then tile g (n + 2) else tile g (n + 1)
@[inherit_doc itw] def its (g : Grid) (n : Int) : Int := if n % 2 = 0 then tile g (n + 4) else tile g (n + 5)
@[inherit_doc itw] def itn (g : Grid) (n : Int) : Int := if n % 2 = 0 then tile g (n + 1) else tile g (n + 2)

/-- The position from which `create_halo` copies, rmv l.1282-1357 with `h` = 2, cp l.1153-1216 with `h` = 1. The values copied are
values inside the tiles (for nx, ny ≥ h), so the order of the copies does not matter. A position that is not set keeps its value. -/
def source (g : Grid) (h : Int) (p : Pos) : Pos :=
  if g.nt = 1 then
    if 1 - h ≤ p.x ∧ p.x ≤ 0 then ⟨p.x + g.nx, p.y, p.n⟩
    else if g.nx + 1 ≤ p.x ∧ p.x ≤ g.nx + h then ⟨p.x - g.nx, p.y, p.n⟩
    else p
  else if 1 ≤ p.y ∧ p.y ≤ g.ny ∧ 1 - h ≤ p.x ∧ p.x ≤ 0 then
    if p.n % 2 = 0 then ⟨g.nx + p.x, p.y, itw g p.n⟩ else ⟨g.nx + 1 - p.y, g.ny + p.x, itw g p.n⟩
  else if 1 ≤ p.y ∧ p.y ≤ g.ny ∧ g.nx + 1 ≤ p.x ∧ p.x ≤ g.nx + h then
    if p.n % 2 = 0 then ⟨g.nx + 1 - p.y, p.x - g.nx, ite g p.n⟩ else ⟨p.x - g.nx, p.y, ite g p.n⟩
  else if 1 ≤ p.x ∧ p.x ≤ g.nx ∧ 1 - h ≤ p.y ∧ p.y ≤ 0 then
    if p.n % 2 = 0 then ⟨g.nx + p.y, g.ny + 1 - p.x, its g p.n⟩ else ⟨p.x, g.ny + p.y, its g p.n⟩
  else if 1 ≤ p.x ∧ p.x ≤ g.nx ∧ g.ny + 1 ≤ p.y ∧ p.y ≤ g.ny + h then
    if p.n % 2 = 0 then ⟨p.x, p.y - g.ny, itn g p.n⟩ else ⟨p.y - g.ny, g.ny + 1 - p.x, itn g p.n⟩
  else p

/-- `create_halo` -/
def createHalo {α : Type} (g : Grid) (h : Int) (f : Pos → α) : Pos → α := fun p => f (source g h p)

/-- The cell reached by a step to `p`, rmv l.682-717, cp l.600-637 -/
def wrap (g : Grid) (p : Pos) : Pos :=
  if g.nt = 1 then
    if p.x = g.nx + 1 then ⟨1, p.y, p.n⟩ else if p.x = 0 then ⟨g.nx, p.y, p.n⟩ else p
  else if p.n % 2 = 0 then
    let q : Pos := if p.x = g.nx + 1 then ⟨g.nx + 1 - p.y, 1, ite g p.n⟩ else if p.x = 0 then ⟨g.nx, p.y, itw g p.n⟩ else p
    if p.y = g.ny + 1 then ⟨p.x, 1, itn g p.n⟩ else if p.y = 0 then ⟨g.nx, g.ny + 1 - p.x, its g p.n⟩ else q
  else
    let q : Pos := if p.x = g.nx + 1 then ⟨1, p.y, ite g p.n⟩ else if p.x = 0 then ⟨g.nx + 1 - p.y, g.ny, itw g p.n⟩ else p
    if p.y = g.ny + 1 then ⟨1, g.ny + 1 - p.x, itn g p.n⟩ else if p.y = 0 then ⟨p.x, g.ny, its g p.n⟩ else q

/-- The position at a step of `e` -/
def Pos.move (p : Pos) (e : Int × Int) : Pos := ⟨p.x + e.1, p.y + e.2, p.n⟩

variable {R : Type} [Field R] [LinearOrder R]

/-- `cell_a` and `scale_suba`, rmv l.377-387 -/
structure Areas (R : Type) where
  area : Pos → R
  scale : Bool

/-- The area added for a cell, rmv l.671-675 -/
def Areas.weight (a : Areas R) (lfr : Pos → R) (c : Pos) : R := if a.scale then a.area c * lfr c else a.area c

/-- `tocell`, `land_fr`, `suba`, `travel`, `ibas`, `idx_to_grd` and `ilo`; `nto` is the length of `ilo`, and `idx_to(l)` is `l`
until the basins are sorted -/
structure State (R : Type) where
  toc : Pos → Int
  lfr : Pos → R
  suba : Pos → R
  travel : Pos → R
  ibas : Pos → Int
  idx : Pos → Int
  ilo : List Int

/-- `ilo` of a new outlet, rmv l.608-612 -/
def kind (lfr : R) : Int := if lfr ≥ 1 then 0 else 1

/-- The size of the arrays `idx_to`, `ilo` and `bas_area`, cp l.398-404 with `h` = 1 and rmv l.396 with `h` = 2. The numbers are
not compared with it. -/
def room (g : Grid) (h : Int) : Int :=
  if h = 1 ∧ g.nt = 1 then (g.nx + 2) * (g.ny + 2) / 4 else (g.nx + 2 * h) * (g.ny + 2 * h)

/-- One turn of the loop over the outlets, rmv l.599-617, cp l.513-533 -/
def register (s : State R) (c : Pos) : State R :=
  if s.toc c = mval then s
  else if s.toc c = 0 then
    { s with idx := Function.update s.idx c (s.ilo.length + 1), ilo := s.ilo ++ [kind (s.lfr c)] }
  else s

/-- A river from `c` comes to `p`, where `tocell` is missing, after `k` steps: rmv l.721-763, cp l.641-685 -/
def newOutlet (a : Areas R) (c p : Pos) (k : Nat) (s : State R) : State R :=
  let s := { s with
    toc := Function.update s.toc p 0
    travel := Function.update s.travel p 0
    suba := Function.update s.suba p (s.suba p + a.weight s.lfr c)
    lfr := if s.lfr p = mval then Function.update s.lfr p 0 else s.lfr }
  let s := if s.idx p = -1 then
      { s with ilo := s.ilo ++ [kind (s.lfr p)], idx := Function.update s.idx p (s.ilo.length + 1) }
    else s
  { s with
    ibas := Function.update (Function.update s.ibas c (s.idx p)) p (s.idx p)
    travel := Function.update s.travel c k }

/-- The river from `c` after `k` steps at `p`, rmv l.640-767, cp l.560-690. `none`: more than `fuel` steps. -/
def walk (g : Grid) (a : Areas R) (c : Pos) : Nat → Pos → Nat → State R → Option (State R)
  | 0, _, _, _ => none
  | fuel + 1, p, k, s =>
    match offset (s.toc p) with
    | some e =>
      let s := { s with suba := Function.update s.suba p (s.suba p + a.weight s.lfr c) }
      if s.toc p = 0 then
        some { s with travel := Function.update s.travel c k, ibas := Function.update s.ibas c (s.idx p) }
      else walk g a c fuel (wrap g (p.move e)) (k + 1) s
    | none => if s.toc p = mval then some (newOutlet a c p k s) else some s

/-- One turn of the loop over the cells, rmv l.621-771 -/
def river (g : Grid) (a : Areas R) (fuel : Nat) (s : State R) (c : Pos) : Option (State R) :=
  if s.toc c = mval then some s else walk g a c fuel c 0 s

/-- Following all rivers, rmv l.597-771, cp l.511-693 -/
def follow (g : Grid) (a : Areas R) (fuel : Nat) (toc : Pos → Int) (lfr : Pos → R) : Option (State R) :=
  (cells g).foldlM (river g a fuel)
    ((cells g).foldl register ⟨toc, lfr, fun _ => 0, fun _ => 0, fun _ => -1, fun _ => -1, []⟩)

/-- `csum` and `rivlen` of a river from the tile `n`, cp l.560-690, after which the river is at `p`. The latitudes and longitudes are
those at the indices of `p` and of the next position, but always in tile `n`, l.580-584. `dist` is the distance of two cells; the
halo has the values of `source`. -/
def rivlen (g : Grid) (dist : Pos → Pos → R) (toc : Pos → Int) (n : Int) : Nat → Pos → R → Option R
  | 0, _, _ => none
  | fuel + 1, p, csum =>
    match offset (toc p) with
    | some e =>
      if toc p = 0 then some csum
      else
        let i : Pos := ⟨p.x, p.y, n⟩
        rivlen g dist toc n fuel (wrap g (p.move e)) (csum + dist (source g 1 i) (source g 1 (i.move e)))
    | none => if toc p = mval then some csum else some 0

/-- Only in rmv, l.772-776: an outlet without land and without a river is no outlet -/
def dry (a : Areas R) (s : State R) : State R :=
  { s with toc := fun p => if s.toc p = 0 ∧ s.lfr p = 0 ∧ s.suba p = a.weight s.lfr p then mval else s.toc p }

/-- rmv l.778-783, cp l.697-702; `ibas` is not set in cp, where it is -1 already -/
def blank (s : State R) : State R :=
  { s with
    suba := fun p => if s.toc p = mval then (mval : R) else s.suba p
    travel := fun p => if s.toc p = mval then (mval : R) else s.travel p
    ibas := fun p => if s.toc p = mval then -1 else s.ibas p }

/-- An entry of `idx_to`, `bas_area` and `ilo` -/
structure Basin (R : Type) where
  idx : Int
  area : R
  ilo : Int

/-- `bas_area`, rmv l.808-832, cp l.844-868 -/
def basins (g : Grid) (a : Areas R) (s : State R) : List (Basin R) :=
  s.ilo.zipIdx.map fun e =>
    ⟨e.2 + 1, (((cells g).filter fun c => s.ibas c = e.2 + 1).map fun c => a.weight s.lfr c).sum, e.1⟩

/-- The inner loop of the sort, rmv l.841-872 -/
def bubble : List (Basin R) → List (Basin R)
  | x :: y :: l => if y.area > x.area then y :: bubble (x :: l) else x :: bubble (y :: l)
  | l => l
termination_by l => l.length

/-- The sort, rmv l.840-873, cp l.883-918 -/
def sortBasins (l : List (Basin R)) : List (Basin R) := bubble^[l.length] l

/-- `basin`, rmv l.908-935; a value of `ibas` that is not in the list would stop the program -/
def label (sorted : List (Basin R)) (s : State R) (c : Pos) : R :=
  if s.ibas c = -1 then (mval : R) else ((sorted.findIdx fun b => b.idx = s.ibas c) + 1 : Nat)

/-- `drn_idx` -/
def internal (sorted : List (Basin R)) (s : State R) (c : Pos) : R :=
  if s.ibas c = -1 then (mval : R)
  else match sorted.find? fun b => b.idx = s.ibas c with
    | some b => if b.ilo = 0 then 1 else 0
    | none => (mval : R)

/-- A coastal outlet, rmv l.536 -/
def coastal (toc : Pos → Int) (lfr : Pos → R) (q : Pos) : Prop := toc q = 0 ∧ lfr q < 1

instance (toc : Pos → Int) (lfr : Pos → R) (q : Pos) : Decidable (coastal toc lfr q) := by unfold coastal; infer_instance

/-- Whether a river at `p` may be led to `q`, rmv l.534-549 -/
def accepts (toc : Pos → Int) (lfr bas : Pos → R) (p q : Pos) : Prop :=
  bas q = bas p ∨ coastal toc lfr q ∨ ∃ e ∈ dirs, coastal toc lfr (q.move e.1)

instance (toc : Pos → Int) (lfr bas : Pos → R) (p q : Pos) : Decidable (accepts toc lfr bas p q) := by
  unfold accepts; infer_instance

/-- `smax` and `out_flow(i1,j1)` -/
structure Best (R : Type) where
  smax : R
  dir : Option Int

/-- One turn of the loops over jj and ii, rmv l.516-560 -/
def try_ (toc : Pos → Int) (lfr sub bas : Pos → R) (p : Pos) (b : Best R) (e : (Int × Int) × Int) : Best R :=
  if e.1 = (0, 0) then b
  else
    let q := p.move e.1
    if b.smax ≤ sub q then
      if accepts toc lfr bas p q then ⟨sub q, some e.2⟩ else b
    else b

/-- `tocell_new`, rmv l.498-575, for fields with a halo -/
def choose (toc : Pos → Int) (lfr sub bas : Pos → R) (p : Pos) : Int :=
  if toc p = mval then mval
  else if toc p = 0 then 0
  else match (dirs.foldl (try_ toc lfr sub bas p) ⟨-99999, none⟩).dir with
    | some d => d
    | none => toc p

/-- What is kept from one iteration to the next -/
structure Net (R : Type) where
  toc : Pos → Int
  lfr : Pos → R
  sub : Pos → R
  bas : Pos → R
  travel : Pos → R

/-- The new network of an iteration, rmv l.421-577. `ocean` is `add_ocean_const`. -/
def redirect (g : Grid) (ocean : Bool) (s : Net R) : Pos → Int :=
  let sub : Pos → R := if ocean then fun p => if s.lfr p < 1 then s.sub p + 5000000000000000 else s.sub p else s.sub
  fun p => if g.inside p then
    choose (createHalo g 2 s.toc) (createHalo g 2 s.lfr) (createHalo g 2 sub) (createHalo g 2 s.bas) p
  else mval

/-- One iteration, rmv l.411-943. The halos stay in `land_fr`. -/
def iteration (g : Grid) (a : Areas R) (ocean : Bool) (fuel : Nat) (s : Net R) : Option (Net R) := do
  let t ← follow g a fuel (redirect g ocean s) (createHalo g 2 s.lfr)
  let t := blank (dry a t)
  let sorted := sortBasins (basins g a t)
  return ⟨t.toc, t.lfr, t.suba, fun p => if g.inside p then label sorted t p else (mval : R), t.travel⟩

/-- The number of iterations is 100 at most, or until nothing changes -/
def iterations (g : Grid) (a : Areas R) (ocean : Bool) (fuel : Nat) : Nat → Net R → Option (Net R)
  | 0, s => some s
  | k + 1, s => (iteration g a ocean fuel s).bind (iterations g a ocean fuel k)

end Verif.Hydrog
