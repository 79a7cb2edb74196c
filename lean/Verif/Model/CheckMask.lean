import Verif.Model.Extent
import Mathlib.Algebra.Order.Field.Basic
/-
Model of `check_mask`: which processors of a layout hold no ocean (or no land).

Source: /repo/src/check-mask/check_mask.c `update_cubic_halo` 489-527, `check_ocean_mask` 545-799, `check_land_mask`
816-909.

Simplifications: the arrays `wet` and `data[tile]` are functions of column and row (`wet[j*nxd+i]` is `wet (i, j)`; all
columns used are below `nxd`); the values are elements of an ordered field. The table is returned instead of printed.
`mpp_compute_extent` and `mpp_define_layout` are those of Model/Extent.
-/
namespace Verif.CheckMask

/-- A loop of assignments `w[dst] = w[src]`, in the order of the list. -/
def copyLoop {I K : Type*} [DecidableEq I] (l : List (I × I)) (w : I → K) : I → K :=
  l.foldl (fun w p => fun x => if x = p.1 then w p.2 else w x) w

/-! ### Ocean -/

/-- 574-587: assignments for `cyclic_x`, destination and source. -/
def cyclicXLoop (nx ny halo : Nat) : List ((Nat × Nat) × (Nat × Nat)) :=
  (List.range ny).flatMap fun j =>
    ((List.range halo).map fun i => ((i, j + halo), (nx + halo - 1 - i, j + halo))) ++
    ((List.range halo).map fun i => ((nx + halo + i, j + halo), (halo + i, j + halo)))

/-- 589-602: `cyclic_y`. -/
def cyclicYLoop (nx ny halo : Nat) : List ((Nat × Nat) × (Nat × Nat)) :=
  (List.range nx).flatMap fun i =>
    ((List.range halo).map fun j => ((i + halo, j), (i + halo, ny + halo - 1 - j))) ++
    ((List.range halo).map fun j => ((i + halo, ny + halo + j), (i + halo, halo + j)))

/-- 604-610: `is_tripolar`. -/
def tripolarLoop (nx ny halo : Nat) : List ((Nat × Nat) × (Nat × Nat)) :=
  (List.range (nx + 2 * halo)).flatMap fun i =>
    (List.range halo).map fun j => ((i, ny + halo + j), (nx + 2 * halo - 1 - i, ny + halo - 1 - j))

variable {K : Type*} [Field K] [LinearOrder K] [IsStrictOrderedRing K]

/-- The ocean grid: sizes, the input field, and how the sides are connected. -/
structure Basin (K : Type*) where
  nx : Nat
  ny : Nat
  wet : Nat → Nat → K
  cyclicX : Bool
  cyclicY : Bool
  tripolar : Bool

/-- 561-571: the field with a halo of zeros. -/
def Basin.padded (b : Basin K) (halo : Nat) : Nat × Nat → K := fun p =>
  if halo ≤ p.1 ∧ p.1 < halo + b.nx ∧ halo ≤ p.2 ∧ p.2 < halo + b.ny then b.wet (p.1 - halo) (p.2 - halo) else 0

/-- 561-610: the field with its halo. -/
def Basin.field (b : Basin K) (halo : Nat) : Nat × Nat → K :=
  let w := b.padded halo
  let w := if b.cyclicX then copyLoop (cyclicXLoop b.nx b.ny halo) w else w
  let w := if b.cyclicY then copyLoop (cyclicYLoop b.nx b.ny halo) w else w
  if b.tripolar then copyLoop (tripolarLoop b.nx b.ny halo) w else w

/-- `for(x=a; x<=b; x++)` -/
def upTo (a b : Nat) : List Nat := List.range' a (b + 1 - a)

/-- 652-670: the mask of one processor with the extents `x` and `y`: is there an ocean point? The limits of the data
domain are `ibegin + halo - halo` and `iend + halo + halo`. -/
def kept (w : Nat × Nat → K) (halo : Nat) (x y : Int × Int) : Bool :=
  (upTo (y.1 + halo - halo).toNat (y.2 + halo + halo).toNat).any fun jj =>
    (upTo (x.1 + halo - halo).toNat (x.2 + halo + halo).toNat).any fun ii => decide (w (ii, jj) > 1 / 2)

inductive Dir
  | west | east | south | north | other
deriving DecidableEq

/-- An open boundary, with C indices. -/
structure Obc where
  dir : Dir
  is : Int
  ie : Int
  js : Int
  je : Int

/-- 672-707: `obc_error` of one processor; `x` and `y` are the extents without halo, `e` the value so far. -/
def obcStep (nx ny halo : Int) (x y : Int × Int) (e : Nat) (no : Nat) (o : Obc) : Nat :=
  let isc := x.1 + halo
  let iec := x.2 + halo
  let jsc := y.1 + halo
  let jec := y.2 + halo
  let isd := isc - halo
  let ied := iec + halo
  let jsd := jsc - halo
  let jed := jec + halo
  let onDomain := (upTo jsd.toNat jed.toNat).any fun jj => (upTo isd.toNat ied.toNat).any fun ii =>
    decide ((jj : Int) ≤ o.js ∧ (jj : Int) ≤ o.je ∧ (ii : Int) ≥ o.is ∧ (ii : Int) ≤ o.ie)
  if ¬onDomain then e
  else match o.dir with
    | .west =>
      let e := if 0 ≠ isc ∧ o.is - isc < 0 then no else e
      if ied - o.is ≤ halo then no else e
    | .east =>
      let e := if nx - 1 ≠ iec ∧ iec - o.is < 0 then no else e
      if o.is - isd ≤ halo then no else e
    | .south =>
      let e := if 0 ≠ jsc ∧ o.js - jsc < 0 then no else e
      if jec - o.js ≤ halo then no else e
    | .north =>
      let e := if ny - 1 ≠ jec ∧ jec - o.js < 0 then no else e
      if o.js - jsc ≤ halo then no else e
    | .other => e

def obcError (nx ny halo : Int) (obcs : List Obc) (x y : Int × Int) : Nat :=
  (obcs.zipIdx).foldl (fun e p => obcStep nx ny halo x y e p.2 p.1) 0

/-- The contents of a file `mask_table.<nmask>.<layout0>x<layout1>`. -/
structure Table where
  nmask : Nat
  l0 : Nat
  l1 : Nat
  list : List (Nat × Nat)
deriving DecidableEq

/-- 719-735: the processors that are not kept, in the order of the loops. -/
def maskList (w : Nat × Nat → K) (halo : Nat) (xs ys : List (Int × Int)) : List (Nat × Nat) :=
  ys.zipIdx.flatMap fun y => xs.zipIdx.filterMap fun x =>
    if kept w halo x.1 y.1 then none else some (x.2 + 1, y.2 + 1)

/-- 625-796: one layout; the table if one is written. -/
def checkLayout (b : Basin K) (halo : Nat) (showValidOnly : Bool) (obcs : List Obc) (l0 l1 : Nat) :
    Except ExtErr (Option Table) :=
  if l0 > b.nx ∨ l1 > b.ny then .ok none
  else do
    let xs ← mppComputeExtent b.nx l0
    let ys ← mppComputeExtent b.ny l1
    let l := maskList (b.field halo) halo xs ys
    if l.length > 0 then
      if showValidOnly ∧ obcs.length > 0 ∧
          (ys.any fun y => xs.any fun x => obcError b.nx b.ny halo obcs x y = 0) then .ok none
      else .ok (some ⟨l.length, l0, l1, l⟩)
    else .ok none

/-- 625-632: the layout for `np` processors. -/
def layoutFor (layoutIn : Nat × Nat) (guess : Int) (np : Nat) : Nat × Nat :=
  if layoutIn.1 * layoutIn.2 = np then layoutIn else defineLayout guess np

/-! ### Land -/

/-- `update_cubic_halo`: the assignments for one tile; a place is tile, column and row. -/
def cubicLoop (ntiles nx ny tile : Nat) : List ((Nat × Nat × Nat) × (Nat × Nat × Nat)) :=
  let js := (List.range ny).map (· + 1)
  let is := (List.range nx).map (· + 1)
  if tile % 2 = 0 then
    let tw := (tile + ntiles - 2) % ntiles
    let te := (tile + 1) % ntiles
    let ts := (tile + ntiles - 1) % ntiles
    let tn := (tile + 2) % ntiles
    (js.flatMap fun j => [((tile, 0, j), (tw, nx + 1 - j, ny)), ((tile, nx + 1, j), (te, 1, j))]) ++
    (is.flatMap fun i => [((tile, i, 0), (ts, i, ny)), ((tile, i, ny + 1), (tn, 1, ny + 1 - i))])
  else
    let tw := (tile + ntiles - 1) % ntiles
    let te := (tile + 2) % ntiles
    let ts := (tile + ntiles - 2) % ntiles
    let tn := (tile + 1) % ntiles
    (js.flatMap fun j => [((tile, 0, j), (tw, nx, j)), ((tile, nx + 1, j), (te, nx + 1 - j, 1))]) ++
    (is.flatMap fun i => [((tile, i, 0), (ts, nx, ny + 1 - i)), ((tile, i, ny + 1), (tn, i, 1))])

/-- `update_cubic_halo` -/
def updateCubicHalo (ntiles nx ny : Nat) (data : Nat × Nat × Nat → K) : Nat × Nat × Nat → K :=
  copyLoop ((List.range ntiles).flatMap (cubicLoop ntiles nx ny)) data

/-- 847-858: is there land in the domain or around it? The halo is 1. -/
def keptLand (area : Nat × Nat × Nat → K) (n : Nat) (x y : Int × Int) : Bool :=
  (upTo y.1.toNat (y.2 + 2).toNat).any fun jj => (upTo x.1.toNat (x.2 + 2).toNat).any fun ii =>
    decide (area (n, ii, jj) > 0)

/-- `check_land_mask`: the list of `i+1, j+1, n+1`; a table is written if it is not empty. -/
def checkLand (ntiles nx ny l0 l1 : Nat) (area : Nat × Nat × Nat → K) : Except ExtErr (List (Nat × Nat × Nat)) := do
  let xs ← mppComputeExtent nx l0
  let ys ← mppComputeExtent ny l1
  .ok ((List.range ntiles).flatMap fun n => ys.zipIdx.flatMap fun y => xs.zipIdx.filterMap fun x =>
    if keptLand area n x.1 y.1 then none else some (x.2 + 1, y.2 + 1, n + 1))

/-- The land area of the tiles with a halo of zeros (main 446-453). -/
def paddedArea (nx ny : Nat) (a : Nat → Nat → Nat → K) : Nat × Nat × Nat → K := fun p =>
  if 1 ≤ p.2.1 ∧ p.2.1 < nx + 1 ∧ 1 ≤ p.2.2 ∧ p.2.2 < ny + 1 then a p.1 (p.2.1 - 1) (p.2.2 - 1) else 0

end Verif.CheckMask
