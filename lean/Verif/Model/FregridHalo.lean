import Verif.Model.MosaicContact
/-
Model of the halo of the input grid in fregrid: how contacts of a mosaic become a list of boundaries for each tile, and how the
halo is filled from the neighbours.

Source: /repo/src/fre-grid/fregrid_util.c `get_contact_direction` 2420-2444, `setup_boundary` 2446-2568, `init_halo` 2595-2611,
`update_halo` 2614-2661, and the loops over tiles in `get_input_grid` 276-297 and 301-327 and in `get_input_data` 2165-2182.

Simplifications: the contacts are those that `read_mosaic_contact` returns (Model/MosaicContact). Arrays are functions from flat
indices, one for each tile; that the indices are inside the arrays is a theorem. `malloc` succeeds. `is_cyclic` (2458) is left out.
-/
namespace Verif.FregridHalo
open Verif.MosaicContact

inductive Side
  | west | east | south | north
deriving DecidableEq, Repr

inductive Err
  | point | notLine | mismatch
deriving DecidableEq, Repr

/-- One entry of the arrays `tile`, `istart`, `iend`, `jstart`, `jend` (2466-2474); tiles count from 0. -/
structure End where
  tile : Nat
  is : Int
  ie : Int
  js : Int
  je : Int
deriving DecidableEq, Repr

/-- The arrays of length `2 * ncontacts`: first all first sides, then all second sides (2472-2474). -/
def ends (cs : List Contact) : List End :=
  cs.map (fun c => ⟨c.tile1 - 1, c.ix.is1, c.ix.ie1, c.ix.js1, c.ix.je1⟩) ++
  cs.map (fun c => ⟨c.tile2 - 1, c.ix.is2, c.ix.ie2, c.ix.js2, c.ix.je2⟩)

/-- `get_contact_direction` for one entry (2426-2441). -/
def direction (e : End) : Except Err Side :=
  if e.is = e.ie ∧ e.js = e.je then .error .point
  else if e.is ≠ e.ie ∧ e.js ≠ e.je then .error .notLine
  else if e.is = e.ie then (if e.is = 0 then .ok .west else .ok .east)
  else (if e.js = 0 then .ok .south else .ok .north)

inductive Rot
  | zero | ninety | minusNinety | half
deriving DecidableEq, Repr

/-- A rectangle of indices. -/
structure Box where
  is : Int
  ie : Int
  js : Int
  je : Int
deriving DecidableEq, Repr

/-- One entry of `Bound_config`. -/
structure Bound where
  to : Box
  fr : Box
  rotate : Rot
  tile2 : Nat
deriving DecidableEq, Repr

/-- The part of the halo that is filled, 2503-2528; `nx`, `ny` is the size of the tile. -/
def toBox (halo shift nx ny : Int) (d : Side) (e : End) : Box :=
  match d with
  | .west => ⟨0, halo - 1, min e.js e.je + halo, max e.js e.je + halo + shift⟩
  | .east => ⟨nx + shift + halo, nx + shift + halo + halo - 1, min e.js e.je + halo, max e.js e.je + halo + shift⟩
  | .south => ⟨min e.is e.ie + halo, max e.is e.ie + halo + shift, 0, halo - 1⟩
  | .north => ⟨min e.is e.ie + halo, max e.is e.ie + halo + shift, ny + shift + halo, ny + shift + halo + halo - 1⟩

/-- The part of the other tile from which it is filled, 2531-2556; `nx`, `ny` is the size of the tile with the halo, not of the
other tile. -/
def frBox (halo shift nx ny : Int) (d : Side) (e : End) : Box :=
  match d with
  | .west => ⟨halo + shift, halo + shift + halo - 1, min e.js e.je + halo, max e.js e.je + halo + shift⟩
  | .east => ⟨nx - halo + 1, nx, min e.js e.je + halo, max e.js e.je + halo + shift⟩
  | .south => ⟨min e.is e.ie + halo, max e.is e.ie + halo + shift, halo + shift, halo + shift + halo - 1⟩
  | .north => ⟨min e.is e.ie + halo, max e.is e.ie + halo + shift, ny - halo + 1, ny⟩

/-- 2557-2562 -/
def rotation : Side → Side → Rot
  | .west, .north => .ninety
  | .east, .south => .ninety
  | .south, .east => .minusNinety
  | .north, .west => .minusNinety
  | .north, .north => .half
  | _, _ => .zero

def Box.size (b : Box) : Int := (b.ie - b.is + 1) * (b.je - b.js + 1)

/-- The boundary for entry `e` with the other side `o` (2501-2567). -/
def bound (halo shift nx ny : Int) (e o : End) : Except Err Bound :=
  match direction e with
  | .error x => .error x
  | .ok d => match direction o with
    | .error x => .error x
    | .ok d2 =>
      let b : Bound := ⟨toBox halo shift nx ny d e, frBox halo shift nx ny d2 o, rotation d d2, o.tile⟩
      if b.fr.size ≠ b.to.size then .error .mismatch else .ok b

/-- Entry `l` together with the other side `(l + ncontacts) % (2 * ncontacts)` (2529). -/
def entry (cs : List Contact) (l : Nat) : Option (End × End) :=
  match (ends cs)[l]?, (ends cs)[(l + cs.length) % (2 * cs.length)]? with
  | some e, some o => some (e, o)
  | _, _ => none

/-- Run over a list, stop at the first error. -/
def collect {α β : Type} (f : α → Except Err β) : List α → Except Err (List β)
  | [] => .ok []
  | x :: xs => match f x with
    | .error e => .error e
    | .ok y => match collect f xs with
      | .error e => .error e
      | .ok ys => .ok (y :: ys)

/-- The list of boundaries of one tile (2479-2567). -/
def tileBounds (cs : List Contact) (halo shift : Int) (nx ny : Nat → Int) (n : Nat) : Except Err (List Bound) :=
  collect (fun p => bound halo shift (nx n) (ny n) p.1 p.2)
    (((List.range (2 * cs.length)).filterMap (entry cs)).filter (fun p => p.1.tile = n))

/-- `setup_boundary` (2446-2568): for each tile its list. All directions are found before the lists are made (2475). -/
def setupBoundary (cs : List Contact) (halo shift : Int) (nx ny : Nat → Int) (ntiles : Nat) : Except Err (List (List Bound)) :=
  match collect direction (ends cs) with
  | .error e => .error e
  | .ok _ => collect (tileBounds cs halo shift nx ny) (List.range ntiles)

/-- `for (x = a; x <= b; x++)` -/
def up (a b : Int) : List Int := (List.range (b - a + 1).toNat).map (fun (n : Nat) => a + (n : Int))

/-- `for (x = b; x >= a; x--)` -/
def down (a b : Int) : List Int := (List.range (b - a + 1).toNat).map (fun (n : Nat) => b - (n : Int))

/-- The order in which the buffer is filled (2637-2653), as flat indices; `nx2` and `ny2` are the lengths of the rows and columns of the
other tile with halo. -/
def source (nz : Nat) (nx2 ny2 : Int) (r : Rot) (b : Box) : List Int :=
  (List.range nz).flatMap fun (k : Nat) =>
    let at_ := fun (j i : Int) => (k : Int) * (nx2 * ny2) + j * nx2 + i
    match r with
    | .zero => (up b.js b.je).flatMap fun j => (up b.is b.ie).map fun i => at_ j i
    | .ninety => (down b.is b.ie).flatMap fun i => (up b.js b.je).map fun j => at_ j i
    | .minusNinety => (up b.is b.ie).flatMap fun i => (down b.js b.je).map fun j => at_ j i
    | .half => (down b.js b.je).flatMap fun j => (down b.is b.ie).map fun i => at_ j i

/-- The order in which the halo is written (2655). -/
def target (nz : Nat) (nx ny : Int) (b : Box) : List Int :=
  (List.range nz).flatMap fun (k : Nat) => (up b.js b.je).flatMap fun j => (up b.is b.ie).map fun i => (k : Int) * (nx * ny) + j * nx + i

/-- The arrays of all tiles. -/
abbrev Mem (F : Type) := Nat → Int → F

/-- One boundary of tile `n` in `update_halo` (2622-2657): fill the buffer, then write it. `wx`, `wy` are the lengths of rows and columns
with halo. -/
def updateOne {F : Type} (nz : Nat) (wx wy : Nat → Int) (n : Nat) (b : Bound) (m : Mem F) : Mem F :=
  let buffer := (source nz (wx b.tile2) (wy b.tile2) b.rotate b.fr).map (m b.tile2)
  ((target nz (wx n) (wy n) b.to).zip buffer).foldl (fun m p => fun t x => if t = n ∧ x = p.1 then p.2 else m t x) m

/-- `update_halo` (2614-2661) for tile `n`. -/
def updateHalo {F : Type} (nz : Nat) (wx wy : Nat → Int) (n : Nat) (bs : List Bound) (m : Mem F) : Mem F :=
  bs.foldl (fun m b => updateOne nz wx wy n b m) m

/-- The loop over the tiles (278-296, 303-327, 2167-2181); `first` is the number of the first tile in the list. -/
def updateTiles {F : Type} (nz : Nat) (wx wy : Nat → Int) : Nat → List (List Bound) → Mem F → Mem F
  | _, [], m => m
  | n, bs :: rest, m => updateTiles nz wx wy (n + 1) rest (updateHalo nz wx wy n bs m)

/-- Everything: boundaries of a mosaic with halo 1 for centres (`shift = 0`, rows of `nx + 2` values) or corners (`shift = 1`, rows of
`nx + 1 + 2` values), then the update of all tiles. -/
def fill {F : Type} (cs : List Contact) (shift : Int) (nz : Nat) (nx ny : Nat → Int) (ntiles : Nat) (m : Mem F) : Except Err (Mem F) :=
  match setupBoundary cs 1 shift nx ny ntiles with
  | .error e => .error e
  | .ok bs => .ok (updateTiles nz (fun t => nx t + shift + 2) (fun t => ny t + shift + 2) 0 bs m)

/-- `init_halo` (2595-2611) with halo 1 for one tile of the size `nx`, `ny`: the values outside become zero. -/
def initHalo {F : Type} [Zero F] (nx ny : Int) (nz : Nat) (a : Int → F) : Int → F :=
  let nxd := nx + 2
  let nyd := ny + 2
  let nall := nxd * nyd
  let zero := fun (js je is ie : Int) (a : Int → F) (k : Int) =>
    (up js (je - 1)).foldl (fun a j => (up is (ie - 1)).foldl (fun a i => fun x => if x = k * nall + j * nxd + i then 0 else a x) a) a
  (List.range nz).foldl (fun a (k : Nat) =>
    let a := zero 0 nyd 0 1 a k
    let a := zero 0 nyd (nx + 1) nxd a k
    let a := zero 0 1 0 nxd a k
    zero (ny + 1) nyd 0 nxd a k) a

end Verif.FregridHalo
