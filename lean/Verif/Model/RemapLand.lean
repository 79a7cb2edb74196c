import Mathlib.Algebra.Order.Field.Basic
/-
Model of src/remap-land/remap_land.c, first part: reading the tiles of a land restart file (`get_land_tile_info`), the search
for nearest points, the tiles of the destination grid, and the compressed output. The fill values `MPP_FILL_INT` and
`MPP_FILL_DOUBLE` are `none`. Cells of a face are numbered `j * nx + i`; values of `tile_index` are not negative. An access
outside an array is the outcome `undefined`.
-/
namespace Verif.RemapLand

inductive Err
  | tooManyTiles
  | noNearest
  | countNotOne
  | undefined
deriving DecidableEq, Repr

/-! ## get_land_tile_info, l.2437-2505 -/

/-- What the restart file has at one position: the tag (variable `name1`), the second tag (`name2`), the value of `tile_index`
and the fraction -/
structure Entry (K : Type) where
  tag : Option Int
  tag2 : Option Int
  idx : Nat
  frac : K

/-- One element of the arrays `frac`, `tag1`, `tag2`, `idx` and `idx_otn` -/
structure Slot (K : Type) where
  frac : K
  tag : Int
  tag2 : Option Int
  idx : Nat
  otn : Nat
deriving DecidableEq

/-- `count`, the arrays, and `pos` -/
structure Info (K : Type) where
  count : Nat → Nat
  slots : Nat → Option (Slot K)
  pos : Nat

/-- The arrays before the loop, l.2462-2471 -/
def Info.empty (K : Type) : Info K := { count := fun _ => 0, slots := fun _ => none, pos := 0 }

/-- The cell of a value of `tile_index`, l.2474-2477 -/
def cellOf (nx ny idx : Nat) : Nat := idx / nx % ny * nx + idx % nx

/-- The body of the loop, l.2473-2501, at position `l`. The test of l.2481 is `count[p] > ntile`, so a cell may get one
element more than it has room for; this element belongs to the next cell or lies outside the arrays. -/
def infoStep {K : Type} (nx ny ntile isc iec : Nat) (allTile : Bool) (s : Info K) (l : Nat) (e : Entry K) :
    Except Err (Info K) :=
  match e.tag with
  | none => .ok s
  | some tag =>
    if nx = 0 ∨ ny = 0 then .error .undefined else
    let p := cellOf nx ny e.idx
    if p < isc ∨ iec < p then .ok s else
    let p := p - isc
    if ntile < s.count p then .error .tooManyTiles else
    let k := ntile * p + s.count p
    if ntile * (iec + 1 - isc) ≤ k then .error .undefined else
    let slot := { frac := e.frac, tag, tag2 := e.tag2, idx := if allTile then l else s.pos, otn := e.idx / (nx * ny) }
    .ok { count := fun q => if q = p then s.count q + 1 else s.count q
          slots := fun q => if q = k then some slot else s.slots q
          pos := s.pos + 1 }

/-- The loop from position `l` on -/
def infoLoop {K : Type} (nx ny ntile isc iec : Nat) (allTile : Bool) : Nat → List (Entry K) → Info K → Except Err (Info K)
  | _, [], s => .ok s
  | l, e :: es, s => do
    let s ← infoStep nx ny ntile isc iec allTile s l e
    infoLoop nx ny ntile isc iec allTile (l + 1) es s

/-- `get_land_tile_info`, l.2437-2505 -/
def tileInfo {K : Type} (nx ny ntile isc iec : Nat) (allTile : Bool) (file : List (Entry K)) : Except Err (Info K) :=
  infoLoop nx ny ntile isc iec allTile 0 file (Info.empty K)

/-! ## full_search_nearest and search_nearest_sface, l.2520-2605 -/

variable {K : Type} [LinearOrder K]

/-- One source point in the search, l.2542-2551 and l.2588-2597: `d_cur < 0` before the first point is `none` -/
def nearStep (best : Option (Nat × K)) (mask : Nat → Nat) (dist : Nat → K) (l : Nat) : Option (Nat × K) :=
  if mask l = 0 then best
  else match best with
    | none => some (l, dist l)
    | some (b, d) => if dist l < d then some (l, dist l) else some (b, d)

/-- The loops over faces and points, l.2540-2552; point `i` of face `m` is `l = m * npts + i`, and the loops run through
`l = 0, 1, ...` in order. `dist` is the distance `great_circle_distance` from the destination point, which is not negative.
-/
def nearest (nface npts : Nat) (mask : Nat → Nat) (dist : Nat → K) : Option (Nat × K) :=
  (List.range nface).foldl (init := none) fun best m =>
    (List.range npts).foldl (init := best) fun best i => nearStep best mask dist (m * npts + i)

/-- `full_search_nearest` for one destination point, l.2531-2561: face and index, `none` for `-1` -/
def fullSearch (nface npts : Nat) (maskSrc : Nat → Nat) (maskDst : Nat) (dist : Nat → K) :
    Except Err (Option (Nat × Nat)) :=
  if maskDst = 0 then .ok none
  else match nearest nface npts maskSrc dist with
    | none => .error .noNearest
    | some (l, _) => .ok (some (l / npts, l % npts))

/-- `search_nearest_sface` for one destination point on face `face`, l.2572-2604; `map` is the result of
`full_search_nearest` -/
def faceSearch (npts : Nat) (maskSrc : Nat → Nat) (maskDst : Nat) (dist : Nat → K) (map : Option (Nat × Nat)) (face : Nat) :
    Except Err (Option Nat) :=
  if maskDst = 0 then .ok none
  else match map with
    | some (m, i) => if m = face then .ok (some i) else search
    | none => search
where
  search := match (List.range npts).foldl (init := none) fun best i => nearStep best maskSrc dist (face * npts + i) with
    | none => .error .noNearest
    | some (l, _) => .ok (some (l - face * npts))

end Verif.RemapLand
