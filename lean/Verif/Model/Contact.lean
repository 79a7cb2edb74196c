import Mathlib.Algebra.Order.Field.Basic
/-
Model of the search for contacts between tiles.

Source: /repo/src/make-solo-mosaic/get_contact.c `get_align_contact` 48-264, `get_contact_index` 459-519, the four
functions `*_bound` 522-560, `get_overlap_contact` 271-434, `get_overlap_index` 436-456.

Simplifications: coordinates are elements of an ordered field; `x i j` is the point in column `i` and row `j`. The
output arrays are the list of contacts in the order of the code.
-/
namespace Verif.Contact

variable {K : Type*} [Field K] [LinearOrder K] [IsStrictOrderedRing K]

/-- `EPSLN` -/
def epsln : K := 1 / 10 ^ 10

/-- `EPSLN2` -/
def epsln2 : K := 1 / 10 ^ 7

/-- The test of 470-474 for two points. -/
def coincide (px py : K) (p q : K × K) : Bool :=
  let dx := |p.1 - q.1|
  let dx := min dx |dx - px|
  let dy := |p.2 - q.2|
  let dy := min dy |dy - py|
  decide (dx < epsln ∧ dy < epsln)

/-- The two nested loops 466-481: the pairs of indices are tried in the order given, the first hit is returned. -/
def firstHit (m : Nat → Nat → Bool) (l1 l2 : List Nat) : Option (Nat × Nat) :=
  l1.findSome? fun i => l2.findSome? fun j => if m i j then some (i, j) else none

/-- `get_contact_index`: `start1, end1, start2, end2`. -/
def contactIndex (n1 n2 : Nat) (m : Nat → Nat → Bool) : Option (Nat × Nat × Nat × Nat) :=
  match firstHit m (List.range n1) (List.range n2) with
  | none => none
  | some (a, c) =>
    match firstHit m (List.range n1).reverse (List.range n2).reverse with
    | none => none
    | some (b, d) =>
      let start1 := a + 1
      let start2 := c + 1
      let end1 := b + 1
      let end2 := d + 1
      if start1 = end1 ∨ start2 = end2 then none
      else
        let r1 := if start1 > end1 then (start1 - 1, end1) else (start1, end1 - 1)
        let r2 := if start2 > end2 then (start2 - 1, end2) else (start2, end2 - 1)
        some (r1.1, r1.2, r2.1, r2.2)

/-- A tile: the number of points in both directions and the points. -/
structure Tile (K : Type*) where
  nx : Nat
  ny : Nat
  pt : Nat → Nat → K × K

inductive Side
  | east | west | south | north
deriving DecidableEq, Repr

/-- `nx` or `ny`, the number of points of a side. -/
def Tile.size (t : Tile K) : Side → Nat
  | .east => t.ny
  | .west => t.ny
  | .south => t.nx
  | .north => t.nx

/-- `east_bound` and so on. -/
def Tile.bound (t : Tile K) : Side → Nat → K × K
  | .east, j => t.pt (t.nx - 1) j
  | .west, j => t.pt 0 j
  | .south, i => t.pt i 0
  | .north, i => t.pt i (t.ny - 1)

/-- The part of one tile in a contact: `istart, iend, jstart, jend`. -/
structure Part where
  is : Nat
  ie : Nat
  js : Nat
  je : Nat
deriving DecidableEq, Repr

/-- The indices that are stored for a range along a side. -/
def Tile.part (t : Tile K) : Side → Nat → Nat → Part
  | .east, s, e => ⟨t.nx - 1, t.nx - 1, s, e⟩
  | .west, s, e => ⟨1, 1, s, e⟩
  | .south, s, e => ⟨s, e, 1, 1⟩
  | .north, s, e => ⟨s, e, t.ny - 1, t.ny - 1⟩

/-- The pairs of sides that are compared, with the periods, in the order of the code. The first entry tells if the pair
is left out for a tile with itself. -/
def sidePairs (periodx periody : K) : List (Bool × Side × Side × K × K) :=
  [(false, .east, .west, periodx, 0), (true, .east, .south, 0, 0), (false, .south, .north, 0, periody),
   (true, .south, .east, 0, 0), (true, .west, .east, periodx, 0), (true, .west, .north, 0, 0),
   (true, .north, .south, 0, periody), (true, .north, .west, 0, 0)]

/-- One call of `get_contact_index` in `get_align_contact`. -/
def sideContact (t1 t2 : Tile K) (s1 s2 : Side) (px py : K) : Option (Part × Part) :=
  (contactIndex (t1.size s1) (t2.size s2) fun i j => coincide px py (t1.bound s1 i) (t2.bound s2 j)).map
    fun r => (t1.part s1 r.1 r.2.1, t2.part s2 r.2.2.1 r.2.2.2)

/-- The loop 226-247 over the northern side: `(folded, num)`; it stops when `folded` becomes 0. -/
def foldLoop (b : Nat → K × K) (nx : Nat) : List Nat → Nat → Bool × Nat
  | [], num => (true, num)
  | i :: rest, num =>
    let dy := |(b i).2 - (b (nx - i - 1)).2|
    if dy > epsln2 then (false, num)
    else
      let dx := |(b i).1 - (b (nx - i - 1)).1|
      if dx > epsln2 ∧ |dx - 360| > epsln2 then
        if |dx - 180| < epsln2 then foldLoop b nx rest (num + 1) else (false, num)
      else foldLoop b nx rest num

/-- The part for a folded northern side, 217-261. -/
def foldContact (t : Tile K) : Option (Part × Part) :=
  let r := foldLoop (t.bound .north) t.nx (List.range (t.nx / 2)) 0
  if r.1 ∧ ¬r.2 > 1 then
    some (⟨1, t.nx / 2, t.ny - 1, t.ny - 1⟩, ⟨t.nx - 1, t.nx / 2 + 1, t.ny - 1, t.ny - 1⟩)
  else none

/-- `get_align_contact`; `same` is `tile1 == tile2`. -/
def alignContact (same : Bool) (t1 t2 : Tile K) (periodx periody : K) : List (Part × Part) :=
  ((sidePairs periodx periody).filter fun p => !(same && p.1)).filterMap
      (fun p => sideContact t1 t2 p.2.1 p.2.2.1 p.2.2.2.1 p.2.2.2.2) ++
    if same then (foldContact t1).toList else []

/-- `get_overlap_index`: the first point of the tile, row by row, at the place of `p`. -/
def overlapIndex (p : K × K) (t : Tile K) : Option (Nat × Nat) :=
  (List.range t.ny).findSome? fun j => (List.range t.nx).findSome? fun i =>
    if |p.1 - (t.pt i j).1| < epsln ∧ |p.2 - (t.pt i j).2| < epsln then some (i, j) else none

/-- The points of `t` at the four corners of `s` (southwest, southeast, northwest, northeast), if there are all. -/
def cornersIn (s t : Tile K) : Option ((Nat × Nat) × (Nat × Nat) × (Nat × Nat) × (Nat × Nat)) := do
  let a ← overlapIndex (s.pt 0 0) t
  let b ← overlapIndex (s.pt (s.nx - 1) 0) t
  let c ← overlapIndex (s.pt 0 (s.ny - 1)) t
  let d ← overlapIndex (s.pt (s.nx - 1) (s.ny - 1)) t
  return (a, b, c, d)

def ownCorners (s : Tile K) : (Nat × Nat) × (Nat × Nat) × (Nat × Nat) × (Nat × Nat) :=
  ((0, 0), (s.nx - 1, 0), (0, s.ny - 1), (s.nx - 1, s.ny - 1))

/-- `get_overlap_contact` -/
def overlapContact (t1 t2 : Tile K) : Option (Part × Part) :=
  let pts := match cornersIn t2 t1 with
    | some p1 => some (p1, ownCorners t2)
    | none => (cornersIn t1 t2).map fun p2 => (ownCorners t1, p2)
  match pts with
  | none => none
  | some ((a1, b1, c1, d1), (a2, b2, c2, d2)) =>
    if a1.2 ≠ b1.2 then none else if a2.2 ≠ b2.2 then none
    else if a1.1 ≠ c1.1 then none else if a2.1 ≠ c2.1 then none
    else if c1.2 ≠ d1.2 then none else if c2.2 ≠ d2.2 then none
    else if b1.1 ≠ d1.1 then none else if b2.1 ≠ d2.1 then none
    else if a1.2 = c1.2 ∨ a1.1 = b1.1 then none
    else if a2.2 = c2.2 ∨ a2.1 = b2.1 then none
    else some (⟨a1.1 + 1, b1.1, a1.2 + 1, d1.2⟩, ⟨a2.1 + 1, b2.1, a2.2 + 1, d2.2⟩)

end Verif.Contact
