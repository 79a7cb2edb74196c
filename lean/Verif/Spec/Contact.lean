import Verif.Model.Contact
/-
Specification of contacts between the sides of tiles. Points of a side are counted from 0, cells from 1: cell `c` lies
between the points `c - 1` and `c`.
-/
namespace Verif.Spec
open Verif.Contact
variable {K : Type*} [Field K] [LinearOrder K] [IsStrictOrderedRing K]

/-- The points are the same, in one of the coordinates or in both possibly after one period. -/
def SamePlace (px py : K) (p q : K × K) : Prop :=
  (|p.1 - q.1| < 1 / 10 ^ 10 ∨ |(|p.1 - q.1| - px)| < 1 / 10 ^ 10) ∧
  (|p.2 - q.2| < 1 / 10 ^ 10 ∨ |(|p.2 - q.2| - py)| < 1 / 10 ^ 10)

/-- First and last cell of the way from point `p` to point `q`. -/
def cellsBetween (p q : Nat) : Nat × Nat := if p < q then (p + 1, q) else (p, q + 1)

/-- Each point has at most one partner. -/
def OneToOne (m : Nat → Nat → Prop) : Prop := ∀ i j i' j', m i j → m i' j' → (i = i' ↔ j = j')

/-- The partners of the points of one side are in the order of the side, or all in the opposite order. -/
def Aligned (m : Nat → Nat → Prop) : Prop :=
  (∀ i j i' j', m i j → m i' j' → (i < i' ↔ j < j')) ∨ (∀ i j i' j', m i j → m i' j' → (i < i' ↔ j' < j))

/-- The same points of two sides, within their sizes. -/
def Match (t1 t2 : Tile K) (s1 s2 : Side) (px py : K) (i j : Nat) : Prop :=
  i < t1.size s1 ∧ j < t2.size s2 ∧ SamePlace px py (t1.bound s1 i) (t2.bound s2 j)

/-- The sides that can be in contact in `get_align_contact`, with their periods. -/
def Touching (periodx periody : K) : Side → Side → K → K → Prop
  | .east, .west, px, py => px = periodx ∧ py = 0
  | .west, .east, px, py => px = periodx ∧ py = 0
  | .south, .north, px, py => px = 0 ∧ py = periody
  | .north, .south, px, py => px = 0 ∧ py = periody
  | .east, .south, px, py => px = 0 ∧ py = 0
  | .south, .east, px, py => px = 0 ∧ py = 0
  | .west, .north, px, py => px = 0 ∧ py = 0
  | .north, .west, px, py => px = 0 ∧ py = 0
  | _, _, _, _ => False

/-- A range along a side of a tile, as the numbers that are stored. -/
def onSide (t : Tile K) (s : Side) (r : Nat × Nat) : Part :=
  match s with
  | .east => ⟨t.nx - 1, t.nx - 1, r.1, r.2⟩
  | .west => ⟨1, 1, r.1, r.2⟩
  | .south => ⟨r.1, r.2, 1, 1⟩
  | .north => ⟨r.1, r.2, t.ny - 1, t.ny - 1⟩

/-- Two points of a northern side can be joined by folding: same latitude, and the same meridian. -/
def NearMeridian (p q : K × K) : Prop := |p.1 - q.1| ≤ 1 / 10 ^ 7 ∨ |(|p.1 - q.1| - 360)| ≤ 1 / 10 ^ 7

/-- The meridians are opposite (as next to a pole). -/
def OppositeMeridian (p q : K × K) : Prop := |(|p.1 - q.1| - 180)| < 1 / 10 ^ 7

def SameLatitude (p q : K × K) : Prop := |p.2 - q.2| ≤ 1 / 10 ^ 7

/-- A rectangle of points of a tile, by two opposite corners. -/
structure Rect where
  w : Nat
  e : Nat
  s : Nat
  n : Nat

/-- The rectangle is inside the tile and has cells. -/
def Rect.Within (r : Rect) (t : Tile K) : Prop := r.w < t.nx ∧ r.e < t.nx ∧ r.s < t.ny ∧ r.n < t.ny ∧ r.w ≠ r.e ∧ r.s ≠ r.n

/-- The whole tile. -/
def Rect.Whole (r : Rect) (t : Tile K) : Prop := r.w = 0 ∧ r.e = t.nx - 1 ∧ r.s = 0 ∧ r.n = t.ny - 1

/-- The corners of the rectangles are at the same places. -/
def SameCorners (t1 t2 : Tile K) (r1 r2 : Rect) : Prop :=
  SamePlace 0 0 (t1.pt r1.w r1.s) (t2.pt r2.w r2.s) ∧ SamePlace 0 0 (t1.pt r1.e r1.s) (t2.pt r2.e r2.s) ∧
  SamePlace 0 0 (t1.pt r1.w r1.n) (t2.pt r2.w r2.n) ∧ SamePlace 0 0 (t1.pt r1.e r1.n) (t2.pt r2.e r2.n)

/-- The cells of a rectangle that is not turned. -/
def Rect.cells (r : Rect) : Part := ⟨r.w + 1, r.e, r.s + 1, r.n⟩

end Verif.Spec
