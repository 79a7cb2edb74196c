import Verif.Model.FregridHalo
import Verif.Spec.MosaicContact
/-
Specification of a halo. A tile has `nx` by `ny` cells; with `shift = 0` there is a value at the centre of each cell, with `shift = 1` at each
corner, so there are `nx + shift` by `ny + shift` points. Two tiles are glued along edges; the point next to an edge on the outside is the
point next to the other edge on the inside of the other tile.
-/
namespace Verif.Spec.FregridHalo
open Verif.FregridHalo Verif.MosaicContact Verif.Spec

/-- A part of one side of a tile: from cell `first` to cell `last`. -/
structure Edge where
  side : Side
  first : Nat
  last : Nat
deriving DecidableEq, Repr

/-- Tile 1 and tile 2 touch along the edges. -/
structure Glue where
  t1 : Nat
  e1 : Edge
  t2 : Nat
  e2 : Edge
deriving DecidableEq, Repr

def Glue.flip (g : Glue) : Glue := ⟨g.t2, g.e2, g.t1, g.e1⟩

/-- Each contact seen from both sides. -/
def both (gs : List Glue) : List Glue := gs ++ gs.map Glue.flip

namespace Edge

def vertical (e : Edge) : Bool := e.side = .west || e.side = .east

/-- The edge is part of a tile with `nx` by `ny` cells. -/
def Valid (nx ny : Nat) (e : Edge) : Prop :=
  if e.vertical then e.first < ny ∧ e.last < ny else e.first < nx ∧ e.last < nx

def run (e : Edge) : AxisPart := if e.first ≤ e.last then .up e.first e.last else .down e.first e.last

/-- The edge as a part of the tile (Spec/MosaicContact). -/
def part (nx ny : Nat) (e : Edge) : TilePart :=
  match e.side with
  | .west => ⟨.line 0 false, e.run⟩
  | .east => ⟨.line (nx - 1) true, e.run⟩
  | .south => ⟨e.run, .line 0 false⟩
  | .north => ⟨e.run, .line (ny - 1) true⟩

/-- Number of points along the edge. -/
def count (shift : Nat) (e : Edge) : Nat := max e.first e.last - min e.first e.last + 1 + shift

/-- The `m`-th point along the edge. -/
def pos (shift : Nat) (e : Edge) (m : Nat) : Int :=
  if e.first ≤ e.last then (e.first : Int) + m else (e.first : Int) + shift - m

/-- The edge runs counterclockwise around its tile. -/
def ccw (e : Edge) : Bool :=
  match e.side with
  | .south => e.first ≤ e.last
  | .east => e.first ≤ e.last
  | .north => e.last ≤ e.first
  | .west => e.last ≤ e.first

end Edge

/-- The point (i, j) next to place `p` of a side, outside the tile. -/
def outside (nx ny shift : Nat) (s : Side) (p : Int) : Int × Int :=
  match s with
  | .west => (-1, p)
  | .east => ((nx : Int) + shift, p)
  | .south => (p, -1)
  | .north => (p, (ny : Int) + shift)

/-- The point next to place `p` of a side, inside the tile (corners on the side itself belong to both tiles). -/
def inside (nx ny shift : Nat) (s : Side) (p : Int) : Int × Int :=
  match s with
  | .west => ((shift : Int), p)
  | .east => ((nx : Int) - 1, p)
  | .south => (p, (shift : Int))
  | .north => (p, (ny : Int) - 1)

/-- The contact as `read_mosaic_contact` returns it (C50). -/
def Glue.contact (nx ny : Nat → Nat) (g : Glue) : Contact :=
  ⟨g.t1 + 1, g.t2 + 1, modelIx (g.e1.part (nx g.t1) (ny g.t1)) (g.e2.part (nx g.t2) (ny g.t2))⟩

/-- The contacts of one oriented surface: along an edge the two tiles run in opposite directions. -/
def Glue.Oriented (g : Glue) : Prop := g.e1.ccw ≠ g.e2.ccw

/-- The value at point `p` of level `k` of tile `t`, in an array with one more point on each side. -/
def value {F : Type} (nx ny : Nat → Nat) (shift : Nat) (m : Mem F) (t k : Nat) (p : Int × Int) : F :=
  m t ((k : Int) * (((nx t : Int) + shift + 2) * ((ny t : Int) + shift + 2)) + (p.2 + 1) * ((nx t : Int) + shift + 2) + (p.1 + 1))

/-- The point outside tile `g.t1` that is across place `m` of the edge. -/
def Glue.out (nx ny : Nat → Nat) (shift : Nat) (g : Glue) (m : Nat) : Int × Int :=
  outside (nx g.t1) (ny g.t1) shift g.e1.side (g.e1.pos shift m)

/-- The point of tile `g.t2` that it stands for. -/
def Glue.inn (nx ny : Nat → Nat) (shift : Nat) (g : Glue) (m : Nat) : Int × Int :=
  inside (nx g.t2) (ny g.t2) shift g.e2.side (g.e2.pos shift m)

/-- No point outside a tile stands for two different points. -/
def Consistent (nx ny : Nat → Nat) (shift : Nat) (gs : List Glue) : Prop :=
  ∀ a ∈ both gs, ∀ b ∈ both gs, ∀ m n, m < a.e1.count shift → n < b.e1.count shift → a.t1 = b.t1 → a.out nx ny shift m = b.out nx ny shift n →
    a.t2 = b.t2 ∧ a.inn nx ny shift m = b.inn nx ny shift n

/-- What the program can do: edges of at least two cells on tiles of at least two cells each way; no contact between two western, two eastern
or two southern sides; where the other side is east or north, the tiles have the same size in that direction. -/
def Supported (nx ny : Nat → Nat) (ntiles : Nat) (g : Glue) : Prop :=
  g.t1 < ntiles ∧ 2 ≤ nx g.t1 ∧ 2 ≤ ny g.t1 ∧ g.e1.Valid (nx g.t1) (ny g.t1) ∧ g.e1.first ≠ g.e1.last ∧
  (g.e1.side = g.e2.side → g.e1.side = .north) ∧
  (g.e2.side = .east → nx g.t2 = nx g.t1) ∧ (g.e2.side = .north → ny g.t2 = ny g.t1)

/-- The six tiles of a cubed sphere with `n` by `n` cells each and their twelve contacts (tiles count from 0). -/
def cube (n : Nat) : List Glue :=
  let fw := fun (s : Side) => (⟨s, 0, n - 1⟩ : Edge)
  let bw := fun (s : Side) => (⟨s, n - 1, 0⟩ : Edge)
  [⟨0, fw .east, 1, fw .west⟩, ⟨0, fw .north, 2, bw .west⟩, ⟨0, fw .west, 4, bw .north⟩, ⟨0, fw .south, 5, fw .north⟩,
   ⟨1, fw .north, 2, fw .south⟩, ⟨1, fw .east, 3, bw .south⟩, ⟨1, fw .south, 5, bw .east⟩, ⟨2, fw .east, 3, fw .west⟩,
   ⟨2, fw .north, 4, bw .west⟩, ⟨3, fw .north, 4, fw .south⟩, ⟨3, fw .east, 5, bw .south⟩, ⟨4, fw .east, 5, fw .west⟩]

/-- One tile, cyclic in x, with a fold in the north: the first half of the northern side lies on the second half, backwards. -/
def tripolar (h ny : Nat) : List Glue :=
  [⟨0, ⟨.west, 0, ny - 1⟩, 0, ⟨.east, 0, ny - 1⟩⟩, ⟨0, ⟨.north, 0, h - 1⟩, 0, ⟨.north, 2 * h - 1, h⟩⟩]

end Verif.Spec.FregridHalo
