import Verif.Model.MosaicContact
/-
Specification of contacts between tiles. A tile has model cells 0, 1, ...; cell `i` is made of the two supergrid cells
`2 i + 1` and `2 i + 2`. Along one axis a contact is a line at one side of a cell or a run of cells.
-/
namespace Verif.Spec
open Verif.MosaicContact

inductive AxisPart
  | line (cell : Nat) (upper : Bool)
  | up (first last : Nat)
  | down (first last : Nat)

namespace AxisPart

def Valid : AxisPart → Prop
  | line _ _ => True
  | up a b => a ≤ b
  | down a b => b ≤ a

/-- As written in the mosaic file, in supergrid cells. -/
def super : AxisPart → Int × Int
  | line i false => (2 * i + 1, 2 * i + 1)
  | line i true => (2 * i + 2, 2 * i + 2)
  | up a b => (2 * a + 1, 2 * b + 2)
  | down a b => (2 * a + 2, 2 * b + 1)

/-- In model cells. -/
def model : AxisPart → Int × Int
  | line i _ => (i, i)
  | up a b => (a, b)
  | down a b => (a, b)

def isLine : AxisPart → Bool
  | line _ _ => true
  | _ => false

end AxisPart

/-- One side of a contact: the part of a tile along x and along y. -/
structure TilePart where
  x : AxisPart
  y : AxisPart

/-- The numbers written for a contact. -/
def superIx (p q : TilePart) : Ix :=
  ⟨p.x.super.1, p.x.super.2, p.y.super.1, p.y.super.2, q.x.super.1, q.x.super.2, q.y.super.1, q.y.super.2⟩

/-- The numbers in model cells. -/
def modelIx (p q : TilePart) : Ix :=
  ⟨p.x.model.1, p.x.model.2, p.y.model.1, p.y.model.2, q.x.model.1, q.x.model.2, q.y.model.1, q.y.model.2⟩

/-- A name that can be used in a contact string. -/
def PlainName (s : List Char) : Prop := s ≠ [] ∧ ∀ c ∈ s, c ≠ ':' ∧ c ≠ ' ' ∧ c ≠ '\t'

end Verif.Spec
