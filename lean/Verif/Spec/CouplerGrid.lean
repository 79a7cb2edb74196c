import Verif.Model.CouplerGrid
/-
Specification of the ocean grid and nest steps of make_coupler_mosaic. From the model only the types of contacts
and nests are used.
-/
namespace Verif.Spec.CGrid

open CouplerGrid

/-- Number of cells of an index range. -/
def width (a b : Int) : Int := b - a + 1

/-- A contact says that one tile lies inside another: the tiles differ and the contact takes the whole of one of
them. -/
def Nesting (nx ny : Nat → Int) (c : Contact) : Prop :=
  c.tile1 ≠ c.tile2 ∧
  ((nx (c.tile1 - 1) = width c.is1 c.ie1 ∧ ny (c.tile1 - 1) = width c.js1 c.je1)
    ∨ (nx (c.tile2 - 1) = width c.is2 c.ie2 ∧ ny (c.tile2 - 1) = width c.js2 c.je2))

/-- The nest is one side of the contact and the parent the other. -/
def Sides (c : Contact) (n : Nest) : Prop :=
  n = ⟨c.tile2 - 1, c.is2, c.ie2, c.js2, c.je2, c.tile1 - 1, c.is1, c.ie1, c.js1, c.je1⟩
  ∨ n = ⟨c.tile1 - 1, c.is1, c.ie1, c.js1, c.je1, c.tile2 - 1, c.is2, c.ie2, c.js2, c.je2⟩

/-- The nest refines the part of the parent it lies in by whole numbers, and has more cells. -/
def Refines (n : Nest) : Prop :=
  ∃ rx ry : Int, width n.is n.ie = rx * width n.isP n.ieP ∧ width n.js n.je = ry * width n.jsP n.jeP
    ∧ width n.isP n.ieP * width n.jsP n.jeP ≤ width n.is n.ie * width n.js n.je
    ∧ ¬ (rx = 1 ∧ ry = 1)

end Verif.Spec.CGrid
