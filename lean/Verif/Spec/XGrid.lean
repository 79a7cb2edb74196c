import Verif.Model.XGrid
/-
Specification for the collection of exchange cells.
-/
namespace Verif.Spec
open Verif.XGrid

variable {β : Type} (g : Grids β)

/-- The exchange cells of target cell `(i2, j2)`: one for every unmasked source cell that has something in common
with it, in the order of the source cells. -/
def cellsOf (i2 j2 : Nat) : List (Cell β) :=
  (List.range g.ny1).flatMap fun j1 => (List.range g.nx1).filterMap fun i1 =>
    if g.mask i1 j1 then (g.hit i1 j1 (j2 * g.nx2 + i2)).map (Cell.mk i1 j1 i2 j2) else none

/-- All exchange cells in the order of a plain loop over source cells and then target cells. -/
def hitList : List (Cell β) :=
  (List.range g.ny1).flatMap fun j1 => (List.range g.nx1).flatMap fun i1 =>
    if g.mask i1 j1 then
      (List.range (g.nx2 * g.ny2)).filterMap fun ij =>
        (g.hit i1 j1 ij).map (Cell.mk i1 j1 (ij % g.nx2) (ij / g.nx2))
    else []

/-- The schedule lets every block finish. -/
def Finishes (nblocks : Nat) (sched : List Nat) : Prop :=
  ∀ m < nblocks, g.nx1 * g.ny1 * (g.nx2 * g.ny2) ≤ sched.count m

end Verif.Spec
