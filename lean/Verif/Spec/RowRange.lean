import Verif.Model.RowRange
/-
Specification for the choice of rows: the exchange cells found when every cell of the source grid is tried.
-/
namespace Verif.Spec
open Verif.RowRange

variable {K β : Type} [LinearOrder K]

/-- All source cells, row by row, and for each all target cells: no row is left out. -/
def pairList (p : Pair K β) : List (XGrid.Cell β) :=
  (List.range p.ny1).flatMap fun j1 => (List.range p.nx1).flatMap fun i1 =>
    (List.range (p.nx2 * p.ny2)).filterMap fun ij =>
      (hit p i1 j1 ij).map (XGrid.Cell.mk i1 j1 (ij % p.nx2) (ij / p.nx2))

/-- Row `j` of the source grid contributes to the exchange grid. -/
def RowUsed (p : Pair K β) (j : Nat) : Prop :=
  ∃ i < p.nx1, ∃ ij < p.nx2 * p.ny2, hit p i j ij ≠ none

end Verif.Spec
