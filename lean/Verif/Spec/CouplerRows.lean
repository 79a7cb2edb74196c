import Mathlib.Order.Basic
/-
Specification of the pairs of cells an exchange grid has to look at. Nothing of the model is used.
-/
namespace Verif.Spec.Rows

variable {K : Type*} [LinearOrder K]

/-- `v` is the latitude of one of the four corners of cell `c` of a grid with `nx` columns, whose corner points
are numbered row by row, `nx+1` in each row. -/
def CornerLat (nx : Nat) (y : Nat → K) (c : Nat) (v : K) : Prop :=
  ∃ dj di, dj ≤ 1 ∧ di ≤ 1 ∧ v = y ((c / nx + dj) * (nx + 1) + (c % nx + di))

/-- The latitude ranges of a cell of the first grid and of a cell of the second grid have more than a point in
common: the lower end of either lies below the upper end of the other. -/
def LatOverlap (nx1 : Nat) (y1 : Nat → K) (nx2 : Nat) (y2 : Nat → K) (c1 c2 : Nat) : Prop :=
  (∃ u v, CornerLat nx2 y2 c2 u ∧ CornerLat nx1 y1 c1 v ∧ u < v)
  ∧ (∃ u v, CornerLat nx2 y2 c2 u ∧ CornerLat nx1 y1 c1 v ∧ v < u)

/-- Latitude `u` lies strictly between the latitudes of two corners of cells of the list. -/
def InBand (nx : Nat) (y : Nat → K) (cells : List Nat) (u : K) : Prop :=
  (∃ c ∈ cells, ∃ v, CornerLat nx y c v ∧ v < u) ∧ (∃ c ∈ cells, ∃ v, CornerLat nx y c v ∧ u < v)

end Verif.Spec.Rows
