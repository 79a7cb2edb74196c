import Mathlib.Algebra.Order.Field.Basic
import Mathlib.Algebra.BigOperators.Group.List.Basic
/-
What a land domain file means: its reader takes the land points of face `f` from the part of the arrays which follows the
points of the faces before `f`.
-/
namespace Verif.Spec.LandDomain

/-- The land points of face `f` in the file: pairs of cell and number of tiles -/
def pointsOf (nlandFace gridIndex gridNtile : List Nat) (f : Nat) : List (Nat × Nat) :=
  ((gridIndex.zip gridNtile).drop (nlandFace.take f).sum).take (nlandFace.getD f 0)

/-- The number of land tiles in cell `n` of a face with `npts` cells, by its restart file -/
def tilesIn (npts : Nat) (restart : List Int) (n : Nat) : Nat := restart.countP fun idx => decide (idx % (npts : Int) = (n : Int))

/-- The exchange area in cell `n`: the sum over all records of this cell, `cell r` being the cell and `area r` the area of a
record -/
def areaIn {R K : Type} [Field K] (cell : R → Nat) (area : R → K) (records : List R) (n : Nat) : K :=
  ((records.filter fun r => cell r = n).map area).sum

end Verif.Spec.LandDomain
