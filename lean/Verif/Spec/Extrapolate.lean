import Mathlib.Algebra.Order.Field.Basic
/-
Specification of the extrapolation of missing values.
-/
namespace Verif.Spec.Ext

variable {K : Type} [Field K] [LinearOrder K]

/-- A grid of at least two columns and rows with increasing longitudes and latitudes, between the poles: the cosine of
latitude is positive at the centres of cells and not negative at the southern and northern sides. -/
structure Grid (cos : K → K) (ni nj : Nat) (lon lat : Nat → K) : Prop where
  two_columns : 2 ≤ ni
  two_rows : 2 ≤ nj
  lon_lt : ∀ i, i + 1 < ni → lon i < lon (i + 1)
  lat_lt : ∀ j, j + 1 < nj → lat j < lat (j + 1)
  centre : ∀ j, j < nj → 0 < cos (lat j)
  side : ∀ j, j + 1 < nj → 0 ≤ cos ((lat j + lat (j + 1)) / 2)
  south : 0 ≤ cos (lat 0 - (lat 1 - lat 0) / 2)
  north : 0 ≤ cos (lat (nj - 1) + (lat (nj - 1) - lat (nj - 2)) / 2)

/-- Value of a field at row `j` and column `i`, which may be one outside the grid: the first column follows the last if
the grid is cyclic, otherwise the value outside is 0. -/
def at' (ni nj : Nat) (cyclic : Bool) (f : Nat → Nat → K) (j i : Int) : K :=
  if 0 ≤ j ∧ j < nj then
    if 0 ≤ i ∧ i < ni then f j.toNat i.toNat
    else if cyclic ∧ i = -1 then f j.toNat (ni - 1)
    else if cyclic ∧ i = ni then f j.toNat 0
    else 0
  else 0

/-- Sum of the coefficients of the four neighbours in the Laplacian on the sphere. -/
def weight (cos : K → K) (lon lat : Nat → K) (j i : Nat) : K :=
  let dx := (lon (i + 1) - lon (i - 1)) / 2
  let dy := (lat (j + 1) - lat (j - 1)) / 2
  (1 / (lon (i + 1) - lon i) + 1 / (lon i - lon (i - 1))) / (dx * cos (lat j) ^ 2)
    + (cos ((lat j + lat (j + 1)) / 2) / (lat (j + 1) - lat j) + cos ((lat (j - 1) + lat j) / 2) / (lat j - lat (j - 1)))
      / (dy * cos (lat j))

/-- The Laplacian on the sphere at an inner cell, from differences between neighbours. -/
def laplacian (cos : K → K) (lon lat : Nat → K) (f : Nat → Nat → K) (j i : Nat) : K :=
  let dx := (lon (i + 1) - lon (i - 1)) / 2
  let dy := (lat (j + 1) - lat (j - 1)) / 2
  ((f j (i + 1) - f j i) / (lon (i + 1) - lon i) - (f j i - f j (i - 1)) / (lon i - lon (i - 1))) / (dx * cos (lat j) ^ 2)
    + (cos ((lat j + lat (j + 1)) / 2) * ((f (j + 1) i - f j i) / (lat (j + 1) - lat j))
      - cos ((lat (j - 1) + lat j) / 2) * ((f j i - f (j - 1) i) / (lat j - lat (j - 1)))) / (dy * cos (lat j))

end Verif.Spec.Ext
