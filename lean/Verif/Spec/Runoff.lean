import Verif.Model.Runoff
import Mathlib.Algebra.BigOperators.Group.Finset.Basic
/-
Specification of runoff regridding. From the model only the type of exchange grid entries is used.
-/
namespace Verif.Spec.Run

open Real

/-- Cosine of the angle between two points of the sphere, seen from its centre: greater for nearer points, -1
for opposite ones. -/
noncomputable def cosAngle (lon1 lat1 lon2 lat2 : ℝ) : ℝ :=
  sin lat1 * sin lat2 + cos lat1 * cos lat2 * cos (lon1 - lon2)

/-- `c` is the ocean cell (among the cells below `n`) nearest to the point, the one with the smallest index if
several are equally near. -/
def IsNearest (n : Nat) (ocean : Nat → Bool) (lon lat : Nat → ℝ) (plon plat : ℝ) (c : Nat) : Prop :=
  c < n ∧ ocean c = true
  ∧ (∀ m, m < n → ocean m = true → cosAngle plon plat (lon m) (lat m) ≤ cosAngle plon plat (lon c) (lat c))
  ∧ (∀ m, m < c → ocean m = true → cosAngle plon plat (lon m) (lat m) < cosAngle plon plat (lon c) (lat c))

/-- Some ocean cell is not exactly opposite to the point. -/
def Reachable (n : Nat) (ocean : Nat → Bool) (lon lat : Nat → ℝ) (plon plat : ℝ) : Prop :=
  ∃ m, m < n ∧ ocean m = true ∧ -1 < cosAngle plon plat (lon m) (lat m)

/-- Amount of runoff carried by one exchange grid entry. -/
noncomputable def amount (nxIn : Nat) (dataIn : Nat → ℝ) (e : Runoff.XEntry) : ℝ :=
  dataIn (e.jIn * nxIn + e.iIn) * e.area

/-- Amount of runoff that the exchange grid brings into output cell `l`. -/
noncomputable def inflow (nxIn nx : Nat) (dataIn : Nat → ℝ) (xs : List Runoff.XEntry) (l : Nat) : ℝ :=
  ((xs.filter fun e => e.jOut * nx + e.iOut == l).map (amount nxIn dataIn)).sum

end Verif.Spec.Run
