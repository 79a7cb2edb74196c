import Mathlib.Analysis.SpecialFunctions.Complex.Arg
import Verif.Spec.Cube
/-
Direction of a line of a grid at a point, for C149.
-/
noncomputable section
namespace Verif.Spec.RotationAngle
open Real

/-- Difference of longitudes in degrees, more than -180 and at most 180. -/
def wrap (d : ℝ) : ℝ := d - 360 * ⌈(d - 180) / 360⌉

/-- Angle in degrees between east and the direction in which longitude grows by `dlon` and latitude by `dlat` degrees, at latitude `lat`. -/
def direction (lat dlon dlat : ℝ) : ℝ := Complex.arg ⟨wrap dlon * cos (lat * (π / 180)), dlat⟩ * (180 / π)

/-- Longitude and latitude by tile, row and column belong to a closed cube of `n` times `n` cells in each face: points at the same place have the same coordinates. -/
def Closed (n : Nat) (lon lat : Nat → Nat → Nat → ℝ) : Prop := ∀ t j i t' j' i', t < 6 → t' < 6 → j ≤ n → i ≤ n → j' ≤ n → i' ≤ n →
  Cube.place n t j i = Cube.place n t' j' i' → lon t j i = lon t' j' i' ∧ lat t j i = lat t' j' i'

/-- The next and the previous one of the numbers 0 to `n`; the last and the first one have no other than themselves. -/
def next (n i : Nat) : Nat := if i < n then i + 1 else i
def prev (i : Nat) : Nat := i - 1

end Verif.Spec.RotationAngle
