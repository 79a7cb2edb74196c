import Mathlib.Data.Real.Basic
import Mathlib.Algebra.BigOperators.Group.Finset.Basic
import Verif.Spec.GridBound
/-
One-dimensional grids from bounds and cell sizes.
-/
namespace Verif.Spec
open Finset

/-- Width of region `l`. -/
def widthOf (bnds : Nat → ℝ) (l : Nat) : ℝ := |bnds (l + 1) - bnds l|

/-- Size of the cells at the far end of region `l`: `dbnds (l+1)`, times the stretching factor in the last region. -/
def endSize (nb : Nat) (dbnds : Nat → ℝ) (stretch : ℝ) (l : Nat) : ℝ :=
  (if l + 2 = nb then stretch else 1) * dbnds (l + 1)

/-- Mean of the sizes at the two ends of region `l`. -/
noncomputable def meanSize (nb : Nat) (dbnds : Nat → ℝ) (stretch : ℝ) (l : Nat) : ℝ :=
  (dbnds l + endSize nb dbnds stretch l) / 2

/-- Number of cells in the first `l` regions. -/
def countBefore (n : Nat → Nat) (l : Nat) : Nat := ∑ k ∈ range l, n k

/-- The regions have positive cell sizes and are wider than the tolerance. -/
def RegionsOk (nb : Nat) (bnds dbnds : Nat → ℝ) (stretch : ℝ) : Prop :=
  2 ≤ nb ∧ 0 < stretch ∧ (∀ l, l < nb → 0 < dbnds l) ∧
    ∀ l, l + 1 < nb → meanSize nb dbnds stretch l / 100000 < widthOf bnds l

end Verif.Spec
