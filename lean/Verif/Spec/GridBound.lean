import Mathlib.Algebra.Order.Field.Basic
import Verif.Spec.Interp
/-
One-dimensional grids.
-/
namespace Verif.Spec
variable {K : Type} [Field K] [LinearOrder K]

/-- Number of cells in the first `l` regions. -/
def cellsBefore (npts : Nat → Int) (l : Nat) : Int := ((List.range l).map npts).sum

/-- Line number `k` of the grid is at `v`. -/
def LineAt (grid : List K) (k : Int) (v : K) : Prop := 0 ≤ k ∧ grid[k.toNat]? = some v

/-- The lines of the grid increase. -/
def LinesIncrease (grid : List K) : Prop := grid.Pairwise (· < ·)

/-- The lines of the grid decrease. -/
def LinesDecrease (grid : List K) : Prop := grid.Pairwise (· > ·)

/-- Line `k` is in the middle between its neighbours. -/
def Centred (grid : List K) (k : Nat) : Prop :=
  ∃ a b c, grid[k]? = some a ∧ grid[k + 1]? = some b ∧ grid[k + 2]? = some c ∧ b - a = c - b

/-- The cells of region `l` of the request have mean size `d`. -/
def RegionSize (bnds : Nat → K) (npts : Nat → Int) (l : Nat) (d : K) : Prop :=
  bnds (l + 1) - bnds l = d * (npts l : K)

/-- A request that can be met: at least one region, at least one cell in each, a known kind of centring and, unless
it is "none", an even number of cells in each region. -/
def ValidRequest (nb : Nat) (npts : Nat → Int) (center : String) : Prop :=
  2 ≤ nb ∧ (∀ l, l + 1 < nb → 0 < npts l) ∧
    (center = "none" ∨ (center = "t_cell" ∨ center = "c_cell") ∧ ∀ l, l + 1 < nb → 2 ∣ npts l)

end Verif.Spec
