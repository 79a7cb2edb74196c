import Mathlib.Algebra.Order.Field.Basic

/-!
# Specification vocabulary for ocean depths and levels
-/

namespace Verif.Spec.Topo

variable {K : Type _} [Field K] [LinearOrder K]

/-- A vertical grid: the depths `zw 0 < zw 1 < …` of the bottoms of `nk` levels, all below the
surface. -/
structure VGrid (zw : Nat → K) (nk : Nat) : Prop where
  surface : 0 < zw 0
  increasing : ∀ k, k + 1 < nk → zw k < zw (k + 1)

/-- Depth of the top of level number `k`, counted from 1. -/
def top (zw : Nat → K) (k : Nat) : K := if k ≤ 1 then 0 else zw (k - 2)

/-- Depth of the bottom of level number `k`, counted from 1. -/
def bottom (zw : Nat → K) (k : Nat) : K := zw (k - 1)

/-- `k` levels fit the depth `h`: land has none, and the ocean floor lies in the last level,
possibly at its bottom. -/
def Fits (zw : Nat → K) (nk : Nat) (h : K) (k : Int) : Prop :=
  (k = 0 ∧ h ≤ 0) ∨
    ∃ n : Nat, k = n ∧ 1 ≤ n ∧ n ≤ nk ∧ top zw n < h ∧ h ≤ bottom zw n

/-- Cell `(j, i)` is one of the four cells around the corner of `(cj, ci)` and `(cj+1, ci+1)`. -/
def Around (cj ci j i : Nat) : Prop := (j = cj ∨ j = cj + 1) ∧ (i = ci ∨ i = ci + 1)

/-- Cell `(j, i)` is not isolated: at one of its corners all four cells have at least as many
levels, so at every one of its levels the cell has a corner with water all round. -/
def Connected (lev : Nat → Nat → Int) (j i : Nat) : Prop :=
  ∃ cj ci, Around cj ci j i ∧ ∀ j' i', Around cj ci j' i' → lev j i ≤ lev j' i'

/-- `g` is the field `f` of `nj` rows and `ni` columns with one more row and column on each side,
filled as the topology of the grid says, and with land where nothing adjoins.  In `g` the
rows and columns are counted from 0, those of `f` begin at 1. -/
structure Extended (ni nj : Nat) (tripolar cyclicX cyclicY : Bool) (f g : Nat → Nat → Int) :
    Prop where
  inside : ∀ j i, j < nj → i < ni → g (j + 1) (i + 1) = f j i
  west : ∀ j, j ≤ nj + 1 → g j 0 = if cyclicX then g j ni else 0
  east : ∀ j, j ≤ nj + 1 → g j (ni + 1) = if cyclicX then g j 1 else 0
  south : ∀ i, 1 ≤ i → i ≤ ni → g 0 i = if cyclicY = true ∧ tripolar = false then g nj i else 0
  north : ∀ i, 1 ≤ i → i ≤ ni →
    g (nj + 1) i = if tripolar then g nj (ni + 1 - i) else if cyclicY then g 1 i else 0

/-- The least thickness of a bottom cell in level number `k ≥ 2` as the manual of make_topog gives it
for `--fraction_full_cell` and `--min_thickness`. -/
def leastThickness (zw : Nat → K) (minThickness fraction : K) (k : Nat) : K :=
  if fraction = 0 then min 50 (zw 0)
  else max (fraction * (bottom zw k - top zw k)) minThickness

/-- No level is thinner than the thickness asked for. -/
def ThickEnough (zw : Nat → K) (nk : Nat) (minThickness fraction : K) : Prop :=
  ∀ k, 2 ≤ k → k ≤ nk → leastThickness zw minThickness fraction k ≤ bottom zw k - top zw k

end Verif.Spec.Topo
