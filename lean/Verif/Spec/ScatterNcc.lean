import Verif.Model.ScatterNcc
/-
Which part of the longitude-latitude grid belongs to which file.
-/
namespace Verif.Spec
open ScatterNcc

/-- The stored indices are less than the size of the grid, and no valid one is repeated. -/
structure GoodIndex (L : Layout) (ix : List Int) : Prop where
  ne : ix ≠ []
  lt : ∀ v ∈ ix, v < L.vsize
  nodup : ∀ (i j : Nat) (v : Int), ix[i]? = some v → ix[j]? = some v → 0 ≤ v → i = j

/-- Point `l` lies in the block of file `n`: files are numbered row by row, blocks are
`nlon / npex` wide and `nlat / npey` high. -/
def InBlock (L : Layout) (n l : Nat) : Prop :=
  let i := l % L.nlon
  let j := l / L.nlon % L.nlat
  let w := L.nlon / L.npex
  let h := L.nlat / L.npey
  (n % L.npex * w ≤ i ∧ i < (n % L.npex + 1) * w) ∧ (n / L.npex * h ≤ j ∧ j < (n / L.npex + 1) * h)

end Verif.Spec
