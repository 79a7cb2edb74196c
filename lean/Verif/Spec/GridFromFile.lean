import Mathlib.Algebra.Field.Basic
import Mathlib.Algebra.Order.Field.Basic
/-
Specification of a supergrid made from cell corners and cell centres: a grid with twice as many cells in each direction, whose points are the
corners, the centres and the middles of the sides of the cells.
-/
namespace Verif.Spec.GridFromFile

variable {F : Type} [Field F]

/-- Rows of centres have one latitude, columns have one longitude. -/
def Uniform (ni nj : Nat) (T : Nat → Nat → F × F) : Prop :=
  (∀ j < nj, ∀ i < ni, (T j i).2 = (T j 0).2) ∧ ∀ j < nj, ∀ i < ni, (T j i).1 = (T 0 i).1

/-- The middle of two points in angles. -/
def angular (p q : F × F) : F × F := ((p.1 + q.1) / 2, (p.2 + q.2) / 2)

/-- Point (J, I) of the supergrid, row J, column I: `C` the corners, `T` the centres, `mid` the middle of the side between two corners. -/
def point (mid : F × F → F × F → F × F) (C T : Nat → Nat → F × F) (J I : Nat) : F × F :=
  if J % 2 = 0 then if I % 2 = 0 then C (J / 2) (I / 2) else mid (C (J / 2) (I / 2)) (C (J / 2) (I / 2 + 1))
  else if I % 2 = 0 then mid (C (J / 2) (I / 2)) (C (J / 2 + 1) (I / 2)) else T (J / 2) (I / 2)

/-- The same when the centres are uniform: points on the sides are level with the centres. -/
def pointUniform (C T : Nat → Nat → F × F) (J I : Nat) : F × F :=
  if J % 2 = 0 then if I % 2 = 0 then C (J / 2) (I / 2) else ((T 0 (I / 2)).1, (C (J / 2) (I / 2)).2)
  else if I % 2 = 0 then ((C (J / 2) (I / 2)).1, (T (J / 2) 0).2) else T (J / 2) (I / 2)

/-- Bounds and centres by turns: b 0, c 0, b 1, c 1, ... -/
def woven (b c : Nat → F) (I : Nat) : F := if I % 2 = 0 then b (I / 2) else c (I / 2)

/-- Centres lie within their cells. -/
def Within [LinearOrder F] (n : Nat) (b c : Nat → F) : Prop := ∀ i < n, b i < c i ∧ c i < b (i + 1)

/-- `v` has the four corners of each cell one after the other: south-west, south-east, north-east, north-west. -/
def Vertices {F : Type} (n m : Nat) (K : Nat → Nat → F) (v : Nat → F) : Prop :=
  ∀ j < m, ∀ i < n, v (4 * (j * n + i)) = K j i ∧ v (4 * (j * n + i) + 1) = K j (i + 1) ∧ v (4 * (j * n + i) + 2) = K (j + 1) (i + 1) ∧
    v (4 * (j * n + i) + 3) = K (j + 1) i

/-- `v` has the two bounds of each cell one after the other, and cells join. -/
def Bounds {F : Type} (n : Nat) (b : Nat → F) (v : Nat → F) : Prop := ∀ i < n, v (2 * i) = b i ∧ v (2 * i + 1) = b (i + 1)

end Verif.Spec.GridFromFile
