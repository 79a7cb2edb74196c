import Verif.Spec.Bilinear
/-
Cells between the centres of a tile, on the sphere.
-/
namespace Verif.Spec.Bil

noncomputable section

/-- The cosine of the angle at `a` between the great circles to `b` and `c`. -/
def cosAt (a b c : Fin 3 → ℝ) : ℝ :=
  ((a 1 * b 2 - a 2 * b 1) * (a 1 * c 2 - a 2 * c 1) + (a 2 * b 0 - a 0 * b 2) * (a 2 * c 0 - a 0 * c 2)
    + (a 0 * b 1 - a 1 * b 0) * (a 0 * c 1 - a 1 * c 0)) / (area a b * area a c)

/-- A corner `a` of a cell with the next corner `b` and the one before `c`, counter-clockwise: an angle below 120 degrees
that is not within the tolerance of zero. -/
def Corner (eps : ℝ) (a b c : Fin 3 → ℝ) : Prop :=
  0 < det a b c ∧ -(1 / 2) < cosAt a b c ∧ cosAt a b c ≤ 1 - eps

/-- `p` is on the great circle from `a` to `b` or to the left of it. -/
def LeftOf (a b p : Fin 3 → ℝ) : Prop := 0 ≤ det a b p

/-- In the triangle, counter-clockwise, with its sides. -/
def InTri (a b c p : Fin 3 → ℝ) : Prop := LeftOf a b p ∧ LeftOf b c p ∧ LeftOf c a p

/-- In the cell with four corners, counter-clockwise, with its sides. -/
def InQuad (a b c d p : Fin 3 → ℝ) : Prop := LeftOf a b p ∧ LeftOf b c p ∧ LeftOf c d p ∧ LeftOf d a p

/-- `p` is in the cell with lower left corner `(i, j)` of a tile with halo. Where three tiles meet the cell is a triangle: the
halo has no value of its own there. -/
def InCell (nx ny : Nat) (g : Nat → Nat → Fin 3 → ℝ) (i j : Nat) (p : Fin 3 → ℝ) : Prop :=
  if i = nx ∧ j = ny then InTri (g i j) (g (i + 1) j) (g i (j + 1)) p
  else if i = 0 ∧ j = ny then InTri (g i j) (g (i + 1) j) (g (i + 1) (j + 1)) p
  else if i = nx ∧ j = 0 then InTri (g i j) (g (i + 1) (j + 1)) (g i (j + 1)) p
  else InQuad (g i j) (g (i + 1) j) (g (i + 1) (j + 1)) (g i (j + 1)) p

/-- Strictly inside of the cell with four corners. -/
def Inside (g : Nat → Nat → Fin 3 → ℝ) (i j : Nat) (p : Fin 3 → ℝ) : Prop :=
  0 < det (g i j) (g (i + 1) j) p ∧ 0 < det (g (i + 1) j) (g (i + 1) (j + 1)) p
    ∧ 0 < det (g (i + 1) (j + 1)) (g i (j + 1)) p ∧ 0 < det (g i (j + 1)) (g i j) p

/-- The cell `(i, j)` has four corners. -/
def Four (nx ny i j : Nat) : Prop := ¬ (i = nx ∧ j = ny) ∧ ¬ (i = 0 ∧ j = ny) ∧ ¬ (i = nx ∧ j = 0) ∧ ¬ (i = 0 ∧ j = 0)

/-- A tile with halo whose cells are convex with angles below 120 degrees, also the triangles at its corners. -/
structure TileOK (eps : ℝ) (nx ny : Nat) (g : Nat → Nat → Fin 3 → ℝ) : Prop where
  sw : ∀ i j, i ≤ nx → j ≤ ny → Four nx ny i j → Corner eps (g i j) (g (i + 1) j) (g i (j + 1))
  se : ∀ i j, i ≤ nx → j ≤ ny → Four nx ny i j → Corner eps (g (i + 1) j) (g (i + 1) (j + 1)) (g i j)
  ne : ∀ i j, i ≤ nx → j ≤ ny → Four nx ny i j → Corner eps (g (i + 1) (j + 1)) (g i (j + 1)) (g (i + 1) j)
  nw : ∀ i j, i ≤ nx → j ≤ ny → Four nx ny i j → Corner eps (g i (j + 1)) (g i j) (g (i + 1) (j + 1))
  neTri1 : Corner eps (g nx ny) (g (nx + 1) ny) (g nx (ny + 1))
  neTri2 : Corner eps (g (nx + 1) ny) (g nx (ny + 1)) (g nx ny)
  nwTri1 : Corner eps (g 1 ny) (g 1 (ny + 1)) (g 0 ny)
  nwTri2 : Corner eps (g 1 (ny + 1)) (g 0 ny) (g 1 ny)
  seTri1 : Corner eps (g nx 1) (g nx 0) (g (nx + 1) 1)
  seTri2 : Corner eps (g (nx + 1) 1) (g nx 1) (g nx 0)
  swTri : 0 < det (g 1 1) (g 0 1) (g 1 0)

end

end Verif.Spec.Bil
