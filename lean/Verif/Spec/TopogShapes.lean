import Verif.Model.TopogShapes
/-
What the shapes of make_topog should be.
-/
namespace Verif.Spec.TopogShapes
open Verif.TopogShapes

/-- The centres of the cells lie on meridians `X 0 < X 1 < ..` and circles of latitude `Y 0 < Y 1 < ..`. -/
structure Regular (nx ny : Nat) (g : Grid) (X Y : Nat → ℝ) : Prop where
  lon : ∀ i < nx, ∀ j < ny, centre g.x i j = X i
  lat : ∀ i < nx, ∀ j < ny, centre g.y i j = Y j
  incX : ∀ i k, i < k → k < nx → X i < X k
  incY : ∀ j k, j < k → k < ny → Y j < Y k

/-- A bump of height `amp * bottom` in the middle of the grid, of width `scale` times the smaller extent of the grid, on a bottom that rises from the south-west corner; not
shallower than `minDepth`. -/
noncomputable def bumpDepth (o : Gauss) (nx ny : Nat) (X Y : Nat → ℝ) (i j : Nat) : ℝ :=
  max (o.bottom - o.amp * o.bottom * Real.exp (-((X i - (X 0 + X (nx - 1)) / 2) ^ 2 + (Y j - (Y 0 + Y (ny - 1)) / 2) ^ 2) /
        (o.scale * min (X (nx - 1) - X 0) (Y (ny - 1) - Y 0)) ^ 2) -
      o.slopeX * (X i - X 0) - o.slopeY * (Y j - Y 0)) o.minDepth

/-- The walls of a box with an opening in the west in the rows `ws..wn-1`, and one in the east in the rows `es..en-1`, rows counted from 0. -/
def wall (nx ny : Nat) (ws wn es en : Int) (i j : Nat) : Prop :=
  j = 0 ∨ j = ny - 1 ∨ (i = 0 ∧ ¬ (ws ≤ (j : Int) ∧ (j : Int) < wn)) ∨ (i = nx - 1 ∧ ¬ (es ≤ (j : Int) ∧ (j : Int) < en))

end Verif.Spec.TopogShapes
