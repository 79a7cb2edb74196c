import Verif.Model.RealTopog
import Mathlib.Algebra.BigOperators.Group.Finset.Basic
/-
What the depth of a model cell should be: the mean depth of the ocean in the cell, over the whole source file.
-/
namespace Verif.Spec.RealTopog
open Finset Verif.RealTopog

variable {K : Type} [Field K] [LinearOrder K]

/-- The cell in column `i` and row `j` of the whole model grid, in radians. -/
def target (rad : K) (g : Grid K) (i j : Nat) : Quad K :=
  ⟨(g.x i j * rad, g.y i j * rad), (g.x (i + 1) j * rad, g.y (i + 1) j * rad),
    (g.x (i + 1) (j + 1) * rad, g.y (i + 1) (j + 1) * rad), (g.x i (j + 1) * rad, g.y i (j + 1) * rad)⟩

/-- The source cell has a value, and it is below sea level. -/
def wet (s : Source K) (scale : K) (j i : Nat) : Prop := s.val j i ≠ s.missing ∧ 0 < s.val j i * scale

instance (s : Source K) (scale : K) (j i : Nat) : Decidable (wet s scale j i) := by unfold wet; infer_instance

/-- The area that the source cell has in common with the target cell `q`, 0 on land. -/
def wetArea (clip : Box K → Quad K → Option K) (rad scale : K) (s : Source K) (q : Quad K) (j i : Nat) : K :=
  if wet s scale j i then (clip (box rad s j i) q).getD 0 else 0

/-- The mean of the depth by area. -/
def meanDepth (clip : Box K → Quad K → Option K) (rad scale : K) (s : Source K) (q : Quad K) : K :=
  (∑ j ∈ range s.ny, ∑ i ∈ range s.nx, wetArea clip rad scale s q j i * (s.val j i * scale)) /
    (∑ j ∈ range s.ny, ∑ i ∈ range s.nx, wetArea clip rad scale s q j i)

/-- A corner of `q` is south of `y`, north of `y`. -/
def southOf (q : Quad K) (y : K) : Prop := q.p0.2 < y ∨ q.p1.2 < y ∨ q.p2.2 < y ∨ q.p3.2 < y
def northOf (q : Quad K) (y : K) : Prop := y < q.p0.2 ∨ y < q.p1.2 ∨ y < q.p2.2 ∨ y < q.p3.2

/-- Common parts have an area, and only cells have one that meet in latitude. -/
structure Proper (clip : Box K → Quad K → Option K) : Prop where
  pos : ∀ b q a, clip b q = some a → 0 < a
  lat : ∀ b q a, clip b q = some a → southOf q (max b.y0 b.y1) ∧ northOf q (min b.y0 b.y1)

/-- The centres of the rows go north, or they go south. -/
def Ordered (n : Nat) (t : Nat → K) : Prop :=
  (∀ i j, i < j → j < n → t i < t j) ∨ (∀ i j, i < j → j < n → t j < t i)

/-- The latitudes of a piece of the grid: `y` is strictly between two of its points. -/
def Inside (rad : K) (g : Grid K) (p : Piece) (y : K) : Prop :=
  (∃ i ≤ p.nx, ∃ j ≤ p.ny, g.y (p.isc + i) (p.jsc + j) * rad < y) ∧ (∃ i ≤ p.nx, ∃ j ≤ p.ny, y < g.y (p.isc + i) (p.jsc + j) * rad)

end Verif.Spec.RealTopog
