import Verif.Model.Vec3
/-
Specification for areas on the sphere: orientation of three points, convex cells in one sense of rotation, a point inside.
-/
namespace Verif.Spec.GcArea
open Verif.Vec3

noncomputable section

/-- The triple product: positive if `a`, `b`, `c` go round counterclockwise, seen from outside. -/
def det (a b c : V ℝ) : ℝ := a 0 * (b 1 * c 2 - b 2 * c 1) + a 1 * (b 2 * c 0 - b 0 * c 2) + a 2 * (b 0 * c 1 - b 1 * c 0)

/-- Any three vertices, in the order of the list, go round in the same sense (`s` is 1 or -1). A cell whose sides bulge nowhere inwards and that lies within a
hemisphere is of this kind. -/
def Turning (s : ℝ) (l : List (V ℝ)) : Prop := ∀ a b c, List.Sublist [a, b, c] l → 0 < s * det a b c

/-- The point is on the inner side of each side of the cell; the last side leads back to the first vertex. -/
def Inside (s : ℝ) (l : List (V ℝ)) (p : V ℝ) : Prop := ∀ a b, [a, b] <:+: l ++ l.take 1 → 0 < s * det a b p

/-- Sum over the triangles that the diagonals from `a` cut off. -/
def fan (g : V ℝ → V ℝ → V ℝ → ℝ) (a : V ℝ) : List (V ℝ) → ℝ
  | x :: y :: l => g a x y + fan g a (y :: l)
  | _ => 0

end

end Verif.Spec.GcArea
