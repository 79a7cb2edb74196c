/-
Specification vocabulary for pieces of arrays.
-/
namespace Verif.Spec

/-- `iv d` is the closed interval of dimension `d` that belongs to a piece. `LocalIdx iv dims g l`:
the global index vector `g` of an array with dimensions `dims` lies in the piece, and `l` is its
index vector relative to the first point of the piece. -/
def LocalIdx (iv : Nat → Int × Int) : List Nat → List Nat → List Nat → Prop
  | [], [], [] => True
  | d :: ds, g :: gs, l :: ls =>
    (iv d).1 ≤ g ∧ (g : Int) ≤ (iv d).2 ∧ (g : Int) = (iv d).1 + l ∧ LocalIdx iv ds gs ls
  | _, _, _ => False

end Verif.Spec
