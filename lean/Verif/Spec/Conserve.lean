import Mathlib.Algebra.Order.Field.Basic
import Mathlib.Algebra.BigOperators.Group.List.Basic
/-
Weighted sums and means over lists, and sums over a grid.
-/
namespace Verif.Spec
variable {K α : Type} [Field K] [LinearOrder K]

/-- Sum of `f` over a list. -/
def total (f : α → K) (l : List α) : K := (l.map f).sum

/-- Mean of `v` with weights `w`. -/
def wmean (w v : α → K) (l : List α) : K := total (fun c => v c * w c) l / total w l

/-- Sum over the cells of a grid. -/
def gridSum (nx ny : Nat) (f : Nat → Nat → K) : K :=
  ((List.range ny).map fun j => ((List.range nx).map fun i => f i j).sum).sum

end Verif.Spec
