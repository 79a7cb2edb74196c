import Mathlib.Algebra.Order.Field.Basic
/-
Specification of make_quick_mosaic: what the exchange cells of a file say about a grid cell.
-/
namespace Verif.Spec.Quick

variable {K : Type} [Field K]

/-- Area that a list of exchange cells gives to grid cell `(i, j)` of the first parent; indices in files start
at 1. -/
def listed (xs : List ((Nat × Nat × Nat × Nat) × K)) (i j : Nat) : K :=
  ((xs.filter fun e => decide (e.1.1 = i + 1 ∧ e.1.2.1 = j + 1)).map Prod.snd).sum

/-- Every exchange cell lies in the grid and has the same cell as parent in both grids. -/
def SameCell (nx ny : Nat) (xs : List ((Nat × Nat × Nat × Nat) × K)) : Prop :=
  ∀ e ∈ xs, e.1.2.2.1 = e.1.1 ∧ e.1.2.2.2 = e.1.2.1 ∧ 1 ≤ e.1.1 ∧ e.1.1 ≤ nx ∧ 1 ≤ e.1.2.1 ∧ e.1.2.1 ≤ ny

/-- Area that an exchange grid file gives to land cell `(i, j)`; indices already start at 0. -/
def landOf (xs : List (Nat × Nat × K)) (i j : Nat) : K :=
  ((xs.filter fun e => decide (e.1 = i ∧ e.2.1 = j)).map fun e => e.2.2).sum

end Verif.Spec.Quick
