import Mathlib.Data.Real.Basic
import Mathlib.Algebra.Order.Field.Power
/-
Floating-point rounding.
-/
namespace Verif.Spec

/-- `x` is a binary floating-point number with `p` significant bits (with unbounded exponent). -/
def IsFloat (p : Nat) (x : ℝ) : Prop := ∃ m e : ℤ, |m| < 2 ^ p ∧ x = m * (2 : ℝ) ^ e

/-- `rd` is a way to round to `p` significant bits: the results are floating-point numbers, whole numbers up to `2^p`
are kept, and the relative error is at most `2^-p`. -/
structure Rounds (p : Nat) (rd : ℝ → ℝ) : Prop where
  float : ∀ x, IsFloat p (rd x)
  whole : ∀ n : ℤ, |n| ≤ 2 ^ p → rd n = n
  near : ∀ x, |rd x - x| ≤ |x| / 2 ^ p

/-- `q` is the quotient of `a` by `b` rounded up. -/
def IsCeil (a b q : Int) : Prop := a ≤ q * b ∧ (q - 1) * b < a

end Verif.Spec
