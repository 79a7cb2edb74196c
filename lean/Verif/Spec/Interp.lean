import Mathlib.Algebra.Order.Field.Basic
/-
Grids and interpolation in one dimension.
-/
namespace Verif.Spec
variable {K : Type} [Field K] [LinearOrder K]

/-- The first `n` elements do not decrease. -/
def NonDecreasing (a : Nat → K) (n : Nat) : Prop := ∀ i j, i ≤ j → j < n → a i ≤ a j

/-- The first `n` elements increase. -/
def Increasing (a : Nat → K) (n : Nat) : Prop := ∀ i j, i < j → j < n → a i < a j

/-- `r` is one of the `n` positions and no element is nearer to `v`. -/
def IsNearest (v : K) (a : Nat → K) (n r : Nat) : Prop := r < n ∧ ∀ k, k < n → |a r - v| ≤ |a k - v|

/-- The straight line through `(x0, y0)` and `(x1, y1)` at `v`. -/
def lineAt (x0 y0 x1 y1 v : K) : K := y0 + (v - x0) / (x1 - x0) * (y1 - y0)

/-- `z` is between `p` and `q`. -/
def Between (p q z : K) : Prop := (p ≤ z ∧ z ≤ q) ∨ (q ≤ z ∧ z ≤ p)

/-- `z` is the value at `v` of the piecewise linear function through the `n` points `(x k, y k)`. -/
def IsPiecewiseLinear (x y : Nat → K) (n : Nat) (v z : K) : Prop :=
  ∃ k, k + 1 < n ∧ x k ≤ v ∧ v ≤ x (k + 1) ∧ z = lineAt (x k) (y k) (x (k + 1)) (y (k + 1)) v

/-- The flat-end condition of the monotone spline: with three nodes or more, if the first interval is flat
so is the second, and the same at the other end. -/
def FlatEndsOk (y : Nat → K) (n : Nat) : Prop :=
  3 ≤ n → (y 0 = y 1 → y 1 = y 2) ∧ (y (n - 1) = y (n - 2) → y (n - 2) = y (n - 3))

/-- The targets `g` lie in the range of the nodes. -/
def InRange (x : Nat → K) (n : Nat) (g : Nat → K) (m : Nat) : Prop :=
  ∀ k, k < m → x 0 ≤ g k ∧ g k ≤ x (n - 1)

/-- `r` holds for every target the value of the piecewise function with pieces `p j` on
`[x j, x (j+1)]`. -/
def IsPiecewise (x : Nat → K) (n : Nat) (p : Nat → K → K) (g : Nat → K) (m : Nat) (r : List K) : Prop :=
  r.length = m ∧ ∀ k, k < m → ∃ z, r[k]? = some z ∧
    ∀ j, j + 1 < n → x j ≤ g k → g k ≤ x (j + 1) → z = p j (g k)

/-- `p` is a polynomial of degree at most three. -/
def IsCubic (p : K → K) : Prop := ∃ a b c d, ∀ v, p v = a + b * v + c * v ^ 2 + d * v ^ 3

/-- Cubics `p j` on the intervals `[x j, x (j+1)]` that pass through the points `(x j, y j)`. -/
def Interpolates (x y : Nat → K) (n : Nat) (p : Nat → K → K) : Prop :=
  ∀ j, j + 1 < n → IsCubic (p j) ∧ p j (x j) = y j ∧ p j (x (j + 1)) = y (j + 1)

/-- Neighbouring cubics have the same first derivative at their common node: the difference is a multiple
of `(v - x)^2`. -/
def JoinsC1 (x : Nat → K) (n : Nat) (p : Nat → K → K) : Prop :=
  ∀ j, j + 2 < n → ∃ c d, ∀ v, p (j + 1) v - p j v = (c + d * v) * (v - x (j + 1)) ^ 2

/-- Neighbouring cubics have the same first and second derivatives at their common node: the difference
is a multiple of `(v - x)^3`. -/
def JoinsC2 (x : Nat → K) (n : Nat) (p : Nat → K → K) : Prop :=
  ∀ j, j + 2 < n → ∃ c, ∀ v, p (j + 1) v - p j v = c * (v - x (j + 1)) ^ 3

/-- Second derivative zero at `x0`. -/
def NaturalAt (p : K → K) (x0 : K) : Prop := ∃ a b c, ∀ v, p v = a + b * (v - x0) + c * (v - x0) ^ 3

/-- Derivative `s` at `x0`. -/
def SlopeAt (p : K → K) (x0 s : K) : Prop :=
  ∃ a c d, ∀ v, p v = a + s * (v - x0) + c * (v - x0) ^ 2 + d * (v - x0) ^ 3

/-- Condition at an end: natural, or with a given slope. -/
def EndCond (o : Option K) (p : K → K) (x0 : K) : Prop :=
  (o = none → NaturalAt p x0) ∧ ∀ s, o = some s → SlopeAt p x0 s

/-- Cubic spline through `n` points: cubics through the points, twice continuously differentiable, with
conditions at the two ends. -/
def IsCubicSpline (x y : Nat → K) (n : Nat) (first last : Option K) (p : Nat → K → K) : Prop :=
  Interpolates x y n p ∧ JoinsC2 x n p ∧ EndCond first (p 0) (x 0) ∧ EndCond last (p (n - 2)) (x (n - 1))

end Verif.Spec
