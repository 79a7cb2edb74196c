import Mathlib.Algebra.Order.Field.Basic
/-
Specification for longitudes. A vertex is (longitude, latitude), `pi` is half a turn.
-/
namespace Verif.Spec

variable {K : Type} [Field K] [LinearOrder K]

/-- The two longitudes are the same meridian. -/
def SameMeridian (pi a b : K) : Prop := ∃ z : Int, b = a + (z : K) * (2 * pi)

/-- The same vertices, the longitudes changed by whole turns. -/
def SameUpToTurns (pi : K) : List (K × K) → List (K × K) → Prop :=
  List.Forall₂ fun p q => q.2 = p.2 ∧ SameMeridian pi p.1 q.1

/-- The mean of the longitudes. -/
def meanLon (l : List (K × K)) : K := (l.map Prod.fst).sum / (l.length : K)

/-- The vertices lie, up to whole turns, between the meridians `w` and `w + pi`. -/
def LessThanHalfTurn (pi w : K) (l : List (K × K)) : Prop :=
  ∀ p ∈ l, ∃ u, SameMeridian pi p.1 u ∧ w ≤ u ∧ u < w + pi

/-- No vertex is within `tol` of a pole. -/
def AwayFromPoles (pi tol : K) (l : List (K × K)) : Prop := ∀ p ∈ l, |p.2| < pi / 2 - tol

/-- No side joins meridians half a turn apart (to within `small`), with the last vertex before the first. -/
def NoSideOverPole (pi small : K) (l : List (K × K)) : Prop :=
  ∀ (i : Nat) (p q : K × K), l[i]? = some p → l[(i + l.length - 1) % l.length]? = some q →
    small ≤ |p.1 - q.1 + pi| ∧ small ≤ |p.1 - q.1 - pi|

end Verif.Spec
