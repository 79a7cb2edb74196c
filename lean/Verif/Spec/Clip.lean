import Mathlib.Algebra.Order.Field.Basic
/-
Polygons in the plane as lists of vertices.
-/
namespace Verif.Spec
variable {K : Type} [Field K]

/-- Sum of `E` over the edges of the path from `p` through the list. -/
def path (E : K × K → K × K → K) : K × K → List (K × K) → K
  | _, [] => 0
  | p, v :: vs => E p v + path E v vs

/-- Sum of `E` over the edges of the closed polygon. -/
def cyc (E : K × K → K × K → K) (l : List (K × K)) : K :=
  match l.getLast? with
  | none => 0
  | some z => path E z l

/-- The three points are on one line. -/
def OnLine (p q r : K × K) : Prop := (q.1 - p.1) * (r.2 - p.2) = (q.2 - p.2) * (r.1 - p.1)

/-- A line integral: going from `p` to `r` over a point of the line through them makes no difference. -/
def Additive (E : K × K → K × K → K) : Prop := ∀ p q r, OnLine p q r → E p q + E q r = E p r

/-- The cross product: `cyc` of it is twice the signed area. -/
def cross2 (p q : K × K) : K := p.1 * q.2 - q.1 * p.2

/-- Signed area of a polygon. -/
def area (l : List (K × K)) : K := cyc cross2 l / 2

/-- Twice the signed area of a triangle; positive if it is listed counter-clockwise. -/
def orient (p q r : K × K) : K := (q.1 - p.1) * (r.2 - p.2) - (q.2 - p.2) * (r.1 - p.1)

/-- The edges of the path from `p` through the list. -/
def pathEdges : K × K → List (K × K) → List ((K × K) × (K × K))
  | _, [] => []
  | p, v :: vs => (p, v) :: pathEdges v vs

/-- The edges of the closed polygon. -/
def polyEdges (l : List (K × K)) : List ((K × K) × (K × K)) :=
  match l.getLast? with
  | none => []
  | some z => pathEdges z l

variable [LinearOrder K]

/-- Convex and listed counter-clockwise: no vertex is to the right of an edge. -/
def Convex (l : List (K × K)) : Prop := ∀ e ∈ polyEdges l, ∀ r ∈ l, 0 ≤ orient e.1 e.2 r

/-- `q` is in every half-plane that holds all points of `l`, that is, in the convex hull. -/
def InHull (l : List (K × K)) (q : K × K) : Prop :=
  ∀ a b c : K, (∀ p ∈ l, a * p.1 + b * p.2 ≤ c) → a * q.1 + b * q.2 ≤ c

/-- `q` is in the box. -/
def InBox (ll ur q : K × K) : Prop := ll.1 ≤ q.1 ∧ q.1 ≤ ur.1 ∧ ll.2 ≤ q.2 ∧ q.2 ≤ ur.2

end Verif.Spec
