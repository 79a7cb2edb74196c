import Verif.Model.GreatCircleClip
import Mathlib.Order.Defs.LinearOrder
/-
Specification for the clipping of cells with sides on great circles: how the intersections must lie in the list of a
cell, what is asked of the points that are found, and of the marks inside and outside.
-/
namespace Verif.Spec
open Verif.GcClip

variable {P K : Type}

/-- An intersection as seen from one cell: the point, its place on the side (0 is the first end), the number of the
side. -/
abbrev OnSide (P K : Type) := P × K × Nat

def side1 (ix : List (Ix P K)) : List (OnSide P K) := ix.map fun e => (e.pt, e.u1, e.i1)
def side2 (ix : List (Ix P K)) : List (OnSide P K) := ix.map fun e => (e.pt, e.u2, e.i2)

variable [LinearOrder K] [Zero K]

/-- The intersections strictly between the ends of side `i`. -/
def onRun (recs : List (OnSide P K)) (i : Nat) : List (P × K) :=
  (recs.filter fun r => decide (r.2.2 = i ∧ r.2.1 ≠ 0)).map fun r => (r.1, r.2.1)

/-- Vertex `i` is an intersection. -/
def atVertex (recs : List (OnSide P K)) (i : Nat) : Bool := recs.any fun r => decide (r.2.2 = i ∧ r.2.1 = 0)

/-- What matters of a node: a vertex with its point and whether it is an intersection, or an intersection with its point
and place. -/
def view (n : Nd P K) : Sum (P × Bool) (P × K) :=
  if n.kind = 1 then .inr (n.pt, n.u) else .inl (n.pt, decide (n.kind = 2))

/-- The list of a cell with `n` vertices `p`: vertex after vertex, behind each the intersections on the side that begins
there, in the order of their places, none missing and none more than once. Vertices that are intersections are marked and
have its point. -/
structure Placed (n : Nat) (p : Nat → P) (recs : List (OnSide P K)) (l : List (Nd P K)) : Prop where
  sides : ∀ r ∈ recs, r.2.2 < n
  moved : ∀ r ∈ recs, r.2.1 = 0 → p r.2.2 = r.1
  kinds : ∀ m ∈ l, m.kind ≤ 2
  lists : ∃ runs : Nat → List (P × K),
    l.map view = (List.range n).flatMap (fun i => .inl (p i, atVertex recs i) :: (runs i).map .inr) ∧
    ∀ i < n, (runs i).Pairwise (fun a b => a.2 ≤ b.2) ∧ (runs i).Perm (onRun recs i)

/-- The vertices are different points, so are the intersections, and an intersection is a vertex only if it is
said to be at this end. -/
structure Fresh (n : Nat) (p : Nat → P) (recs : List (OnSide P K)) : Prop where
  vertices : ∀ i < n, ∀ j < n, p i = p j → i = j
  points : (recs.map (·.1)).Nodup
  apart : ∀ r ∈ recs, ∀ i < n, r.1 = p i → r.2.1 = 0 ∧ r.2.2 = i

variable [One K] [DecidableEq P]

/-- A state that the loops over the pairs of sides come to. -/
def Reach (hitOf : P → P → P → P → P → Option (Hit P K)) (cap n1 n2 : Nat) (s0 st : St P K) : Prop :=
  ∃ ps rest, pairs n1 n2 = ps ++ rest ∧ ps.foldlM (stepPair hitOf cap n1 n2) s0 = .ok st

/-- The place of a hit on side `i` of a cell with `n` vertices: the second end is the first end of the next side. -/
def place (n i : Nat) (u : K) : K × Nat := if u = 1 then (0, (i + 1) % n) else (u, i)

/-- In state `s` the sides `i.1` and `i.2` of the cells hit each other in `h`. -/
def HitIn (hitOf : P → P → P → P → P → Option (Hit P K)) (n1 n2 : Nat) (s : St P K) (i : Nat × Nat) (h : Hit P K) : Prop :=
  hitOf (s.p1 i.1) (s.p1 ((i.1 + 1) % n1)) (s.p2 i.2) (s.p2 ((i.2 + 1) % n2)) (s.p2 ((i.2 + 2) % n2)) = some h

/-- A node is inside the other cell or on its boundary. -/
def Within (n : Nd P K) : Prop := n.kind ≠ 0 ∨ n.inside = 1

/-- The marks fit together: no side leads from inside to outside without an intersection, at an intersection at
least one of the two boundaries goes on inside, and where the first cell is said to come in it goes on inside. -/
structure Consistent (st : St P K) : Prop where
  one : ∀ l, l = st.g1 ∨ l = st.g2 → ∀ k a b, l[k]? = some a → after l k = some b → a.kind = 0 → a.inside = 1 → Within b
  two : ∀ k1 k2 a b a' b', st.g1[k1]? = some a → st.g2[k2]? = some b → a.pt = b.pt → a.kind ≠ 0 → b.kind ≠ 0 →
    after st.g1 k1 = some a' → after st.g2 k2 = some b' → Within a' ∨ Within b'
  start : ∀ e ∈ st.ix, e.inbound = 2 → ∀ k a b, st.g1[k]? = some a → a.pt = e.pt → after st.g1 k = some b → Within b

end Verif.Spec
