import Verif.Model.NodePool
/-
Specification of the polygon lists: an abstract machine with lists instead of linked nodes.
-/
namespace Verif.Spec
open Verif.NodePool
variable {K : Type*} [Field K] [LinearOrder K] [IsStrictOrderedRing K]

/-- Two vertices coincide. -/
def Coincide (eps : K) (a b : Val K) : Prop := |a.x - b.x| ≤ eps ∧ |a.y - b.y| ≤ eps ∧ |a.z - b.z| ≤ eps

instance (eps : K) (a b : Val K) : Decidable (Coincide eps a b) := by unfold Coincide; infer_instance

/-- A request of a program: a new list, or a vertex for the list number `k`. -/
inductive Request (K : Type*)
  | newList
  | vertex (k : Nat) (v : Val K)

/-- The lists after a request; a vertex that coincides with one of the list is left out. -/
def addVertex (eps : K) (l : List (Val K)) (v : Val K) : List (Val K) :=
  if ∃ w ∈ l, Coincide eps w v then l else l ++ [v]

def afterRequest (eps : K) (s : List (List (Val K))) : Request K → List (List (Val K))
  | .newList => s ++ [[]]
  | .vertex k v => s.modify k (addVertex eps · v)

/-- Nodes in use: an empty list has one. -/
def nodesUsed (s : List (List (Val K))) : Nat := (s.map fun l => max 1 l.length).sum

/-- The vertex is for a list that exists. -/
def Possible (s : List (List (Val K))) : Request K → Prop
  | .newList => True
  | .vertex k _ => k < s.length

/-- The program itself: the pool and the first nodes of the lists. -/
def perform (cap : Nat) (eps : K) (st : Pool K × List Nat) : Request K → Except Err (Pool K × List Nat)
  | .newList =>
    match getNext cap st.1 with
    | .error e => .error e
    | .ok (i, p) => .ok (p, st.2 ++ [i])
  | .vertex k v =>
    match addEnd cap eps st.1 st.2[k]? v with
    | .error e => .error e
    | .ok p => .ok (p, st.2)

end Verif.Spec
