import Mathlib.Algebra.Order.Field.Basic
import Mathlib.Algebra.Order.Group.Abs
/-
Model of the linked lists of polygon nodes.
Source: /repo/lib/libfrencutils/mosaic_util.h 37-46 and mosaic_util.c `rewindList` 1053-1061, `getNext` 1063-1078,
`initNode` 1081-1093, `addEnd` 1095-1130, `addIntersect` 1134-1189, `length` 1192-1205, `samePoint` 1208-1214.

A pointer to a node is its index in `nodeList`; `NULL` is `none`. `cap` is MAXNODELIST (100), `eps` is EPSLN10. `double`
is an ordered field. A loop along `Next` that does not end is the outcome `Err.loop`: more than `cap` steps mean that the
list has a cycle, since only nodes of the pool are linked.
-/
namespace Verif.NodePool
variable {K : Type*} [Field K] [LinearOrder K] [IsStrictOrderedRing K]

/-- What is passed to `addEnd`. -/
structure Val (K : Type*) where
  x : K
  y : K
  z : K
  intersect : Int
  u : K
  inbound : Int
  inside : Int
deriving DecidableEq

/-- `struct Node` -/
structure Node (K : Type*) where
  val : Val K
  uClip : K
  subjIndex : Int
  clipIndex : Int
  initialized : Bool
  next : Option Nat

inductive Err
  | null | full | loop | notFound
deriving DecidableEq

/-- `nodeList` and `curListPos` -/
structure Pool (K : Type*) where
  node : Nat → Node K
  pos : Nat

/-- `initNode`: `u_clip`, `subj_index` and `clip_index` are left as they are. -/
def initNode (n : Node K) : Node K :=
  { n with val := ⟨0, 0, 0, 0, 0, 0, 0⟩, initialized := false, next := none }

/-- `rewindList` -/
def rewindList (cap : Nat) (p : Pool K) : Pool K :=
  ⟨fun n => if n < cap then initNode (p.node n) else p.node n, 0⟩

/-- `getNext` -/
def getNext (cap : Nat) (p : Pool K) : Except Err (Nat × Pool K) :=
  if p.pos + 1 > cap then .error .full else .ok (p.pos, { p with pos := p.pos + 1 })

def Pool.set (p : Pool K) (i : Nat) (n : Node K) : Pool K :=
  { p with node := fun j => if j = i then n else p.node j }

/-- `samePoint` -/
def samePoint (eps : K) (a b : Val K) : Bool :=
  if |a.x - b.x| > eps ∨ |a.y - b.y| > eps ∨ |a.z - b.z| > eps then false else true

/-- The nodes that are met along `Next` from node `i`. -/
def nodesFrom (p : Pool K) : Nat → Nat → Option (List Nat)
  | 0, _ => none
  | f + 1, i =>
    match (p.node i).next with
    | none => some [i]
    | some j => (nodesFrom p f j).map (i :: ·)

/-- `addEnd` -/
def addEnd (cap : Nat) (eps : K) (p : Pool K) (list : Option Nat) (v : Val K) : Except Err (Pool K) :=
  match list with
  | none => .error .null
  | some h =>
    if (p.node h).initialized then
      match nodesFrom p cap h with
      | none => .error .loop
      | some l =>
        if l.any fun i => samePoint eps (p.node i).val v then .ok p
        else do
          let (t, p) ← getNext cap p
          let last := l.getLast?.getD h
          let p := p.set last { p.node last with next := some t }
          .ok (p.set t { p.node t with val := v, initialized := true })
    else .ok (p.set h { p.node h with val := v, initialized := true })

/-- `addIntersect`: the flag tells whether the point was added. `i1` and `i2` are the pairs `is1, ie1` and `is2, ie2`. -/
def addIntersect (cap : Nat) (p : Pool K) (list : Option Nat) (x y z : K) (intersect : Int) (u1 u2 : K) (inbound : Int)
    (i1 i2 : Int × Int) : Except Err (Bool × Pool K) :=
  match list with
  | none => .error .null
  | some h =>
    let (u1c, i1c) := if u1 = 1 then (0, i1.2) else (u1, i1.1)
    let (u2c, i2c) := if u2 = 1 then (0, i2.2) else (u2, i2.1)
    let fill (n : Node K) : Node K :=
      { n with val := ⟨x, y, z, intersect, u1c, inbound, 0⟩, uClip := u2c, subjIndex := i1c, clipIndex := i2c,
               initialized := true }
    if (p.node h).initialized then
      match nodesFrom p cap h with
      | none => .error .loop
      | some l =>
        if l.any fun i => ((p.node i).val.u = u1c ∧ (p.node i).subjIndex = i1c) ∨
            ((p.node i).uClip = u2c ∧ (p.node i).clipIndex = i2c) then .ok (false, p)
        else do
          let (t, p) ← getNext cap p
          let last := l.getLast?.getD h
          let p := p.set last { p.node last with next := some t }
          .ok (true, p.set t (fill (p.node t)))
    else .ok (true, p.set h (fill (p.node h)))

/-- `length`: nodes up to the first that is not initialised. -/
def length (cap : Nat) (p : Pool K) (list : Option Nat) : Except Err Nat :=
  match list with
  | none => .ok 0
  | some h =>
    match nodesFrom p cap h with
    | none => .error .loop
    | some l => .ok (l.takeWhile fun i => (p.node i).initialized).length

end Verif.NodePool
