import Mathlib.Data.List.Basic
import Mathlib.Algebra.Field.Rat
/-
Model of the clipping of a cell by a cell with sides on great circles.

Source: /repo/lib/libfrencutils/create_xgrid.c `clip_2dx2d_great_circle` 1495-1937; /repo/lib/libfrencutils/mosaic_util.c
`addEnd` 1095-1130, `addIntersect` 1134-1189, `sameNode` 1219-1225, `getNode` 1235-1252, `insertIntersect` 1306-1386,
`getFirstInbound` 1436-1451, `setInbound` 1485-1528.

Simplifications: the linked lists are lists (that the pool of nodes implements them is in Model/NodePool); only the
number of nodes taken from the pool is kept, `used`. The computations with coordinates are parameters: points are of an
arbitrary type, `same` is `samePoint`, `hitOf` is `line_intersect_2D_3D`, `insideOf` is `insidePolygon`, `convex` is
`gridArea > 0`. The first range check (1528-1549) is the parameter `apart`. The pool is not written by `copyNode` to
`firstIntersect` and `curIntersect` but for their contents, which are values here. Loops that do not end are `Err.loop`.
-/
namespace Verif.GcClip

variable {P K : Type} [DecidableEq P] [DecidableEq K] [LT K] [DecidableLT K] [Zero K] [One K]

inductive Err
  | full | notFound | loop | null | noNext | noReturn | left | notConvex
  deriving DecidableEq

/-- A node of `grid1List` or `grid2List`: `kind` is `intersect` (0 vertex, 1 intersection on a side, 2 vertex that is an
intersection). -/
structure Nd (P K : Type) where
  pt : P
  kind : Nat
  u : K
  inbound : Nat
  inside : Int
  deriving DecidableEq

/-- A node of `intersectList`: `u`, `subj_index`, `u_clip`, `clip_index`. -/
structure Ix (P K : Type) where
  pt : P
  u1 : K
  i1 : Nat
  u2 : K
  i2 : Nat
  inbound : Nat
  deriving DecidableEq

/-- What `line_intersect_2D_3D` returns. -/
structure Hit (P K : Type) where
  pt : P
  u1 : K
  u2 : K
  inbound : Nat

/-- `getNext`: one more node; the error is that of a pool that is used up. -/
def alloc (cap used : Nat) : Except Err Nat := if used + 1 > cap then .error .full else .ok (used + 1)

/-- The entry that `addIntersect` would add (1146-1157). -/
def entry (h : Hit P K) (is1 ie1 is2 ie2 : Nat) : Ix P K :=
  ⟨h.pt, if h.u1 = 1 then 0 else h.u1, if h.u1 = 1 then ie1 else is1,
    if h.u2 = 1 then 0 else h.u2, if h.u2 = 1 then ie2 else is2, h.inbound⟩

/-- 1162-1163: the entry is there already. -/
def known (l : List (Ix P K)) (e : Ix P K) : Bool :=
  l.any fun t => decide (t.u1 = e.u1 ∧ t.i1 = e.i1 ∨ t.u2 = e.u2 ∧ t.i2 = e.i2)

/-- The first node with the point (1315-1321, 1241-1249). -/
def findPt (l : List (Nd P K)) (p : P) : Option Nat := l.findIdx? fun n => decide (n.pt = p)

/-- 1347-1352: places behind `k`, in a circle, up to the first that is no intersection. -/
def nextPlain (l : List (Nd P K)) (k : Nat) : Option Nat :=
  ((List.range l.length).map fun o => (k + 1 + o) % l.length).find? fun m =>
    match l[m]? with
    | some n => decide (n.kind = 0)
    | none => false

/-- 1343-1359: what can be told of the ends. -/
def markEnds (l : List (Nd P K)) (k : Nat) (u2 : K) (inbound : Nat) : Except Err (List (Nd P K)) :=
  if u2 ≠ 0 ∧ u2 ≠ 1 then
    if inbound = 1 then
      match nextPlain l k with
      | none => .error .loop
      | some m => .ok (l.modify m fun n => { n with inside := 0 })
    else if inbound = 2 then .ok (l.modify k fun n => { n with inside := 0 })
    else .ok l
  else .ok l

/-- 1361-1371: number of intersections behind `k` that come before one with `u`. -/
def skip (l : List (Nd P K)) (k : Nat) (u : K) : Nat :=
  ((l.drop (k + 1)).takeWhile fun n => decide (n.kind = 1 ∧ ¬ u < n.u)).length

/-- `insertIntersect`, with the number of nodes in use. -/
def insertIntersect (cap used : Nat) (l : List (Nd P K)) (x : P) (u1 u2 : K) (inbound : Nat) (p : P) :
    Except Err (List (Nd P K) × Nat) :=
  match findPt l p with
  | none => .error .notFound
  | some k0 =>
    if u1 = 0 ∨ u1 = 1 then
      let k := if u1 = 1 then (k0 + 1) % l.length else k0
      .ok (l.modify k fun n => { n with kind := 2, inside := 1, u := 0, pt := x }, used)
    else do
      let l' ← markEnds l k0 u2 inbound
      let used' ← alloc cap used
      return (l'.insertIdx (k0 + 1 + skip l' k0 u1) ⟨x, 1, u1, inbound, 1⟩, used')

/-- The state of the loops 1625-1687. -/
structure St (P K : Type) where
  g1 : List (Nd P K)
  g2 : List (Nd P K)
  /-- `pt1`, `pt2` -/
  p1 : Nat → P
  p2 : Nat → P
  ix : List (Ix P K)
  used : Nat

def setPt (p : Nat → P) (i : Nat) (x : P) : Nat → P := fun n => if n = i then x else p n

/-- 1660-1664, 1674-1677: insertion at one end or between; `i` and `ip` are the ends of the side. -/
def insertSide (cap used : Nat) (l : List (Nd P K)) (p : Nat → P) (i ip : Nat) (x : P) (u u' : K) (inbound : Nat) :
    Except Err ((List (Nd P K) × Nat) × (Nat → P)) := do
  let r ← if u = 1 then insertIntersect cap used l x 0 u' inbound (p ip)
    else insertIntersect cap used l x u u' inbound (p i)
  return (r, if u = 1 then setPt p ip x else if u = 0 then setPt p i x else p)

/-- The node of `addIntersect` (1166-1172): the first is the head of the list. -/
def allocIx (cap : Nat) (st : St P K) : Except Err Nat := if st.ix.isEmpty then .ok st.used else alloc cap st.used

/-- 1645-1686 for a hit. -/
def addHit (cap n1 n2 : Nat) (st : St P K) (i1 i2 : Nat) (h : Hit P K) : Except Err (St P K) :=
  let e := entry h i1 ((i1 + 1) % n1) i2 ((i2 + 1) % n2)
  if known st.ix e then .ok st
  else do
    let used ← allocIx cap st
    let r1 ← insertSide cap used st.g1 st.p1 i1 ((i1 + 1) % n1) h.pt h.u1 h.u2 h.inbound
    let r2 ← insertSide cap r1.1.2 st.g2 st.p2 i2 ((i2 + 1) % n2) h.pt h.u2 h.u1 0
    return ⟨r1.1.1, r2.1.1, r1.2, r2.2, st.ix ++ [e], r2.1.2⟩

/-- One pair of sides (1629-1686). -/
def stepPair (hitOf : P → P → P → P → P → Option (Hit P K)) (cap n1 n2 : Nat) (st : St P K) (i : Nat × Nat) :
    Except Err (St P K) :=
  match hitOf (st.p1 i.1) (st.p1 ((i.1 + 1) % n1)) (st.p2 i.2) (st.p2 ((i.2 + 1) % n2)) (st.p2 ((i.2 + 2) % n2)) with
  | none => .ok st
  | some h => addHit cap n1 n2 st i.1 i.2 h

def pairs (n1 n2 : Nat) : List (Nat × Nat) := (List.range n1).flatMap fun i => (List.range n2).map fun j => (i, j)

/-- 1624-1687 -/
def allHits (hitOf : P → P → P → P → P → Option (Hit P K)) (cap n1 n2 : Nat) (st : St P K) : Except Err (St P K) :=
  (pairs n1 n2).foldlM (stepPair hitOf cap n1 n2) st

/-- `addEnd` for a list of points (`addNode` to `polyList`, and the lists of the cells, 1559-1560). -/
def addPt (same : P → P → Bool) (cap : Nat) (poly : List P × Nat) (p : P) : Except Err (List P × Nat) :=
  if poly.1.isEmpty then .ok ([p], poly.2)
  else if poly.1.any fun q => same q p then .ok poly
  else do
    let used ← alloc cap poly.2
    return (poly.1 ++ [p], used)

/-- Before and behind place `k` of the circle. -/
def after (l : List (Nd P K)) (k : Nat) : Option (Nd P K) := l[(k + 1) % l.length]?
def before (l : List (Nd P K)) (k : Nat) : Option (Nd P K) := l[(k + l.length - 1) % l.length]?

/-- `setInbound` -/
def setInbound (ix : List (Ix P K)) (l : List (Nd P K)) : Except Err (List (Ix P K)) :=
  ix.mapM fun e =>
    if e.inbound ≠ 0 then .ok e
    else match findPt l e.pt with
      | none => .error .notFound
      | some k =>
        match before l k, after l k with
        | some a, some b => .ok { e with inbound := if a.inside = 0 ∧ b.inside = 1 then 2 else 1 }
        | _, _ => .error .notFound

/-- `getFirstInbound` -/
def firstInbound (ix : List (Ix P K)) : Option (Ix P K) := ix.find? fun e => decide (e.inbound = 2)

/-- 1696-1712: the intersection at which the walk starts. -/
def startOf (ix : List (Ix P K)) (l : List (Nd P K)) : Except Err (Option (Ix P K)) :=
  if ix.length > 1 then
    match firstInbound ix with
    | some e => .ok (some e)
    | none => do
      let ix' ← setInbound ix l
      return firstInbound ix'
  else .ok none

/-- How the inner loop ends: back at the start, or at an intersection where the list is to be changed. -/
inductive Exit (P : Type)
  | home
  | switch (p : P)

/-- The polygon, with the nodes in use, and `nintersect`. -/
structure Walk (P : Type) where
  poly : List P × Nat
  left : Int

/-- 1775-1816; `k` is the place of `temp2`. -/
def inner (same : P → P → Bool) (cap : Nat) (l : List (Nd P K)) (first : P) : Nat → Nat → Walk P → Except Err (Exit P × Walk P)
  | 0, _, _ => .error .noNext
  | f + 1, k, w =>
    match l[k]?, after l k with
    | some n, some n3 =>
      if n.kind ≠ 0 then
        if n.pt = first then .ok (.home, w)
        else if n3.kind ≠ 0 ∨ n3.inside = 1 then do
          let poly ← addPt same cap w.poly n.pt
          inner same cap l first f ((k + 1) % l.length) ⟨poly, w.left - 1⟩
        else .ok (.switch n.pt, w)
      else do
        let poly ← addPt same cap w.poly n.pt
        inner same cap l first f ((k + 1) % l.length) ⟨poly, w.left⟩
    | _, _ => .error .null

/-- 1760-1842; `a` is the current list, `b` the other. -/
def outer (same : P → P → Bool) (cap : Nat) (first : P) : Nat → (a b : List (Nd P K)) → P → Walk P → Except Err (Walk P)
  | 0, _, _, _, _ => .error .noReturn
  | f + 1, a, b, cur, w =>
    match findPt a cur with
    | none => .error .null
    | some k => do
      let r ← inner same cap a first a.length ((k + 1) % a.length) w
      match r.1 with
      | .home => return r.2
      | .switch p =>
        if p = first then return r.2
        else
          let poly ← addPt same cap r.2.poly p
          outer same cap first f b a p ⟨poly, r.2.left - 1⟩

/-- 1717-1860: the polygon found by the walk, empty if there is none or it has less than three points. -/
def walk (same : P → P → Bool) (cap : Nat) (st : St P K) : Except Err (List P) := do
  match ← startOf st.ix st.g1 with
  | none => return []
  | some e =>
    match findPt st.g1 e.pt with
    | none => .error .notFound
    | some _ =>
      let poly ← addPt same cap ([], st.used) e.pt
      let w ← outer same cap e.pt st.ix.length st.g1 st.g2 e.pt ⟨poly, (st.ix.length : Int) - 1⟩
      if w.left > 0 then .error .left
      else if w.poly.1.length < 3 then return [] else return w.poly.1

/-- 1870-1899, 1902-1931: the whole cell, if all its vertices are inside. -/
def whole (n : Nat) (l : List (Nd P K)) : Option (List P) :=
  if n = (l.filter fun m => decide (m.kind ≠ 1 ∧ m.inside = 1)).length then some ((l.map (·.pt)).take n) else none

/-- 1559-1590: a list of vertices, with what is known of them. -/
def mkList (insideOf : P → Bool) (l : List P) : List (Nd P K) := l.map fun p => ⟨p, 0, 0, 0, if insideOf p then 1 else 0⟩

/-- 1552-1622: the state before the loops; the first node of each list is taken beforehand (1553-1556), then come
`firstIntersect` and `curIntersect`. -/
def start [Inhabited P] (same : P → P → Bool) (insideOf : P → List P → Bool) (convex : List P → Bool) (cap : Nat) (c1 c2 : List P) :
    Except Err (St P K) := do
  let l1 ← c1.foldlM (addPt same cap) ([], 4)
  let l2 ← c2.foldlM (addPt same cap) ([], l1.2)
  if !convex l1.1 || !convex l2.1 then .error .notConvex
  else
    let u ← alloc cap l2.2
    let u ← alloc cap u
    return ⟨mkList (insideOf · l2.1) l1.1, mkList (insideOf · l1.1) l2.1, fun i => l1.1.getD i default,
      fun i => l2.1.getD i default, [], u⟩

/-- `clip_2dx2d_great_circle` -/
def clip [Inhabited P] (same : P → P → Bool) (insideOf : P → List P → Bool) (convex : List P → Bool) (apart : Bool)
    (hitOf : P → P → P → P → P → Option (Hit P K)) (cap : Nat) (c1 c2 : List P) : Except Err (List P) :=
  if apart then .ok []
  else do
    let s0 ← start same insideOf convex cap c1 c2
    let st ← allHits hitOf cap s0.g1.length s0.g2.length s0
    let poly ← walk same cap st
    if poly ≠ [] then return poly
    else match whole s0.g1.length st.g1 with
      | some l => if l ≠ [] then return l else return (whole s0.g2.length st.g2).getD []
      | none => return (whole s0.g2.length st.g2).getD []

end Verif.GcClip
