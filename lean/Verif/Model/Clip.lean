import Mathlib.Algebra.Order.Field.Basic
/-
Model of polygon clipping.

Source: /repo/lib/libfrencutils/create_xgrid.c `clip` 1175-1274, `clip_2dx2d` 1282-1357, `pimod` 1359-1365,
`inside_edge` 2358-2367.

Simplifications: numbers are an ordered field; the coordinate arrays with their length are a list of
points. A write beyond `MV` vertices (create_xgrid.h:31) and an empty input polygon (which reads element -1)
are the result `none`; the arrays for the result are taken to have `MV` elements too, as in the callers.
-/
namespace Verif.Clip

variable {K : Type} [Field K] [LinearOrder K]

/-- A vertex: longitude, latitude. -/
abbrev Pt (K : Type) := K × K

/-- The loop over the vertices in one pass (1186-1202 and the same in the other passes; 1321-1347):
`prev` is the last vertex seen, `inside prev` is `inside_last`. -/
def go (inside : Pt K → Bool) (cross : Pt K → Pt K → Pt K) : Pt K → List (Pt K) → List (Pt K)
  | _, [] => []
  | prev, v :: vs =>
    (if inside v ≠ inside prev then [cross prev v] else []) ++ (if inside v then [v] else []) ++
      go inside cross v vs

/-- One pass, starting with the last vertex as the previous one (1183-1185). -/
def pass (inside : Pt K → Bool) (cross : Pt K → Pt K → Pt K) (l : List (Pt K)) : List (Pt K) :=
  match l.getLast? with
  | none => []
  | some z => go inside cross z l

/-- The number of vertices the arrays hold. -/
def MV : Nat := 50

def fits (l : List (Pt K)) : Option (List (Pt K)) := if l.length ≤ MV then some l else none

/-- The intersection with a meridian (1190-1191, 1212-1214). -/
def crossX (c : K) (p v : Pt K) : Pt K := (c, p.2 + (c - p.1) * (v.2 - p.2) / (v.1 - p.1))

/-- The intersection with a parallel (1235-1236, 1257-1258). -/
def crossY (c : K) (p v : Pt K) : Pt K := (p.1 + (c - p.2) * (v.1 - p.1) / (v.2 - p.2), c)

/-- LEFT 1183-1203. -/
def left (c : K) (l : List (Pt K)) : List (Pt K) := pass (fun p => decide (p.1 ≥ c)) (crossX c) l
/-- RIGHT 1206-1227. -/
def right (c : K) (l : List (Pt K)) : List (Pt K) := pass (fun p => decide (p.1 ≤ c)) (crossX c) l
/-- BOTTOM 1230-1249. -/
def bottom (c : K) (l : List (Pt K)) : List (Pt K) := pass (fun p => decide (p.2 ≥ c)) (crossY c) l
/-- TOP 1252-1272. -/
def top (c : K) (l : List (Pt K)) : List (Pt K) := pass (fun p => decide (p.2 ≤ c)) (crossY c) l

/-- `clip`: `ll` and `ur` are the corners of the box. -/
def clip (l : List (Pt K)) (ll ur : Pt K) : Option (List (Pt K)) :=
  if l = [] then none
  else do
    let a ← fits (left ll.1 l)
    if a = [] then return []
    let b ← fits (right ur.1 a)
    if b = [] then return []
    let c ← fits (bottom ll.2 b)
    if c = [] then return []
    fits (top ur.2 c)

/-! ### clip_2dx2d -/

/-- `product` of `inside_edge` (2363): edge from `a` to `b`. -/
def product (a b p : Pt K) : K := (p.1 - a.1) * (b.2 - a.2) + (a.1 - b.1) * (p.2 - a.2)

/-- `inside_edge` (2358-2367), `small` is 1e-12. -/
def insideEdge (small : K) (a b p : Pt K) : Bool := decide (product a b p ≤ small)

/-- `determ` (1336), for the edge `a b` of the clipping polygon and the edge `p v` of the subject. -/
def determ (a b p v : Pt K) : K := (b.2 - a.2) * (v.1 - p.1) - (v.2 - p.2) * (b.1 - a.1)

/-- The intersection (1330-1342). -/
def crossLine (a b p v : Pt K) : Pt K :=
  let dy1 := v.2 - p.2
  let dy2 := b.2 - a.2
  let dx1 := v.1 - p.1
  let dx2 := b.1 - a.1
  let ds1 := p.2 * v.1 - v.2 * p.1
  let ds2 := a.2 * b.1 - b.2 * a.1
  ((dx2 * ds1 - dx1 * ds2) / determ a b p v, (dy2 * ds1 - dy1 * ds2) / determ a b p v)

/-- Some crossing of the pass is refused as parallel (1337-1340), `eps` is 1e-30. -/
def parallel (small eps : K) (a b : Pt K) : Pt K → List (Pt K) → Bool
  | _, [] => false
  | prev, v :: vs =>
    (insideEdge small a b v != insideEdge small a b prev && decide (|determ a b prev v| < eps)) ||
      parallel small eps a b v vs

/-- The results of `clip_2dx2d` besides a polygon. -/
inductive Fail where
  | parallel
  | oob
  deriving DecidableEq

/-- One round of the loop over the edges (1314-1349). -/
def edgePass (small eps : K) (a b : Pt K) (l : List (Pt K)) : Except Fail (List (Pt K)) :=
  match l.getLast? with
  | none => .ok []
  | some z =>
    if parallel small eps a b z l then .error .parallel
    else
      let r := go (insideEdge small a b) (crossLine a b) z l
      if r.length ≤ MV then .ok r else .error .oob

/-- The loop over the edges (1312-1355); the return with 0 vertices skips the rest. -/
def edges (small eps : K) : Pt K → List (Pt K) → List (Pt K) → Except Fail (List (Pt K))
  | _, [], l => .ok l
  | a, b :: bs, l => do
    let r ← edgePass small eps a b l
    if r = [] then return []
    edges small eps b bs r

/-- `pimod` (1359-1365) for one value. -/
def pimod1 (pi x : K) : K := if x < -pi then x + 2 * pi else if x > pi then x - 2 * pi else x

/-- `pimod` of all longitudes. -/
def pimod (pi : K) (l : List (Pt K)) : List (Pt K) := l.map fun p => (pimod1 pi p.1, p.2)

/-- `clip_2dx2d`: `l1` is clipped to `l2` (1282-1357). -/
def clip2d (pi small eps : K) (l1 l2 : List (Pt K)) : Except Fail (List (Pt K)) :=
  if l1.length > MV ∨ l2.length > MV then .error .oob
  else
    let shift := l1.any fun p => decide (p.1 > 2 * pi) || decide (p.1 < 0)
    let s := if shift then pimod pi l1 else l1
    let t := if shift then pimod pi l2 else l2
    match l1.getLast?, t.getLast? with
    | some _, some z => edges small eps z t s
    | _, _ => .error .oob

end Verif.Clip
