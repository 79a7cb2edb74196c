/-
Model of the ranking sort of combine-ncc.

Source: /repo/src/land_utils/combine-ncc.F90: `rank_ascending` 360-376, `mergerank` 381-408,
`merge` 410-430 (line numbers of the subroutines).

The routines work in place: `merge` gets a copy `t` of the first part, while its second argument `b`
overlays the end of its output `c`. The model keeps one array `c` from which `b` is read and into which
the result is stored, so reading an overwritten element would show. (Passing overlapping arguments is
not allowed by the Fortran standard if one of them is changed; the model takes the statements in the
order in which they are written.)

Simplifications: a subarray passed by reference is a list of its own; `x` is a total function on
positions (only positions from the rank array are used); integers are unbounded. Positions count
from 1.
-/
namespace Verif.MergeRank

/-- First loop of `merge` (418-425), and then the second (426-428). `fuel` bounds the number of rounds;
`na + nb` is enough, as the proofs show. Indices count from 0: `a` is the copy `t`, `b(j)` is
`c(na+j)`, `k = i + j`. -/
def mergeTail (a : List Nat) : Nat → Nat → Nat → List Nat → List Nat
  | 0, _, _, c => c
  | fuel + 1, i, k, c =>
    match a[i]? with
    | none => c
    | some ai => mergeTail a fuel (i + 1) (k + 1) (c.set k ai)

def mergeLoop (x : Nat → Int) (a : List Nat) (nb : Nat) : Nat → Nat → Nat → List Nat → List Nat
  | 0, i, j, c => mergeTail a (a.length - i) i (i + j) c
  | fuel + 1, i, j, c =>
    match a[i]?, (if j < nb then c[a.length + j]? else none) with
    | some ai, some bj =>
      if x ai ≤ x bj then mergeLoop x a nb fuel (i + 1) j (c.set (i + j) ai)
      else mergeLoop x a nb fuel i (j + 1) (c.set (i + j) bj)
    | _, _ => mergeTail a (a.length - i) i (i + j) c

/-- `merge(x,t,na,a(na+1),nb,a,n)`. -/
def merge (x : Nat → Int) (t c : List Nat) : List Nat :=
  mergeLoop x t (c.length - t.length) c.length 0 0 c

/-- `mergerank` (381-408). -/
def mergerank (x : Nat → Int) (a : List Nat) : List Nat :=
  if _h : a.length < 2 then a
  else if a.length = 2 then
    match a with
    | [p, q] => if x p > x q then [q, p] else [p, q]
    | _ => a
  else
    let na := (a.length + 1) / 2
    let l := mergerank x (a.take na)
    let r := mergerank x (a.drop na)
    let c := l ++ r
    match l.getLast?, r.head? with
    | some p, some q => if x p > x q then merge x l c else c
    | _, _ => c
termination_by a.length
decreasing_by
  · simp only [List.length_take]; omega
  · simp only [List.length_drop]; omega

/-- `rank_ascending` (360-376) for an array of `n` elements. -/
def rankAscending (x : Nat → Int) (n : Nat) : List Nat :=
  mergerank x ((List.range n).map (· + 1))

end Verif.MergeRank
