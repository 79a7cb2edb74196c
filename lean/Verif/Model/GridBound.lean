import Verif.Model.Interp
/-
Model of the generation of a one-dimensional supergrid from bounds.
Source: /repo/lib/libfrencutils/tool_util.c `compute_grid_bound` 479-536.

`double` is an ordered field, `int` is unbounded. The array `npts` is a function on indices, read below `nb - 1`.
-/
namespace Verif.GridBound
open Verif.Interp
variable {K : Type} [Field K] [LinearOrder K]

inductive Err
  | center | odd | spline (f : Interp.Fail)

/-- `refine`, 485-490. -/
def refine (center : String) : Option Int :=
  if center = "none" then some 1
  else if center = "t_cell" ∨ center = "c_cell" then some 2
  else none

/-- `n` after `i` rounds of the loop 495-499. Division of C rounds towards zero. -/
def cellsTo (r : Int) (npts : Nat → Int) : Nat → Int
  | 0 => 0
  | i + 1 => cellsTo r npts i + (npts i).tdiv r

/-- The array `grid`, 510-528, from the lines `tmp` of the spline; `n` is the number of intervals. -/
def placeLines (center : String) (n : Nat) (tmp : Nat → K) : List K :=
  if center = "none" then (List.range (n + 1)).map tmp
  else
    let odd : Nat → K := fun i => 1 / 2 * (tmp i + tmp (i + 1))
    if center = "t_cell" then
      (List.range (2 * n + 1)).map fun k => if k % 2 = 0 then tmp (k / 2) else odd (k / 2)
    else
      (List.range (2 * n + 1)).map fun k =>
        if k % 2 = 1 then odd (k / 2)
        else if k = 2 * n then tmp n
        else if k = 0 then tmp 0
        else 1 / 2 * (odd (k / 2 - 1) + odd (k / 2))

/-- `compute_grid_bound`; the result is the array `grid`, its length is `grid_size + 1`. -/
def computeGridBound (nb : Nat) (bnds : Nat → K) (npts : Nat → Int) (center : String) : Except Err (List K) :=
  match refine center with
  | none => .error .center
  | some r =>
    if (List.range (nb - 1)).any (fun i => (npts i).tmod r ≠ 0) then .error .odd
    else
      let n := cellsTo r npts (nb - 1)
      match cubicSplineSp nb (fun i => ((cellsTo r npts i + 1 : Int) : K)) bnds (n + 1).toNat
          (fun i => (i : K) + 1) with
      | .error f => .error (.spline f)
      | .ok tmp => .ok (placeLines center n.toNat (fun i => tmp.getD i 0))

end Verif.GridBound
