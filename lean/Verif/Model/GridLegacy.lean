import Mathlib.Analysis.SpecialFunctions.Trigonometric.Basic
import Mathlib.Algebra.Order.Round
/-
Model of the legacy generation of a one-dimensional supergrid.
Source: /repo/lib/libfrencutils/tool_util.c `get_legacy_grid_size` 538-562, `compute_grid_bound_legacy` 569-682.

`double` is the real numbers, `int` is unbounded. `cap` is MAX_GRID_LENGTH/2. The check against it is done at the end of
each region instead of at each cell: both end the program. With `avg_res = 0` the quotient is not a number and its
conversion to `int` undefined; with no cell at all the "c_cell" branch reads and writes outside the array. Both are the
outcome `Err.undef`.
-/
namespace Verif.GridLegacy

inductive Err
  | center | stretch | notIntegral | tooMany | undef

/-- `round`: to the nearest integer, halves away from zero. -/
noncomputable def cround (a : ℝ) : Int := if 0 ≤ a then ⌊a + 1 / 2⌋ else -⌊-a + 1 / 2⌋

/-- `tol`, 606. -/
noncomputable def tol : ℝ := 1 / 100000

/-- `avg_res`, `chg_res` from the sizes at the two ends of the region, 596-604. -/
noncomputable def avgRes (a b : ℝ) : ℝ := 1 / 2 * (a + b)
def chgRes (a b : ℝ) : ℝ := b - a

/-- Size at the far end of region `l`, with the stretching of the last region (596-604). -/
def farSize (nb : Nat) (dbnds : Nat → ℝ) (stretch : ℝ) (l : Nat) : ℝ :=
  if l + 2 = nb then stretch * dbnds (l + 1) else dbnds (l + 1)

/-- `del` of a T cell, 615. -/
noncomputable def tDel (a b : ℝ) (ncells : Int) (i : Nat) : ℝ :=
  avgRes a b - 1 / 2 * chgRes a b * Real.cos (Real.pi / ncells * (i + 1 / 2))

/-- `del` of a U cell, 634. -/
noncomputable def uDel (a b : ℝ) (ncells : Int) (i : Nat) : ℝ :=
  avgRes a b - 1 / 2 * chgRes a b * Real.cos (Real.pi / ncells * i)

/-- The loop 632-645 from `i` on, with `sum`; `lim` is `wid*(1.0 + tol)`. The first argument counts the rounds left. -/
noncomputable def uLoop (a b : ℝ) (ncells : Int) (lim : ℝ) : Nat → Nat → ℝ → List ℝ
  | 0, _, _ => []
  | f + 1, i, sum =>
    let d := uDel a b ncells (i + 1)
    if sum + d ≤ lim then d :: uLoop a b ncells lim f (i + 1) (sum + d) else []

/-- The U cells of one region, 629-645. `db` is `dbnds[l+1]`, `b` the size at the far end, which differs from it by the
stretching. With `ncells = 0` the cosine of an infinite number makes the comparison of 635 false. -/
noncomputable def uCells (wid a b db : ℝ) (ncells : Int) : List ℝ :=
  if ncells = 0 then [] else uLoop a b ncells (wid * (1 + tol)) 100000 0 (1 / 2 * a - 1 / 2 * db)

/-- The cells of one region, 594-656. -/
noncomputable def region (center : String) (wid a b db : ℝ) : Except Err (List ℝ) :=
  if avgRes a b = 0 then .error .undef
  else
    let an := wid / avgRes a b
    let ncells := cround an
    if center = "t_cell" then
      if |an - ncells| > tol then .error .notIntegral
      else .ok ((List.range ncells.toNat).map (tDel a b ncells))
    else
      let ds := uCells wid a b db ncells
      if |an - ds.length| > tol then .error .notIntegral
      else .ok ds

/-- The loop over the regions, 590-657: `delta` after `l` regions. -/
noncomputable def deltas (cap nb : Nat) (bnds dbnds : Nat → ℝ) (stretch : ℝ) (center : String) :
    Nat → Except Err (List ℝ)
  | 0 => .ok []
  | l + 1 => do
    let ds ← deltas cap nb bnds dbnds stretch center l
    let r ← region center |bnds (l + 1) - bnds l| (dbnds l) (farSize nb dbnds stretch l) (dbnds (l + 1))
    if (ds ++ r).length > cap then .error .tooMany
    else .ok (ds ++ r)

/-- `grid[k]` for "t_cell", 663-669. -/
noncomputable def tLine (b0 : ℝ) (ds : List ℝ) : Nat → ℝ
  | 0 => b0
  | k + 1 => tLine b0 ds k + 1 / 2 * ds.getD (k / 2) 0

/-- `grid[k]` for the other centrings, 663, 671-677. -/
noncomputable def cLine (b0 db0 : ℝ) (ds : List ℝ) : Nat → ℝ
  | 0 => b0
  | 1 => b0 + 1 / 2 * db0
  | k + 2 => cLine b0 db0 ds (k + 1) + 1 / 2 * ds.getD (k / 2) 0

/-- The lines, 659-678. -/
noncomputable def lines (center : String) (b0 db0 : ℝ) (ds : List ℝ) : Except Err (List ℝ) :=
  if center = "t_cell" then .ok ((List.range (2 * ds.length + 1)).map (tLine b0 ds))
  else if ds.length = 0 then .error .undef
  else .ok ((List.range (2 * ds.length + 1)).map (cLine b0 db0 ds))

/-- `compute_grid_bound_legacy`; the result is the array `grid`, its length is `grid_size + 1`. -/
noncomputable def computeGridBoundLegacy (cap nb : Nat) (bnds dbnds : Nat → ℝ) (stretch : ℝ) (center : String) :
    Except Err (List ℝ) :=
  if ¬ (center = "t_cell" ∨ center = "c_cell" ∨ nb = 2) then .error .center
  else if center = "t_cell" ∧ stretch ≠ 1 then .error .stretch
  else do
    let ds ← deltas cap nb bnds dbnds stretch center (nb - 1)
    lines center (bnds 0) (dbnds 0) ds

/-- `get_legacy_grid_size` -/
noncomputable def legacyGridSize (nb : Nat) (bnds dbnds : Nat → ℝ) : Int :=
  ((List.range (nb - 1)).map fun l => cround (|bnds (l + 1) - bnds l| / avgRes (dbnds l) (dbnds (l + 1)))).sum * 2

end Verif.GridLegacy
