import Verif.Lemmas.Conserve
/-
C27: first order conservative interpolation.

`overlap i j cells` are the exchange cells of target cell `(i, j)`; the theorems say what the output is in
terms of sums over them.
-/
namespace Verif
open Conserve Spec

variable {K : Type} [Field K] [LinearOrder K] [IsStrictOrderedRing K]

/-- The exchange cells of target cell `(i, j)`. -/
def overlap (i j : Nat) (cells : List (XCell K)) : List (XCell K) :=
  cells.filter fun c => decide (c.i2 = i ∧ c.j2 = j)

/-- All target indices are in an `nx` by `ny` grid. -/
def InGrid (nx ny : Nat) (cells : List (XCell K)) : Prop := ∀ c ∈ cells, c.i2 < nx ∧ c.j2 < ny

omit [IsStrictOrderedRing K] in
theorem overlap_flat {nx ny i : Nat} (j : Nat) {cells : List (XCell K)} (hc : InGrid nx ny cells) (hi : i < nx) :
    (cells.filter fun c => decide (c.j2 * nx + c.i2 = j * nx + i)) = overlap i j cells := by
  unfold overlap
  apply List.filter_congr
  intro c hcm
  rw [decide_eq_decide]
  exact rowMajor_inj (hc c hcm).1 hi

omit [IsStrictOrderedRing K] in
theorem dstArea_eq {nx ny i : Nat} (j : Nat) {cells : List (XCell K)} (hc : InGrid nx ny cells) (hi : i < nx) :
    dstArea nx cells (j * nx + i) = total (fun c => c.area) (overlap i j cells) := by
  unfold dstArea
  rw [foldl_addAt (fun c : XCell K => c.j2 * nx + c.i2) (fun c => c.area), overlap_flat j hc hi, zero_add]

/-- C27, library routine. The value at a target cell is the area-weighted mean of the source values that
overlap it, and 0 if nothing overlaps it (no division). -/
theorem C27_mean (nx1 nx2 ny2 : Nat) (cells : List (XCell K)) (src : Nat → K) (hc : InGrid nx2 ny2 cells)
    (i j : Nat) (hi : i < nx2) :
    conserveInterp nx1 nx2 cells src (j * nx2 + i) =
      if overlap i j cells = [] then 0
      else wmean (fun c => c.area) (fun c => src (c.j1 * nx1 + c.i1)) (overlap i j cells) := by
  unfold conserveInterp
  rw [foldl_addAt (fun c : XCell K => c.j2 * nx2 + c.i2)
    (fun c => src (c.j1 * nx1 + c.i1) * (c.area / dstArea nx2 cells (c.j2 * nx2 + c.i2))),
    overlap_flat j hc hi, zero_add]
  split
  · rename_i h; rw [h]; rfl
  · unfold wmean
    rw [div_eq_mul_inv, ← total_mul_right]
    apply total_congr
    intro c hcm
    have hm := List.mem_filter.1 hcm
    have h2 : c.i2 = i ∧ c.j2 = j := by simpa using hm.2
    rw [h2.1, h2.2, dstArea_eq j hc hi]
    ring

/-- C27. Constants are preserved, and values stay in the range of the contributing source values. -/
theorem C27_range (nx1 nx2 ny2 : Nat) (cells : List (XCell K)) (src : Nat → K) (hc : InGrid nx2 ny2 cells)
    (hpos : ∀ c ∈ cells, 0 < c.area) (i j : Nat) (hi : i < nx2) (hne : overlap i j cells ≠ []) :
    (∀ k, (∀ c ∈ overlap i j cells, src (c.j1 * nx1 + c.i1) = k) →
      conserveInterp nx1 nx2 cells src (j * nx2 + i) = k) ∧
    (∀ lo hi, (∀ c ∈ overlap i j cells, lo ≤ src (c.j1 * nx1 + c.i1) ∧ src (c.j1 * nx1 + c.i1) ≤ hi) →
      lo ≤ conserveInterp nx1 nx2 cells src (j * nx2 + i) ∧
      conserveInterp nx1 nx2 cells src (j * nx2 + i) ≤ hi) := by
  have hp : ∀ c ∈ overlap i j cells, 0 < c.area := fun c h => hpos c (List.mem_filter.1 h).1
  have ht : 0 < total (fun c : XCell K => c.area) (overlap i j cells) := total_pos hp hne
  rw [C27_mean nx1 nx2 ny2 cells src hc i j hi, if_neg hne]
  exact ⟨fun k hk => wmean_const hk ht, fun lo hi h => wmean_bounds (fun c h => le_of_lt (hp c h)) h ht⟩

/-- C27. The integral over the target grid, with the overlap areas, is the integral over the exchange
cells of the source values. -/
theorem C27_conserves (nx1 nx2 ny2 : Nat) (cells : List (XCell K)) (src : Nat → K)
    (hc : InGrid nx2 ny2 cells) (hpos : ∀ c ∈ cells, 0 < c.area) :
    gridSum nx2 ny2 (fun i j => conserveInterp nx1 nx2 cells src (j * nx2 + i) *
        total (fun c => c.area) (overlap i j cells)) =
      total (fun c => src (c.j1 * nx1 + c.i1) * c.area) cells := by
  rw [← gridSum_bucket nx2 ny2 cells (fun c => c.i2) (fun c => c.j2)
    (fun c => src (c.j1 * nx1 + c.i1) * c.area) hc]
  apply gridSum_congr
  intro i j hi _
  rw [C27_mean nx1 nx2 ny2 cells src hc i j hi]
  show _ = total _ (overlap i j cells)
  by_cases hne : overlap i j cells = []
  · rw [if_pos hne, hne]; simp [total]
  · rw [if_neg hne]
    have hp : ∀ c ∈ overlap i j cells, 0 < c.area := fun c h => hpos c (List.mem_filter.1 h).1
    have ht : 0 < total (fun c : XCell K => c.area) (overlap i j cells) := total_pos hp hne
    unfold wmean
    field_simp

/-! ### fregrid -/

section fregrid
variable (cf : Conf K) (s : Src K)

/-- The exchange cells of target cell `(i, j)` whose source value is used: all if the variable has no
missing value, else those that are not missing. -/
def validOverlap (i j : Nat) (cells : List (XCell K)) : List (XCell K) :=
  (overlap i j cells).filter fun c => !cf.hasMissing || decide (srcVal cf s c ≠ cf.missing)

omit [IsStrictOrderedRing K] in
theorem valid_flat {ny i : Nat} (j : Nat) {cells : List (XCell K)} (hc : InGrid cf.nx2 ny cells)
    (hi : i < cf.nx2) :
    ((cells.filter (used cf s)).filter fun c => decide (n0 cf c = j * cf.nx2 + i)) =
      validOverlap cf s i j cells := by
  rw [List.filter_filter]
  unfold validOverlap overlap
  rw [List.filter_filter]
  apply List.filter_congr
  intro c hcm
  rw [Bool.and_comm]
  congr 1
  rw [decide_eq_decide]
  exact rowMajor_inj (hc c hcm).1 hi

/-- C27, fregrid. Without the sum method and the target option, the output is the mean of the valid
exchange values, the missing value where there are none, and 0 where their weights vanish. The weight of
an exchange cell is its area, times the weight and the area fraction of the source cell if there are such. -/
theorem C27_fregrid (ny2 : Nat) (cells : List (XCell K)) (hc : InGrid cf.nx2 ny2 cells)
    (hs : cf.sum = false) (ht : cf.target = false) (out : Nat → K)
    (h : scalarInterp cf s cells = some out) (i j : Nat) (hi : i < cf.nx2) :
    out (j * cf.nx2 + i) =
      if validOverlap cf s i j cells = [] then cf.missing
      else if total (xArea cf) (validOverlap cf s i j cells) > 0 then
        wmean (xArea cf) (xVal cf s) (validOverlap cf s i j cells)
      else 0 := by
  unfold scalarInterp at h
  split at h
  · cases h
  · have := Option.some.inj h
    subst this
    obtain ⟨e1, e2, e3⟩ := accumulate_spec cf s cells (j * cf.nx2 + i)
    rw [valid_flat cf s j hc hi] at e1 e2 e3
    unfold finish
    simp only [hs, ht, Bool.false_eq_true, if_false]
    rw [e1, e2]
    by_cases hne : validOverlap cf s i j cells = []
    · have hm : ¬ (accumulate cf s cells).miss (j * cf.nx2 + i) = true := fun h => (e3.1 h) hne
      rw [if_pos hne, if_neg hm, hne, if_neg (by simp [total])]
    · rw [if_neg hne, if_pos (e3.2 hne)]
      rfl

/-- C27, fregrid, simplest case spelled out: order 1 without weights and cell measures. -/
theorem C27_fregrid_plain (ny2 : Nat) (cells : List (XCell K)) (hc : InGrid cf.nx2 ny2 cells)
    (ho : cf.order2 = false) (hw : cf.weight = none) (hme : cf.measures = none)
    (hs : cf.sum = false) (ht : cf.target = false) (hpos : ∀ c ∈ cells, 0 < c.area) :
    ∃ out, scalarInterp cf s cells = some out ∧ ∀ i j, i < cf.nx2 →
      out (j * cf.nx2 + i) =
        let valid := (overlap i j cells).filter fun c =>
          !cf.hasMissing || decide (s.data c.t1 (c.j1 * cf.nx1 c.t1 + c.i1) ≠ cf.missing)
        if valid = [] then cf.missing
        else wmean (fun c => c.area) (fun c => s.data c.t1 (c.j1 * cf.nx1 c.t1 + c.i1)) valid := by
  have hv : ∀ c, xVal cf s c = s.data c.t1 (c.j1 * cf.nx1 c.t1 + c.i1) := by
    intro c; simp [xVal, srcVal, ho, n1]
  have ha : ∀ c, xArea cf c = c.area := by
    intro c; simp [xArea, hw, hs, hme]
  have hsv : ∀ c, srcVal cf s c = s.data c.t1 (c.j1 * cf.nx1 c.t1 + c.i1) := by
    intro c; simp [srcVal, ho, n1]
  have hne : cells.any (areaError cf s) = false := by
    rw [List.any_eq_false]
    intro c _
    simp [areaError, hme]
  refine ⟨finish cf cells (accumulate cf s cells), by unfold scalarInterp; rw [hne]; rfl, ?_⟩
  intro i j hi
  rw [C27_fregrid cf s ny2 cells hc hs ht (finish cf cells (accumulate cf s cells)) (by unfold scalarInterp; rw [hne]; rfl) i j hi]
  have e1 : validOverlap cf s i j cells = (overlap i j cells).filter fun c =>
      !cf.hasMissing || decide (s.data c.t1 (c.j1 * cf.nx1 c.t1 + c.i1) ≠ cf.missing) := by
    unfold validOverlap; simp only [hsv]
  have e2 : (xArea cf) = fun c : XCell K => c.area := funext ha
  have e3 : (xVal cf s) = fun c => s.data c.t1 (c.j1 * cf.nx1 c.t1 + c.i1) := funext hv
  rw [e1, e2, e3]
  simp only []
  by_cases hz : ((overlap i j cells).filter fun c =>
      !cf.hasMissing || decide (s.data c.t1 (c.j1 * cf.nx1 c.t1 + c.i1) ≠ cf.missing)) = []
  · rw [if_pos hz, if_pos hz]
  · rw [if_neg hz, if_neg hz, if_pos]
    exact total_pos (fun c hcm => hpos c (List.mem_filter.1 (List.mem_filter.1 hcm).1).1) hz

/-- C27, fregrid: constants and bounds, for any order, weights and measures that are not negative. -/
theorem C27_fregrid_range (ny2 : Nat) (cells : List (XCell K)) (hc : InGrid cf.nx2 ny2 cells)
    (hs : cf.sum = false) (ht : cf.target = false) (out : Nat → K)
    (h : scalarInterp cf s cells = some out) (hpos : ∀ c ∈ cells, 0 ≤ xArea cf c) (i j : Nat)
    (hi : i < cf.nx2) (hcov : total (xArea cf) (validOverlap cf s i j cells) > 0) :
    (∀ k, (∀ c ∈ validOverlap cf s i j cells, xVal cf s c = k) → out (j * cf.nx2 + i) = k) ∧
    (∀ lo hi, (∀ c ∈ validOverlap cf s i j cells, lo ≤ xVal cf s c ∧ xVal cf s c ≤ hi) →
      lo ≤ out (j * cf.nx2 + i) ∧ out (j * cf.nx2 + i) ≤ hi) := by
  have hne : validOverlap cf s i j cells ≠ [] := by
    intro e; rw [e] at hcov; simp [total] at hcov
  rw [C27_fregrid cf s ny2 cells hc hs ht out h i j hi, if_neg hne, if_pos hcov]
  refine ⟨fun k hk => wmean_const hk hcov, fun lo hi h => wmean_bounds ?_ h hcov⟩
  intro c hcm
  exact hpos c (List.mem_filter.1 (List.mem_filter.1 hcm).1).1

/-- C27, fregrid: conservation over the valid exchange cells. -/
theorem C27_fregrid_conserves (ny2 : Nat) (cells : List (XCell K)) (hc : InGrid cf.nx2 ny2 cells)
    (hs : cf.sum = false) (ht : cf.target = false) (out : Nat → K)
    (h : scalarInterp cf s cells = some out) (hpos : ∀ c ∈ cells, 0 ≤ xArea cf c) :
    gridSum cf.nx2 ny2 (fun i j => out (j * cf.nx2 + i) * total (xArea cf) (validOverlap cf s i j cells)) =
      total (fun c => xVal cf s c * xArea cf c)
        (cells.filter fun c => !cf.hasMissing || decide (srcVal cf s c ≠ cf.missing)) := by
  rw [← gridSum_bucket cf.nx2 ny2 (cells.filter fun c => !cf.hasMissing || decide (srcVal cf s c ≠ cf.missing))
    (fun c => c.i2) (fun c => c.j2) (fun c => xVal cf s c * xArea cf c)
    (fun c hcm => hc c (List.mem_filter.1 hcm).1)]
  apply gridSum_congr
  intro i j hi _
  rw [C27_fregrid cf s ny2 cells hc hs ht out h i j hi]
  have e : ((cells.filter fun c => !cf.hasMissing || decide (srcVal cf s c ≠ cf.missing)).filter
      fun c => decide (c.i2 = i ∧ c.j2 = j)) = validOverlap cf s i j cells := by
    unfold validOverlap overlap
    rw [List.filter_filter, List.filter_filter]
    apply List.filter_congr
    intro c _
    rw [Bool.and_comm]
  rw [e]
  by_cases hne : validOverlap cf s i j cells = []
  · rw [if_pos hne, hne]; simp [total]
  · rw [if_neg hne]
    have hp : ∀ c ∈ validOverlap cf s i j cells, 0 ≤ xArea cf c :=
      fun c hcm => hpos c (List.mem_filter.1 (List.mem_filter.1 hcm).1).1
    by_cases hcov : total (xArea cf) (validOverlap cf s i j cells) > 0
    · rw [if_pos hcov]
      unfold wmean
      field_simp
    · rw [if_neg hcov, zero_mul]
      have hz : total (xArea cf) (validOverlap cf s i j cells) = 0 :=
        le_antisymm (not_lt.1 hcov) (total_nonneg hp)
      have hall := total_eq_zero hp hz
      have : total (fun c => xVal cf s c * xArea cf c) (validOverlap cf s i j cells) =
          total (fun _ => 0) (validOverlap cf s i j cells) :=
        total_congr fun c hcm => by rw [hall c hcm, mul_zero]
      rw [this, total_zero]

/-- C27, fregrid with the target option: the amount in a target cell (value times cell area) is the sum of
value times area over its exchange cells, for a variable without missing value, weights and measures. -/
theorem C27_fregrid_target (ny2 : Nat) (cells : List (XCell K)) (hc : InGrid cf.nx2 ny2 cells)
    (hs : cf.sum = false) (ht : cf.target = true) (hm : cf.hasMissing = false) (hw : cf.weight = none)
    (hme : cf.measures = none) (out : Nat → K) (h : scalarInterp cf s cells = some out)
    (hpos : ∀ c ∈ cells, 0 < c.area) (i j : Nat) (hi : i < cf.nx2) (hne : overlap i j cells ≠ [])
    (harea : cf.cellAreaOut (j * cf.nx2 + i) ≠ 0)
    (hval : wmean (fun c => c.area) (xVal cf s) (overlap i j cells) ≠ cf.missing) :
    out (j * cf.nx2 + i) * cf.cellAreaOut (j * cf.nx2 + i) =
      total (fun c => xVal cf s c * c.area) (overlap i j cells) := by
  unfold scalarInterp at h
  split at h
  · cases h
  · have := Option.some.inj h
    subst this
    obtain ⟨e1, e2, e3⟩ := accumulate_spec cf s cells (j * cf.nx2 + i)
    have hv : validOverlap cf s i j cells = overlap i j cells := by
      unfold validOverlap; simp [hm]
    have ha : xArea cf = fun c : XCell K => c.area := by
      funext c; simp [xArea, hw, hs, hme]
    rw [valid_flat cf s j hc hi, hv] at e1 e2 e3
    rw [ha] at e1 e2
    have hp : ∀ c ∈ overlap i j cells, 0 < c.area := fun c h => hpos c (List.mem_filter.1 h).1
    have htot : 0 < total (fun c : XCell K => c.area) (overlap i j cells) := total_pos hp hne
    have htar : targetArea cf cells (j * cf.nx2 + i) = total (fun c => c.area) (overlap i j cells) := by
      unfold targetArea
      simp only [hme]
      rw [foldl_addAt (fun c : XCell K => n0 cf c) (fun c => c.area), zero_add]
      exact congrArg (total _) (overlap_flat j hc hi)
    unfold finish
    simp only [hs, ht, Bool.false_eq_true, if_false, if_true]
    rw [e1, e2, if_pos htot, htar]
    have hval' : total (fun c => xVal cf s c * c.area) (overlap i j cells) /
        total (fun c => c.area) (overlap i j cells) ≠ cf.missing := hval
    rw [if_pos hval']
    field_simp

/-- C27, fregrid with the sum method: a target cell receives from each source cell the share of the
value given by the share of its area. -/
theorem C27_fregrid_sum (ny2 : Nat) (cells : List (XCell K)) (hc : InGrid cf.nx2 ny2 cells)
    (hs : cf.sum = true) (hw : cf.weight = none) (out : Nat → K) (h : scalarInterp cf s cells = some out)
    (hpos : ∀ c ∈ cells, 0 < c.area)
    (hcell : ∀ c ∈ cells, 0 < cf.cellArea c.t1 (c.j1 * cf.nx1 c.t1 + c.i1)) (i j : Nat) (hi : i < cf.nx2) :
    out (j * cf.nx2 + i) =
      if validOverlap cf s i j cells = [] then cf.missing
      else total (fun c => xVal cf s c * (c.area / cf.cellArea c.t1 (c.j1 * cf.nx1 c.t1 + c.i1)))
        (validOverlap cf s i j cells) := by
  unfold scalarInterp at h
  split at h
  · cases h
  · have := Option.some.inj h
    subst this
    obtain ⟨e1, e2, e3⟩ := accumulate_spec cf s cells (j * cf.nx2 + i)
    have ha : xArea cf = fun c : XCell K => c.area / cf.cellArea c.t1 (c.j1 * cf.nx1 c.t1 + c.i1) := by
      funext c; simp [xArea, hw, hs, n1]
    rw [valid_flat cf s j hc hi] at e1 e2 e3
    rw [ha] at e1 e2
    unfold finish
    rw [if_pos hs, e1, e2]
    by_cases hne : validOverlap cf s i j cells = []
    · have hm : ¬ (accumulate cf s cells).miss (j * cf.nx2 + i) = true := fun h => (e3.1 h) hne
      rw [if_pos hne, if_neg hm, hne, if_pos (by simp [total])]
    · have hp : ∀ c ∈ validOverlap cf s i j cells,
          0 < c.area / cf.cellArea c.t1 (c.j1 * cf.nx1 c.t1 + c.i1) := fun c hcm =>
        div_pos (hpos c (List.mem_filter.1 (List.mem_filter.1 hcm).1).1)
          (hcell c (List.mem_filter.1 (List.mem_filter.1 hcm).1).1)
      rw [if_neg hne, if_neg (ne_of_gt (total_pos hp hne))]

end fregrid

/-! ### Concrete cases -/

/-- Two source cells on a row, a target grid of two cells; the second source cell is split. -/
def exCells : List (XCell ℚ) :=
  [⟨0, 0, 0, 0, 0, 2, 0, 0⟩, ⟨0, 1, 0, 0, 0, 1, 0, 0⟩, ⟨0, 1, 0, 1, 0, 1, 0, 0⟩]
def exSrc : Nat → ℚ := fun n => [3, 6].getD n 0

example : InGrid 3 1 exCells ∧ (∀ c ∈ exCells, 0 < c.area) ∧ overlap 0 0 exCells ≠ [] := by
  unfold InGrid; decide +kernel
example : (List.range 3).map (conserveInterp 2 3 exCells exSrc) = [4, 6, 0] := by decide +kernel

def exConf : Conf ℚ := ⟨fun _ => 2, 3, false, true, -1, none, false, none, 0, fun _ _ => 2, false, fun _ => 3⟩

example : ((scalarInterp exConf ⟨fun _ n => [3, -1].getD n 0, fun _ _ => 0, fun _ _ => 0, fun _ _ => false⟩
    exCells).map fun o => (List.range 3).map o) = some [3, -1, -1] := by decide +kernel
example : ((scalarInterp { exConf with target := true, hasMissing := false }
    ⟨fun _ => exSrc, fun _ _ => 0, fun _ _ => 0, fun _ _ => false⟩ exCells).map
      fun o => (List.range 3).map o) = some [4, 2, -1] := by decide +kernel
example : ((scalarInterp { exConf with sum := true }
    ⟨fun _ => exSrc, fun _ _ => 0, fun _ _ => 0, fun _ _ => false⟩ exCells).map
      fun o => (List.range 3).map o) = some [6, 3, -1] := by decide +kernel

end Verif
