import Verif.Lemmas.ConformalGridArea
import Mathlib.Tactic.IntervalCases
/-
C148: lengths and areas of the conformal cubic grid.
-/
noncomputable section
namespace Verif.ConformalGrid
open Real Spec.ConformalGrid

private def rowSum (n r j i : Nat) : ℝ := ∑ q ∈ Finset.range r, rowArc (n * r) (j * r) (i * r + q)

private def cellSum (n r j i : Nat) : ℝ := ∑ p ∈ Finset.range r, ∑ q ∈ Finset.range r, cellQuad (n * r) (j * r + p) (i * r + q)

private theorem step_lt {n r i q : Nat} (hi : i < n) (hq : q < r) : i * r + q < n * r := by
  calc i * r + q < i * r + r := by omega
    _ = (i + 1) * r := by ring
    _ ≤ n * r := Nat.mul_le_mul_right r hi

private theorem step_mirror {n r i q : Nat} (hi : i < n) (hq : q < r) : (n - 1 - i) * r + (r - 1 - q) = n * r - 1 - (i * r + q) := by
  obtain ⟨d, rfl⟩ := Nat.exists_eq_add_of_lt hi
  obtain ⟨e, rfl⟩ := Nat.exists_eq_add_of_lt hq
  rw [show i + d + 1 - 1 - i = d by omega, show q + e + 1 - 1 - q = e by omega, show (i + d + 1) * (q + e + 1) = i * (q + e + 1) + d * (q + e + 1) + (q + e + 1) by ring]
  omega

private theorem line_mirror {n r j : Nat} (hj : j ≤ n) : (n - j) * r = n * r - j * r := Nat.sub_mul _ _ _

private theorem rowSum_col {n r j i : Nat} (hi : i < n) : rowSum n r j (n - 1 - i) = rowSum n r j i := by
  unfold rowSum
  rw [← Finset.sum_range_reflect]
  apply Finset.sum_congr rfl
  intro q hq
  rw [Finset.mem_range] at hq
  rw [step_mirror hi hq, rowArc_col (step_lt hi hq)]

private theorem rowSum_row {n r j i : Nat} (hn : 0 < n) (hr : 0 < r) (hj : j ≤ n) : rowSum n r (n - j) i = rowSum n r j i := by
  unfold rowSum
  apply Finset.sum_congr rfl
  intro q _
  rw [line_mirror hj, rowArc_row (Nat.mul_pos hn hr) (Nat.mul_le_mul_right r hj)]

private theorem cellSum_col {n r j i : Nat} (hi : i < n) : cellSum n r j (n - 1 - i) = cellSum n r j i := by
  unfold cellSum
  apply Finset.sum_congr rfl
  intro p _
  rw [← Finset.sum_range_reflect]
  apply Finset.sum_congr rfl
  intro q hq
  rw [Finset.mem_range] at hq
  rw [step_mirror hi hq, cellQuad_col (step_lt hi hq)]

private theorem cellSum_row {n r j i : Nat} (hj : j < n) (hi : i < n) : cellSum n r (n - 1 - j) i = cellSum n r j i := by
  unfold cellSum
  rw [← Finset.sum_range_reflect]
  apply Finset.sum_congr rfl
  intro p hp
  rw [Finset.mem_range] at hp
  apply Finset.sum_congr rfl
  intro q hq
  rw [Finset.mem_range] at hq
  rw [step_mirror hj hp, cellQuad_row (step_lt hj hp) (step_lt hi hq)]

private theorem dx_quadrant {n r j i : Nat} (hj : j < half n) (hi : i < half n - 1) : dxQuadrant n r j i = some (6371000 * rowSum n r j i) := by
  unfold dxQuadrant
  rw [if_pos ⟨hj, hi⟩, addUp_eq]
  congr 1
  unfold RADIUS rowSum
  rw [mul_comm]
  congr 1
  apply Finset.sum_congr rfl
  intro q hq
  rw [Finset.mem_range] at hq
  unfold half at hj hi
  exact dxl_eq (Nat.mul_le_mul_right r (by omega)) (step_lt (by omega) hq)

private theorem area_quadrant {n r j i : Nat} (hj : j < half n - 1) (hi : i < half n - 1) : areaQuadrant n r j i = some (6371000 ^ 2 * cellSum n r j i) := by
  unfold areaQuadrant
  rw [if_pos ⟨hj, hi⟩]
  congr 1
  have e : (fun k a => forPure (fun m a => a + areal (n * r) (j * r + k) (i * r + m)) 0 r a) =
      fun (k : Nat) (a : ℝ) => a + ∑ m ∈ Finset.range r, areal (n * r) (j * r + k) (i * r + m) := by
    funext k a
    rw [forPure_sum (fun m => areal (n * r) (j * r + k) (i * r + m))]
    simp
  rw [e, forPure_sum (fun k => ∑ m ∈ Finset.range r, areal (n * r) (j * r + k) (i * r + m))]
  have : ∑ k ∈ Finset.range r, ∑ m ∈ Finset.range r, areal (n * r) (j * r + (0 + k)) (i * r + m) = cellSum n r j i := by
    unfold cellSum
    unfold half at hj hi
    apply Finset.sum_congr rfl
    intro p hp
    apply Finset.sum_congr rfl
    intro q hq
    rw [Finset.mem_range] at hp hq
    rw [Nat.zero_add]
    exact areal_eq (step_lt (by omega) hp) (step_lt (by omega) hq)
  rw [this]
  unfold RADIUS
  ring

private theorem dx_tile {k r j i : Nat} (hr : 0 < r) (hj : j ≤ 2 * k) (hi : i < 2 * k) : dxTile (2 * k) r j i = some (6371000 * rowSum (2 * k) r j i) := by
  have hh : half (2 * k) = k + 1 := by unfold half; omega
  have low : ∀ j, j ≤ k → mirrorCols' (2 * k) (half (2 * k)) (dxQuadrant (2 * k) r) j i = some (6371000 * rowSum (2 * k) r j i) := by
    intro j hj
    unfold mirrorCols'
    by_cases c : half (2 * k) - 1 ≤ i
    · rw [if_pos ⟨by omega, c⟩, dx_quadrant (by omega) (by omega), rowSum_col hi]
    · rw [if_neg (by omega), dx_quadrant (by omega) (by omega)]
  unfold dxTile
  by_cases c : half (2 * k) ≤ j
  · rw [if_pos c, low _ (by omega), rowSum_row (by omega) hr hj]
  · rw [if_neg c, low _ (by omega)]

private theorem area_tile {k r j i : Nat} (hj : j < 2 * k) (hi : i < 2 * k) : areaTile (2 * k) r j i = some (6371000 ^ 2 * cellSum (2 * k) r j i) := by
  have hh : half (2 * k) = k + 1 := by unfold half; omega
  have low : ∀ j, j < k → mirrorCols' (2 * k) (half (2 * k) - 1) (areaQuadrant (2 * k) r) j i = some (6371000 ^ 2 * cellSum (2 * k) r j i) := by
    intro j hj
    unfold mirrorCols'
    by_cases c : half (2 * k) - 1 ≤ i
    · rw [if_pos ⟨by omega, c⟩, area_quadrant (by omega) (by omega), cellSum_col hi]
    · rw [if_neg (by omega), area_quadrant (by omega) (by omega)]
  unfold areaTile
  by_cases c : half (2 * k) - 1 ≤ j
  · rw [if_pos c, low _ (by omega), cellSum_row hj hi]
  · rw [if_neg c, low _ (by omega)]

private theorem first_tile {rows cols j i : Nat} {a : Nat → Nat → Option ℝ} (hj : j < rows) (hi : i < cols) (x : Nat) : sixTiles rows cols a (0 * x + j * cols + i) = a j i := by
  have hlt : j * cols + i < rows * cols := step_lt hj hi
  unfold sixTiles
  rw [Nat.zero_mul, Nat.zero_add, if_pos hlt]
  have : (j * cols + i) / cols = j := by
    rw [Nat.add_comm, Nat.add_mul_div_right _ _ (by omega), Nat.div_eq_of_lt hi, Nat.zero_add]
  rw [this, Nat.add_comm, Nat.add_mul_mod_self_right, Nat.mod_eq_of_lt hi]

/-- Full claim: for each of the six tiles, the lengths which are written are those of the arcs of the points of the tile in the file, and the areas those of its cells. Proved for the
first tile and an even number `2 k` of cells: the length of side `i` of row `j` is the sum of the `r` arcs along this side of the face, `r` times as fine, and the area of a cell is the
sum of the areas of the `r * r` fine cells in it. The other tiles and odd numbers are wrong, below. -/
theorem C148_first_tile_partial (k r : Nat) (hr : 0 < r) :
    (∀ j i, j ≤ 2 * k → i < 2 * k → writtenDx (2 * k) r 0 j i =
      some (6371000 * ∑ q ∈ Finset.range r, arc (facePoint (2 * k * r) (j * r) (i * r + q)) (facePoint (2 * k * r) (j * r) (i * r + q + 1)))) ∧
    (∀ j i, j < 2 * k → i ≤ 2 * k → writtenDy (2 * k) r 0 j i =
      some (6371000 * ∑ q ∈ Finset.range r, arc (facePoint (2 * k * r) (j * r + q) (i * r)) (facePoint (2 * k * r) (j * r + q + 1) (i * r)))) ∧
    (∀ j i, j < 2 * k → i < 2 * k → writtenArea (2 * k) r 0 j i =
      some (6371000 ^ 2 * ∑ p ∈ Finset.range r, ∑ q ∈ Finset.range r, quad (facePoint (2 * k * r) (j * r + p) (i * r + q)) (facePoint (2 * k * r) (j * r + p) (i * r + q + 1))
        (facePoint (2 * k * r) (j * r + p + 1) (i * r + q + 1)) (facePoint (2 * k * r) (j * r + p + 1) (i * r + q)))) := by
  refine ⟨fun j i hj hi => ?_, fun j i hj hi => ?_, fun j i hj hi => ?_⟩
  · unfold writtenDx
    rw [first_tile (by omega) hi, dx_tile hr hj hi]
    rfl
  · unfold writtenDy
    rw [first_tile hj (by omega)]
    unfold dyTile
    rw [dx_tile hr hi hj]
    congr 2
    unfold rowSum
    apply Finset.sum_congr rfl
    intro q hq
    rw [Finset.mem_range] at hq
    have b := step_lt hj hq
    have c : i * r ≤ 2 * k * r := Nat.mul_le_mul_right r hi
    unfold rowArc
    rw [pts_swap (show j * r + q ≤ 2 * k * r by omega) c, pts_swap (show j * r + q + 1 ≤ 2 * k * r by omega) c, mirror_swap.arc]
    rfl
  · unfold writtenArea
    rw [first_tile hj hi, area_tile hj hi]
    rfl

/-- In the other tiles nothing was stored: the numbers written as `dx`, `dy` and `area` of tiles 2 to 6 are those left in memory. -/
theorem C148_other_tiles_wrong (n r t j i : Nat) (ht : 1 ≤ t) : writtenDx n r t j i = none ∧ writtenDy n r t j i = none ∧ writtenArea n r t j i = none := by
  unfold writtenDx writtenDy writtenArea sixTiles
  have a : n * (n + 1) ≤ t * (n * (n + 1)) := Nat.le_mul_of_pos_left _ ht
  have b : (n + 1) * n ≤ t * ((n + 1) * n) := Nat.le_mul_of_pos_left _ ht
  have c : n * n ≤ t * (n * n) := Nat.le_mul_of_pos_left _ ht
  have d : (n + 1) * n = n * (n + 1) := Nat.mul_comm _ _
  refine ⟨if_neg ?_, if_neg ?_, if_neg ?_⟩ <;> omega

/-- With an odd number of cells the middle column of `dx`, the middle row of `dy` and the middle row and column of `area` are not stored in the first tile either. -/
theorem C148_odd_wrong (k r : Nat) :
    (∀ j, j ≤ 2 * k + 1 → writtenDx (2 * k + 1) r 0 j k = none) ∧ (∀ i, i ≤ 2 * k + 1 → writtenDy (2 * k + 1) r 0 k i = none) ∧
    (∀ j, j ≤ 2 * k → writtenArea (2 * k + 1) r 0 j k = none) ∧ (∀ i, i ≤ 2 * k → writtenArea (2 * k + 1) r 0 k i = none) := by
  have hh : half (2 * k + 1) = k + 1 := by unfold half; omega
  have dx : ∀ j, j ≤ 2 * k + 1 → dxTile (2 * k + 1) r j k = none := by
    intro j hj
    have low : ∀ j, j ≤ k → mirrorCols' (2 * k + 1) (half (2 * k + 1)) (dxQuadrant (2 * k + 1) r) j k = none := by
      intro j hj
      unfold mirrorCols' dxQuadrant
      rw [if_pos ⟨by omega, by omega⟩, if_neg (by omega)]
    unfold dxTile
    by_cases c : half (2 * k + 1) ≤ j
    · rw [if_pos c, low _ (by omega)]
    · rw [if_neg c, low _ (by omega)]
  have q : ∀ j i, ¬ j < k ∨ ¬ i < k → areaQuadrant (2 * k + 1) r j i = none := by
    intro j i h
    unfold areaQuadrant
    rw [if_neg (by omega)]
  refine ⟨fun j hj => ?_, fun i hi => ?_, fun j hj => ?_, fun i hi => ?_⟩
  · unfold writtenDx
    rw [first_tile (by omega) (by omega), dx j hj]
  · unfold writtenDy
    rw [first_tile (by omega) (by omega)]
    exact dx i hi
  · unfold writtenArea
    rw [first_tile (by omega) (by omega)]
    unfold areaTile mirrorCols'
    split_ifs <;> exact q _ _ (by omega)
  · unfold writtenArea
    rw [first_tile (by omega) (by omega)]
    unfold areaTile mirrorCols'
    split_ifs <;> exact q _ _ (by omega)

/-- The supergrid of 60 cells of the help text of make_hgrid with `--nratio 2`: the first side is the sum of two arcs; the first side of the second tile was never stored. -/
example : writtenDx 60 2 0 0 0 = some (6371000 * (arc (facePoint 120 0 0) (facePoint 120 0 1) + arc (facePoint 120 0 1) (facePoint 120 0 2))) ∧ writtenDx 60 2 1 0 0 = none := by
  refine ⟨?_, (C148_other_tiles_wrong 60 2 1 0 0 (by norm_num)).1⟩
  have h := (C148_first_tile_partial 30 2 (by norm_num)).1 0 0 (by norm_num) (by norm_num)
  simp only [Finset.sum_range_succ, Finset.sum_range_zero] at h
  norm_num at h
  exact h

end Verif.ConformalGrid
