import Verif.Lemmas.RealTopog
import Mathlib.Algebra.Order.Field.Rat
import Mathlib.Tactic.IntervalCases
import Mathlib.Tactic.NormNum
import Mathlib.Tactic.Positivity
/-
C139: the depth of a model cell made by `make_topog --topog_type realistic`.
-/
namespace Verif
open Conserve RowRange RealTopog Verif.Spec.RealTopog Verif.Spec

variable {K : Type} [Field K] [LinearOrder K] [IsStrictOrderedRing K] (clip : Box K → Quad K → Option K)

/-- The bounds of the source cells: every centre lies strictly between its two bounds, for evenly spaced centres they are half a step away. -/
theorem C139_edges {n : Nat} (hn : 2 ≤ n) {t : Nat → K} (h : ∀ i, i + 1 < n → t i < t (i + 1)) :
    (∀ i < n, edge n t i < t i ∧ t i < edge n t (i + 1)) ∧
    (∀ t0 d : K, (∀ i < n, t i = t0 + (i : K) * d) → ∀ i ≤ n, edge n t i = t0 + ((i : K) - 1 / 2) * d) := by
  refine ⟨fun i hi => edge_around hn h hi, ?_⟩
  intro t0 d ht i hi
  have hm : ∀ k, 0 < k → k < n → mid t k = t0 + ((k : K) - 1 / 2) * d := by
    intro k h0 hk
    obtain ⟨m, rfl⟩ : ∃ m, k = m + 1 := ⟨k - 1, by omega⟩
    unfold mid
    rw [Nat.add_sub_cancel, ht m (by omega), ht (m + 1) hk]
    push_cast
    ring
  unfold edge
  split_ifs with h1 h2
  · subst h1
    rw [hm 1 (by omega) (by omega), ht 0 (by omega)]
    push_cast
    ring
  · subst h2
    rw [hm (i - 1) (by omega) (by omega), ht (i - 1) (by omega)]
    obtain ⟨m, rfl⟩ : ∃ m, i = m + 1 := ⟨i - 1, by omega⟩
    rw [Nat.add_sub_cancel]
    push_cast
    ring
  · exact hm i (by omega) (by omega)

/-- The depth of a cell is the mean depth, by area, of the ocean cells of the whole source file in it, whatever part of the grid the process has, for source rows from south
to north or from north to south. With `fill_first_row` the first row of the part is 0. Missing: without a bound of a source row inside the latitudes of the part the program
stops (`C139_one_row_wrong`); the first row should be that of the whole grid (`C139_fill_first_row_wrong`). -/
theorem C139_depth_partial (hc : Proper clip) {rad scale : K} (hr : 0 < rad) {s : Source K} {g : Grid K} {p : Piece} (hx : 2 ≤ s.nx) (hy : 2 ≤ s.ny)
    (ho : Ordered s.ny s.yt) {k : Nat} (hk : k ≤ s.ny) (hin : Inside rad g p (yc rad s k)) (fill : Bool) :
    ∃ d, depth clip rad scale s g p false fill = .ok d ∧ ∀ i < p.nx, ∀ j < p.ny,
      d (j * p.nx + i) = if fill = true ∧ j = 0 then 0 else meanDepth clip rad scale s (target rad g (p.isc + i) (p.jsc + j)) := by
  have hin' := (inside_iff rad g p _).1 hin
  obtain ⟨js, je, hw, hj1, hj2⟩ := window_some (ny := s.ny) (e := yc rad s) hy hk hin'
  have hwin : window rad s g p = ((js : Int), (je : Int)) := hw
  have hnow : ((je : Int) - (js : Int) + 1).toNat = je - js + 1 := by omega
  unfold depth
  rw [if_neg (by omega)]
  simp only [hwin, Int.toNat_natCast, hnow, Bool.false_eq_true, if_false]
  rw [if_neg (by omega)]
  refine ⟨_, rfl, ?_⟩
  intro i hi j hj
  have hrow : (j * p.nx + i < p.nx) ↔ j = 0 := by
    constructor
    · intro h
      by_contra h0
      have : 1 * p.nx ≤ j * p.nx := Nat.mul_le_mul_right _ (by omega)
      omega
    · rintro rfl; omega
  simp only [hrow]
  split_ifs with hf
  · rfl
  · -- the interpolation
    unfold interpolate conserveInterp
    set q := target rad g (p.isc + i) (p.jsc + j) with hq
    have out : ∀ j' < s.ny, ∀ i' , wetArea clip rad scale s q j' i' ≠ 0 → js ≤ j' ∧ j' < js + (je - js + 1) := by
      intro j' hj' i' hne
      unfold wetArea at hne
      split_ifs at hne with hwet
      · cases hcl : clip (box rad s j' i') q with
        | none => rw [hcl] at hne; exact absurd rfl hne
        | some a =>
          obtain ⟨l1, l2⟩ := hc.lat _ _ _ hcl
          rw [hq, ← quad_eq rad g p (i := i) (j := j) hi] at l1 l2
          have m1 := quad_south rad g p _ l1
          have m2 := quad_north rad g p _ l2
          have hlt : j * p.nx + i < p.nx * p.ny := by
            calc j * p.nx + i < j * p.nx + p.nx := by omega
              _ = p.nx * (j + 1) := by ring
              _ ≤ _ := Nat.mul_le_mul_left _ (by omega)
          obtain ⟨r1, r2⟩ := cell_in_range rad g p hlt
          have := outside_window (ny := s.ny) (e := yc rad s) hk hin' (yc_ordered hr hy ho) hj' (lt_of_le_of_lt r1 m1) (lt_of_lt_of_le m2 r2)
          rw [hw] at this
          simp only at this
          omega
      · exact absurd rfl hne
    have sumOut : ∀ v : Nat → Nat → K, ∑ j1 ∈ Finset.range (je - js + 1), ∑ i1 ∈ Finset.range s.nx, wetArea clip rad scale s q (js + j1) i1 * v (js + j1) i1 =
        ∑ j1 ∈ Finset.range s.ny, ∑ i1 ∈ Finset.range s.nx, wetArea clip rad scale s q j1 i1 * v j1 i1 := by
      intro v
      refine sum_window (fun j1 => ∑ i1 ∈ Finset.range s.nx, wetArea clip rad scale s q j1 i1 * v j1 i1) (by omega) ?_
      intro j' hj' hF
      obtain ⟨i', _, hne⟩ := Finset.exists_ne_zero_of_sum_ne_zero hF
      exact out j' hj' i' (left_ne_zero_of_mul hne)
    have hda : dstArea p.nx (cells clip rad scale s g p js (je - js + 1)) (j * p.nx + i) =
        ∑ j1 ∈ Finset.range s.ny, ∑ i1 ∈ Finset.range s.nx, wetArea clip rad scale s q j1 i1 := by
      unfold dstArea
      rw [foldl_addAt (fun c : XCell K => c.j2 * p.nx + c.i2) (fun c => c.area), zero_add]
      rw [total_cells clip hc rad scale s g p js (je - js + 1) hi hj (fun c => c.area) (fun _ _ => 1) (fun _ _ _ _ a _ => by rw [mul_one])]
      refine (sumOut fun _ _ => 1).trans ?_
      simp only [mul_one]
    rw [foldl_addAt (fun c : XCell K => c.j2 * p.nx + c.i2)
      (fun c => scaled s scale (js + (c.j1 * s.nx + c.i1) / s.nx) ((c.j1 * s.nx + c.i1) % s.nx) *
        (c.area / dstArea p.nx (cells clip rad scale s g p js (je - js + 1)) (c.j2 * p.nx + c.i2))), zero_add]
    set D := ∑ j1 ∈ Finset.range s.ny, ∑ i1 ∈ Finset.range s.nx, wetArea clip rad scale s q j1 i1 with hD
    rw [total_cells clip hc rad scale s g p js (je - js + 1) hi hj _ (fun j1 i1 => s.val j1 i1 * scale / D)]
    · refine (sumOut fun j1 i1 => s.val j1 i1 * scale / D).trans ?_
      unfold meanDepth
      rw [← hD, Finset.sum_div]
      refine Finset.sum_congr rfl fun j1 _ => ?_
      rw [Finset.sum_div]
      refine Finset.sum_congr rfl fun i1 _ => ?_
      ring
    · intro j1 _ i1 hi1 a hwet
      simp only [(cell_eq hi1).1, (cell_eq hi1).2]
      rw [hda, scaled_wet hwet]
      ring

/-- The mean lies between the least and the largest depth of the ocean in the cell, it is positive if and only if there is ocean in the cell, and 0 otherwise. -/
theorem C139_range (hc : Proper clip) (rad scale : K) (s : Source K) (q : Quad K) :
    (0 < meanDepth clip rad scale s q ↔ ∃ j < s.ny, ∃ i < s.nx, wet s scale j i ∧ ∃ a, clip (box rad s j i) q = some a) ∧
    ((¬ ∃ j < s.ny, ∃ i < s.nx, wet s scale j i ∧ ∃ a, clip (box rad s j i) q = some a) → meanDepth clip rad scale s q = 0) ∧
    (∀ lo hi : K, (∃ j < s.ny, ∃ i < s.nx, wet s scale j i ∧ ∃ a, clip (box rad s j i) q = some a) →
      (∀ j < s.ny, ∀ i < s.nx, wet s scale j i → ∀ a, clip (box rad s j i) q = some a → lo ≤ s.val j i * scale ∧ s.val j i * scale ≤ hi) →
      lo ≤ meanDepth clip rad scale s q ∧ meanDepth clip rad scale s q ≤ hi) := by
  have nonneg : ∀ j i, 0 ≤ wetArea clip rad scale s q j i := by
    intro j i
    unfold wetArea
    split_ifs
    · cases h : clip (box rad s j i) q with
      | none => exact le_refl _
      | some a => exact le_of_lt (hc.pos _ _ _ h)
    · exact le_refl _
  have ne : ∀ j i, wetArea clip rad scale s q j i ≠ 0 → wet s scale j i ∧ ∃ a, clip (box rad s j i) q = some a := by
    intro j i h
    unfold wetArea at h
    split_ifs at h with hw
    · refine ⟨hw, ?_⟩
      cases hcl : clip (box rad s j i) q with
      | none => rw [hcl] at h; exact absurd rfl h
      | some a => exact ⟨a, rfl⟩
    · exact absurd rfl h
  have pos : ∀ j i a, wet s scale j i → clip (box rad s j i) q = some a → 0 < wetArea clip rad scale s q j i := by
    intro j i a hw h
    unfold wetArea
    rw [if_pos hw, h]
    exact hc.pos _ _ _ h
  have sumPos : ∀ v : Nat → Nat → K, (∀ j i, 0 ≤ wetArea clip rad scale s q j i * v j i) →
      (∃ j < s.ny, ∃ i < s.nx, 0 < wetArea clip rad scale s q j i * v j i) →
      0 < ∑ j ∈ Finset.range s.ny, ∑ i ∈ Finset.range s.nx, wetArea clip rad scale s q j i * v j i := by
    rintro v h0 ⟨j, hj, i, hi, h⟩
    exact Finset.sum_pos' (fun j' _ => Finset.sum_nonneg fun i' _ => h0 j' i')
      ⟨j, Finset.mem_range.2 hj, Finset.sum_pos' (fun i' _ => h0 j i') ⟨i, Finset.mem_range.2 hi, h⟩⟩
  have areaPos : (∃ j < s.ny, ∃ i < s.nx, wet s scale j i ∧ ∃ a, clip (box rad s j i) q = some a) →
      0 < ∑ j ∈ Finset.range s.ny, ∑ i ∈ Finset.range s.nx, wetArea clip rad scale s q j i := by
    rintro ⟨j, hj, i, hi, hw, a, h⟩
    have := sumPos (fun _ _ => 1) (fun j i => by rw [mul_one]; exact nonneg j i) ⟨j, hj, i, hi, by rw [mul_one]; exact pos j i a hw h⟩
    simpa only [mul_one] using this
  have zero : (¬ ∃ j < s.ny, ∃ i < s.nx, wet s scale j i ∧ ∃ a, clip (box rad s j i) q = some a) → meanDepth clip rad scale s q = 0 := by
    intro h
    unfold meanDepth
    rw [Finset.sum_eq_zero, zero_div]
    intro j hj
    refine Finset.sum_eq_zero fun i hi => ?_
    by_contra hn
    obtain ⟨hw, ha⟩ := ne j i (left_ne_zero_of_mul hn)
    exact h ⟨j, Finset.mem_range.1 hj, i, Finset.mem_range.1 hi, hw, ha⟩
  refine ⟨⟨?_, ?_⟩, zero, ?_⟩
  · intro h
    by_contra hn
    rw [zero hn] at h
    exact lt_irrefl _ h
  · intro h
    refine div_pos ?_ (areaPos h)
    obtain ⟨j, hj, i, hi, hw, a, ha⟩ := h
    refine sumPos _ ?_ ⟨j, hj, i, hi, mul_pos (pos j i a hw ha) hw.2⟩
    intro j i
    by_cases hz : wetArea clip rad scale s q j i = 0
    · rw [hz, zero_mul]
    · exact mul_nonneg (nonneg j i) (le_of_lt (ne j i hz).1.2)
  · intro lo hi he hb
    have hp := areaPos he
    have hterm : ∀ j ∈ Finset.range s.ny, ∀ i ∈ Finset.range s.nx, wetArea clip rad scale s q j i * lo ≤ wetArea clip rad scale s q j i * (s.val j i * scale) ∧
        wetArea clip rad scale s q j i * (s.val j i * scale) ≤ wetArea clip rad scale s q j i * hi := by
      intro j hj i hi'
      by_cases hz : wetArea clip rad scale s q j i = 0
      · simp [hz]
      · obtain ⟨hw, a, ha⟩ := ne j i hz
        have := hb j (Finset.mem_range.1 hj) i (Finset.mem_range.1 hi') hw a ha
        exact ⟨mul_le_mul_of_nonneg_left this.1 (nonneg j i), mul_le_mul_of_nonneg_left this.2 (nonneg j i)⟩
    unfold meanDepth
    constructor
    · rw [le_div_iff₀ hp, mul_comm, Finset.sum_mul]
      refine Finset.sum_le_sum fun j hj => ?_
      rw [Finset.sum_mul]
      exact Finset.sum_le_sum fun i hi' => (hterm j hj i hi').1
    · rw [div_le_iff₀ hp, mul_comm, Finset.sum_mul]
      refine Finset.sum_le_sum fun j hj => ?_
      rw [Finset.sum_mul]
      exact Finset.sum_le_sum fun i hi' => (hterm j hj i hi').2

/-- If no bound of a source row lies inside the latitudes of the part of the grid, the program stops, although source cells lie around all of it. -/
theorem C139_one_row_wrong (rad scale : K) (s : Source K) (g : Grid K) (p : Piece) (hx : 2 ≤ s.nx) (hy : 3 ≤ s.ny)
    (hno : ∀ k ≤ s.ny, ¬ Inside rad g p (yc rad s k)) (same fill : Bool) : depth clip rad scale s g p same fill = .error .stopped := by
  unfold depth
  rw [if_neg (by omega)]
  have : window rad s g p = ((s.ny : Int) - 1, 0) := by
    unfold window
    rw [scanEdges_none fun j hj h => hno j hj ((inside_iff rad g p _).2 h)]
    unfold clampRows
    refine Prod.ext ?_ ?_ <;> simp only <;> omega
  simp only [this]
  rw [if_pos (by omega)]

/-- With two source rows only, the program does not stop then but makes all of this part land. -/
theorem C139_two_rows_wrong (rad scale : K) (s : Source K) (g : Grid K) (p : Piece) (hx : 2 ≤ s.nx) (hy : s.ny = 2)
    (hno : ∀ k ≤ s.ny, ¬ Inside rad g p (yc rad s k)) (fill : Bool) : ∃ d, depth clip rad scale s g p false fill = .ok d ∧ ∀ n, d n = 0 := by
  unfold depth
  rw [if_neg (by omega)]
  have : window rad s g p = (1, 0) := by
    unfold window
    rw [scanEdges_none fun j hj h => hno j hj ((inside_iff rad g p _).2 h)]
    unfold clampRows
    refine Prod.ext ?_ ?_ <;> simp only <;> omega
  simp only [this]
  refine ⟨_, rfl, fun n => ?_⟩
  show (if fill = true ∧ n < p.nx then (0 : K) else interpolate clip rad scale s g p _ 0 n) = 0
  split_ifs
  · rfl
  · unfold interpolate cells conserveInterp
    simp

/-- A source with one row or one column: the bounds of its cells are taken from points that do not exist. -/
theorem C139_one_point_wrong (rad scale : K) (s : Source K) (g : Grid K) (p : Piece) (h : s.nx = 1 ∨ s.ny = 1) (same fill : Bool) :
    depth clip rad scale s g p same fill = .error .undefined := by
  unfold depth
  rw [if_pos (by omega)]

/-- `--on_grid` in one process, the inner bounds of the source rows inside the latitudes of the model grid: every cell gets its value, and 0 where it is missing. -/
theorem C139_on_grid_partial {rad scale : K} {s : Source K} {g : Grid K} {p : Piece} (hx : 2 ≤ s.nx) (hy : 2 ≤ s.ny) (hpx : p.nx = s.nx) (hpy : p.ny = s.ny)
    (hin : ∀ k, 1 ≤ k → k < s.ny → Inside rad g p (yc rad s k)) :
    ∃ d, depth clip rad scale s g p true false = .ok d ∧ ∀ j < s.ny, ∀ i < s.nx,
      (s.val j i = s.missing → d (j * s.nx + i) = 0) ∧ (s.val j i ≠ s.missing → s.val j i * scale ≠ s.missing → d (j * s.nx + i) = s.val j i * scale) := by
  have hw : window rad s g p = (0, (s.ny : Int) - 1) := by
    obtain ⟨a, b, e0, _, _, hb, _, _, hall⟩ := scanEdges_some (ny := s.ny) (e := yc rad s) (show 1 ≤ s.ny by omega) ((inside_iff rad g p _).1 (hin 1 (by omega) (by omega)))
    have h1 := hall 1 (by omega) ((inside_iff rad g p _).1 (hin 1 (by omega) (by omega)))
    have h2 := hall (s.ny - 1) (by omega) ((inside_iff rad g p _).1 (hin (s.ny - 1) (by omega) (by omega)))
    unfold window
    rw [e0]
    unfold clampRows
    refine Prod.ext ?_ ?_ <;> simp only <;> omega
  have hnow : ((s.ny : Int) - 1 - 0 + 1).toNat = s.ny := by omega
  unfold depth onGrid
  rw [if_neg (by omega)]
  simp only [hw, hnow, if_true, hpx, hpy, Int.toNat_zero, Nat.zero_add]
  rw [if_neg (by omega), if_neg (by omega)]
  refine ⟨_, rfl, ?_⟩
  intro j hj i hi
  simp only [(cell_eq hi).1, (cell_eq hi).2, Bool.false_eq_true, false_and, if_false]
  constructor
  · intro h
    unfold scaled
    rw [if_pos h, if_pos h]
  · intro h h'
    unfold scaled
    rw [if_neg h, if_neg h']

/-- The file is on the model grid, in rows: the rows of the model grid are the bounds of the source rows. -/
theorem C139_on_grid_processes_wrong {rad scale : K} (hr : 0 < rad) {s : Source K} {g : Grid K} {p : Piece} (hx : 2 ≤ s.nx) (hy : 2 ≤ s.ny)
    (ho : ∀ i j, i < j → j < s.ny → s.yt i < s.yt j) (hg : ∀ i j, g.y i j = edge s.ny s.yt j)
    (hp2 : 2 ≤ p.ny) (hpx : p.nx = s.nx) (hpy : p.jsc + p.ny < s.ny) (fill : Bool) :
    depth clip rad scale s g p true fill = .error .undefined := by
  have hord : ∀ i j, i < j → j ≤ s.ny → yc rad s i < yc rad s j := fun i j hij hj =>
    mul_lt_mul_of_pos_right (edge_lt hy (fun k hk => ho k (k + 1) (by omega) hk) hij hj) hr
  have hins : ∀ k ≤ s.ny, Inside rad g p (yc rad s k) ↔ p.jsc < k ∧ k < p.jsc + p.ny := by
    intro k hk
    unfold Inside
    simp only [hg]
    constructor
    · rintro ⟨⟨_, _, j, hj, h1⟩, ⟨_, _, j', hj', h2⟩⟩
      constructor
      · by_contra hc
        rcases Nat.lt_or_ge k (p.jsc + j) with h | h
        · exact lt_asymm h1 (hord k (p.jsc + j) h (by omega))
        · obtain rfl : k = p.jsc + j := by omega
          exact lt_irrefl _ h1
      · by_contra hc
        rcases Nat.lt_or_ge (p.jsc + j') k with h | h
        · exact lt_asymm h2 (hord (p.jsc + j') k h (by omega))
        · obtain rfl : k = p.jsc + j' := by omega
          exact lt_irrefl _ h2
    · rintro ⟨h1, h2⟩
      exact ⟨⟨0, by omega, 0, by omega, hord _ _ (by omega) hk⟩, ⟨0, by omega, p.ny, le_refl _, hord _ _ (by omega) (by omega)⟩⟩
  have hk : p.jsc + 1 ≤ s.ny := by omega
  obtain ⟨a, b, e0, ha1, hb1, hb, ha2, hb2, hall⟩ := scanEdges_some (ny := s.ny) (e := yc rad s) hk
    ((inside_iff rad g p _).1 ((hins _ hk).2 ⟨by omega, by omega⟩))
  have ha3 := (hins a (by omega)).1 ((inside_iff rad g p _).2 ha2)
  have hb3 := (hins b hb).1 ((inside_iff rad g p _).2 hb2)
  have hb4 := hall (p.jsc + p.ny - 1) (by omega) ((inside_iff rad g p _).1 ((hins _ (by omega)).2 ⟨by omega, by omega⟩))
  have hw : window rad s g p = ((p.jsc : Int), ((p.jsc + p.ny : Nat) : Int)) := by
    unfold window
    rw [e0]
    unfold clampRows
    refine Prod.ext ?_ ?_ <;> simp only <;> omega
  have hnow : (((p.jsc + p.ny : Nat) : Int) - (p.jsc : Int) + 1).toNat = p.ny + 1 := by omega
  unfold depth onGrid
  rw [if_neg (by omega)]
  simp only [hw, hnow, if_true, hpx]
  rw [if_neg (by omega), if_pos]
  intro h
  have : p.ny + 1 = p.ny := Nat.eq_of_mul_eq_mul_left (by omega : 0 < s.nx) h
  omega

/-- `--on_grid` with a part of the columns: more values are written than the part has cells. -/
theorem C139_on_grid_columns_wrong {rad scale : K} {s : Source K} {g : Grid K} {p : Piece} (hx : 2 ≤ s.nx) (hy : 2 ≤ s.ny) (hpx : p.nx < s.nx) (hpy : p.ny = s.ny)
    (hin : ∀ k, 1 ≤ k → k < s.ny → Inside rad g p (yc rad s k)) (fill : Bool) : depth clip rad scale s g p true fill = .error .undefined := by
  have hw : window rad s g p = (0, (s.ny : Int) - 1) := by
    obtain ⟨a, b, e0, _, _, hb, _, _, hall⟩ := scanEdges_some (ny := s.ny) (e := yc rad s) (show 1 ≤ s.ny by omega) ((inside_iff rad g p _).1 (hin 1 (by omega) (by omega)))
    have h1 := hall 1 (by omega) ((inside_iff rad g p _).1 (hin 1 (by omega) (by omega)))
    have h2 := hall (s.ny - 1) (by omega) ((inside_iff rad g p _).1 (hin (s.ny - 1) (by omega) (by omega)))
    unfold window
    rw [e0]
    unfold clampRows
    refine Prod.ext ?_ ?_ <;> simp only <;> omega
  have hnow : ((s.ny : Int) - 1 - 0 + 1).toNat = s.ny := by omega
  unfold depth onGrid
  rw [if_neg (by omega)]
  simp only [hw, hnow, if_true, hpy]
  rw [if_neg (by omega), if_pos]
  intro h
  have : s.nx = p.nx := Nat.eq_of_mul_eq_mul_right (by omega : 0 < s.ny) h
  omega

/-- A process fills the first row of its own part, also where the whole grid has ocean in that row. -/
theorem C139_fill_first_row_wrong (hc : Proper clip) {rad scale : K} (hr : 0 < rad) {s : Source K} {g : Grid K} {p : Piece} (hx : 2 ≤ s.nx) (hy : 2 ≤ s.ny)
    (ho : Ordered s.ny s.yt) {k : Nat} (hk : k ≤ s.ny) (hin : Inside rad g p (yc rad s k)) (hp : 0 < p.ny) :
    ∃ d, depth clip rad scale s g p false true = .ok d ∧ ∀ i < p.nx,
      0 < meanDepth clip rad scale s (target rad g (p.isc + i) p.jsc) → d i = 0 ∧ d i ≠ meanDepth clip rad scale s (target rad g (p.isc + i) p.jsc) := by
  obtain ⟨d, hd, h⟩ := C139_depth_partial clip hc (scale := scale) hr hx hy ho hk hin true
  refine ⟨d, hd, fun i hi hpos => ?_⟩
  have := h i hi 0 hp
  rw [Nat.zero_mul, Nat.zero_add, if_pos ⟨rfl, rfl⟩] at this
  exact ⟨this, by rw [this]; exact ne_of_lt hpos⟩

/-! ### A source of three rows and two columns, a model grid of two rows, boxes clipped in the plane -/

/-- Common area of a box and the box of the first and third corner. -/
def rtClip (b : Box Rat) (q : Quad Rat) : Option Rat :=
  let w := min b.x1 q.p2.1 - max b.x0 q.p0.1
  let h := min (max b.y0 b.y1) q.p2.2 - max (min b.y0 b.y1) q.p0.2
  if 0 < w ∧ 0 < h then some (w * h) else none

theorem rtClip_proper : Proper rtClip := by
  constructor
  · intro b q a h
    unfold rtClip at h
    simp only at h
    split_ifs at h with h1
    rw [← Option.some.inj h]
    exact mul_pos h1.1 h1.2
  · intro b q a h
    unfold rtClip at h
    simp only at h
    split_ifs at h with h1
    have h2 := h1.2
    have a1 := min_le_left (max b.y0 b.y1) q.p2.2
    have a2 := min_le_right (max b.y0 b.y1) q.p2.2
    have a3 := le_max_left (min b.y0 b.y1) q.p0.2
    have a4 := le_max_right (min b.y0 b.y1) q.p0.2
    exact ⟨.inl (by linarith), .inr (.inr (.inl (by linarith)))⟩

/-- Heights, negative below the sea; -9999 is missing. -/
def rtSource : Source Rat where
  nx := 2
  ny := 3
  xt := fun i => 1 + 2 * (i : Rat)
  yt := fun j => 1 + 2 * (j : Rat)
  val := fun j i => if j = 0 then (if i = 0 then -9999 else -10) else if j = 1 then -20 else if i = 0 then 5 else -40
  missing := -9999

def rtGrid : Grid Rat where
  x := fun i _ => 2 * (i : Rat)
  y := fun _ j => 1 + 2 * (j : Rat)

def rtPiece : Piece := ⟨0, 0, 2, 2⟩

theorem C139_example : Ordered rtSource.ny rtSource.yt ∧ Inside 1 rtGrid rtPiece (yc 1 rtSource 1) ∧
    ∃ d, depth rtClip 1 (-1) rtSource rtGrid rtPiece false false = .ok d ∧ d 0 = 20 ∧ d 1 = 15 ∧ d 3 = 30 := by
  have hin : Inside 1 rtGrid rtPiece (yc 1 rtSource 1) := by
    refine ⟨⟨0, by decide, 0, by decide, ?_⟩, ⟨0, by decide, 1, by decide, ?_⟩⟩ <;> norm_num [rtGrid, rtPiece, yc, edge, mid, rtSource]
  have ho : Ordered rtSource.ny rtSource.yt := by
    left
    intro i j hij _
    have : (i : Rat) < (j : Rat) := by exact_mod_cast hij
    simp only [rtSource]
    linarith
  refine ⟨ho, hin, ?_⟩
  obtain ⟨d, hd, h⟩ := C139_depth_partial rtClip rtClip_proper (scale := -1) (rad := 1) (by norm_num) (s := rtSource) (g := rtGrid) (p := rtPiece) (by decide) (by decide) ho
    (k := 1) (by decide) hin false
  refine ⟨d, hd, ?_, ?_, ?_⟩
  · refine Eq.trans (h 0 (by decide) 0 (by decide)) ?_
    decide +kernel
  · refine Eq.trans (h 1 (by decide) 0 (by decide)) ?_
    decide +kernel
  · refine Eq.trans (h 1 (by decide) 1 (by decide)) ?_
    decide +kernel

/-- The same source, and a model grid inside its second row. -/
def rtFine : Grid Rat where
  x := fun i _ => (i : Rat)
  y := fun _ j => 2 + (j : Rat)

theorem C139_example_one_row : (∀ k ≤ rtSource.ny, ¬ Inside 1 rtFine rtPiece (yc 1 rtSource k)) ∧
    0 < meanDepth rtClip 1 (-1) rtSource (target 1 rtFine 0 0) := by
  constructor
  · intro k hk
    rintro ⟨⟨_, _, j, hj, h1⟩, ⟨_, _, j', hj', h2⟩⟩
    have hj2 : (j : Rat) ≤ 2 := by exact_mod_cast hj
    have hj2' : (j' : Rat) ≤ 2 := by exact_mod_cast hj'
    have hj0 : (0 : Rat) ≤ (j : Rat) := by positivity
    have hk' : k ≤ 3 := hk
    have hy : yc 1 rtSource k = 2 * (k : Rat) := by
      interval_cases k <;> norm_num [yc, edge, mid, rtSource]
    rw [hy] at h1 h2
    simp only [rtFine, rtPiece, Nat.zero_add, mul_one] at h1 h2
    interval_cases k
    · norm_num at h1; linarith
    · norm_num at h1; linarith
    · norm_num at h2; linarith
    · norm_num at h2; linarith
  · decide +kernel

/-- A model grid with the cells of the source. -/
def rtSame : Grid Rat where
  x := fun i _ => 2 * (i : Rat)
  y := fun _ j => edge 3 rtSource.yt j

theorem C139_example_on_grid : (∀ k, 1 ≤ k → k < rtSource.ny → Inside 1 rtSame ⟨0, 0, 2, 3⟩ (yc 1 rtSource k)) ∧
    (∃ d, depth rtClip 1 (-1) rtSource rtSame ⟨0, 0, 2, 3⟩ true false = .ok d ∧ d 0 = 0 ∧ d 3 = 20 ∧ d 4 = -5) ∧
    depth rtClip 1 (-1) rtSource rtSame ⟨0, 0, 2, 2⟩ true false = .error .undefined := by
  have hin : ∀ k, 1 ≤ k → k < rtSource.ny → Inside 1 rtSame ⟨0, 0, 2, 3⟩ (yc 1 rtSource k) := by
    intro k h1 h2
    have h3 : k < 3 := h2
    refine ⟨⟨0, by decide, 0, by decide, ?_⟩, ⟨0, by decide, 3, by decide, ?_⟩⟩ <;> interval_cases k <;> norm_num [rtSame, yc, edge, mid, rtSource]
  refine ⟨hin, ?_, ?_⟩
  · obtain ⟨d, hd, h⟩ := C139_on_grid_partial rtClip (rad := 1) (scale := -1) (s := rtSource) (g := rtSame) (p := ⟨0, 0, 2, 3⟩) (by decide) (by decide) rfl rfl hin
    refine ⟨d, hd, (h 0 (by decide) 0 (by decide)).1 (by decide +kernel), ?_, ?_⟩
    · exact ((h 1 (by decide) 1 (by decide)).2 (by decide +kernel) (by decide +kernel)).trans (by decide +kernel)
    · exact ((h 2 (by decide) 0 (by decide)).2 (by decide +kernel) (by decide +kernel)).trans (by decide +kernel)
  · refine C139_on_grid_processes_wrong rtClip (by norm_num) (by decide) (by decide) ?_ (fun _ _ => rfl) (by decide) rfl (by decide) false
    intro i j hij _
    have : (i : Rat) < (j : Rat) := by exact_mod_cast hij
    simp only [rtSource]
    linarith

end Verif
