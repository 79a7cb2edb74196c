import Verif.Spec.RealTopog
import Verif.Lemmas.RowRange
import Verif.Lemmas.Conserve
import Mathlib.Algebra.BigOperators.Ring.Finset
import Mathlib.Algebra.BigOperators.Intervals
import Mathlib.Algebra.BigOperators.Field
import Mathlib.Algebra.Order.BigOperators.Group.Finset
import Mathlib.Algebra.Order.Field.Basic
import Mathlib.Tactic.Ring
import Mathlib.Tactic.FieldSimp
import Mathlib.Tactic.Linarith
/-
Lemmas for create_realistic_topog.
-/
namespace Verif.RealTopog
open Conserve RowRange Verif.Spec.RealTopog Verif.Spec

section edges
variable {K : Type} [Field K] [LinearOrder K] [IsStrictOrderedRing K]

theorem mid_between {t : Nat → K} {i : Nat} (h : t i < t (i + 1)) : t i < mid t (i + 1) ∧ mid t (i + 1) < t (i + 1) := by
  unfold mid
  rw [Nat.add_sub_cancel]
  constructor
  · rw [lt_div_iff₀ (by norm_num)]; linarith
  · rw [div_lt_iff₀ (by norm_num)]; linarith

theorem edge_inner {n : Nat} {t : Nat → K} {i : Nat} (h0 : 0 < i) (h : i < n) : edge n t i = mid t i := by
  unfold edge
  rw [if_neg (by omega), if_neg (by omega)]

/-- The bounds lie around the centres. -/
theorem edge_around {n : Nat} (hn : 2 ≤ n) {t : Nat → K} (h : ∀ i, i + 1 < n → t i < t (i + 1)) {i : Nat} (hi : i < n) :
    edge n t i < t i ∧ t i < edge n t (i + 1) := by
  constructor
  · rcases Nat.eq_zero_or_pos i with rfl | h0
    · have := (mid_between (h 0 (by omega))).1
      simp only [edge, if_pos]
      simp only [Nat.zero_add] at this
      linarith
    · rw [edge_inner h0 hi]
      obtain ⟨k, rfl⟩ : ∃ k, i = k + 1 := ⟨i - 1, by omega⟩
      exact (mid_between (h k hi)).2
  · by_cases e : i + 1 = n
    · obtain ⟨k, rfl⟩ : ∃ k, i = k + 1 := ⟨i - 1, by omega⟩
      have := (mid_between (h k (by omega))).2
      unfold edge
      rw [if_neg (by omega), if_pos e]
      have e1 : n - 1 = k + 1 := by omega
      rw [e1]
      linarith
    · rw [edge_inner (by omega) (by omega)]
      exact (mid_between (h i (by omega))).1

theorem edge_lt {n : Nat} (hn : 2 ≤ n) {t : Nat → K} (h : ∀ i, i + 1 < n → t i < t (i + 1)) {i j : Nat} (hij : i < j) (hj : j ≤ n) :
    edge n t i < edge n t j := by
  induction j with
  | zero => omega
  | succ j ih =>
    have h1 := edge_around hn h (i := j) (by omega)
    rcases Nat.lt_or_ge i j with h2 | h2
    · have := ih h2 (by omega); linarith [h1.1, h1.2]
    · obtain rfl : i = j := by omega
      linarith [h1.1, h1.2]

theorem edge_neg (n : Nat) (t : Nat → K) (i : Nat) : edge n (fun k => -t k) i = -edge n t i := by
  unfold edge mid
  split_ifs <;> ring

theorem edge_gt {n : Nat} (hn : 2 ≤ n) {t : Nat → K} (h : ∀ i, i + 1 < n → t (i + 1) < t i) {i j : Nat} (hij : i < j) (hj : j ≤ n) :
    edge n t j < edge n t i := by
  have := edge_lt hn (t := fun k => -t k) (fun i hi => by simpa using h i hi) hij hj
  rw [edge_neg, edge_neg] at this
  linarith

/-- The bounds in radians are ordered as the centres are. -/
theorem yc_ordered {rad : K} (hr : 0 < rad) {s : Source K} (hn : 2 ≤ s.ny) (h : Ordered s.ny s.yt) :
    (∀ i j, i < j → j ≤ s.ny → yc rad s i < yc rad s j) ∨ (∀ i j, i < j → j ≤ s.ny → yc rad s j < yc rad s i) := by
  rcases h with h | h
  · exact .inl fun i j hij hj => mul_lt_mul_of_pos_right (edge_lt hn (fun k hk => h k (k + 1) (by omega) hk) hij hj) hr
  · exact .inr fun i j hij hj => mul_lt_mul_of_pos_right (edge_gt hn (fun k hk => h k (k + 1) (by omega) hk) hij hj) hr

end edges

/-! ### The window -/
section window
variable {K : Type} [Field K] [LinearOrder K]

theorem scanEdges_fold (e : Nat → K) (lo hi : K) : ∀ (l : List Nat) (s : Int × Int),
    let r := l.foldl (fun (s : Int × Int) j => if lo < e j ∧ e j < hi then (min s.1 (j : Int), max s.2 (j : Int)) else s) s
    r.1 ≤ s.1 ∧ s.2 ≤ r.2 ∧ (∀ j ∈ l, lo < e j ∧ e j < hi → r.1 ≤ (j : Int) ∧ (j : Int) ≤ r.2) ∧
      (r = s ∨ ((r.1 = s.1 ∨ ∃ j ∈ l, (lo < e j ∧ e j < hi) ∧ r.1 = (j : Int)) ∧ (r.2 = s.2 ∨ ∃ j ∈ l, (lo < e j ∧ e j < hi) ∧ r.2 = (j : Int))))
  | [], s => ⟨le_refl _, le_refl _, by simp, .inl rfl⟩
  | a :: l, s => by
    intro r
    by_cases h : lo < e a ∧ e a < hi
    · have e1 : r = l.foldl (fun (s : Int × Int) j => if lo < e j ∧ e j < hi then (min s.1 (j : Int), max s.2 (j : Int)) else s)
          (min s.1 (a : Int), max s.2 (a : Int)) := by
        simp only [r, List.foldl_cons, if_pos h]
      obtain ⟨i1, i2, i3, i4⟩ := scanEdges_fold e lo hi l (min s.1 (a : Int), max s.2 (a : Int))
      rw [← e1] at i1 i2 i3 i4
      dsimp only at i1 i2
      refine ⟨by omega, by omega, ?_, .inr ?_⟩
      · intro j hj hl
        rcases List.mem_cons.1 hj with rfl | hj
        · exact ⟨by omega, by omega⟩
        · exact i3 j hj hl
      · have i5 : (r.1 = min s.1 (a : Int) ∨ ∃ j ∈ l, (lo < e j ∧ e j < hi) ∧ r.1 = (j : Int)) ∧
            (r.2 = max s.2 (a : Int) ∨ ∃ j ∈ l, (lo < e j ∧ e j < hi) ∧ r.2 = (j : Int)) := by
          rcases i4 with i4 | i4
          · exact ⟨.inl (by rw [i4]), .inl (by rw [i4])⟩
          · exact i4
        constructor
        · rcases i5.1 with i | ⟨j, hj, hl, i⟩
          · rcases Int.le_total s.1 a with m | m
            · exact .inl (by rw [i, min_eq_left m])
            · exact .inr ⟨a, by simp, h, by rw [i, min_eq_right m]⟩
          · exact .inr ⟨j, by simp [hj], hl, i⟩
        · rcases i5.2 with i | ⟨j, hj, hl, i⟩
          · rcases Int.le_total a s.2 with m | m
            · exact .inl (by rw [i, max_eq_left m])
            · exact .inr ⟨a, by simp, h, by rw [i, max_eq_right m]⟩
          · exact .inr ⟨j, by simp [hj], hl, i⟩
    · have e1 : r = l.foldl (fun (s : Int × Int) j => if lo < e j ∧ e j < hi then (min s.1 (j : Int), max s.2 (j : Int)) else s) s := by
        simp only [r, List.foldl_cons, if_neg h]
      obtain ⟨i1, i2, i3, i4⟩ := scanEdges_fold e lo hi l s
      rw [← e1] at i1 i2 i3 i4
      refine ⟨i1, i2, ?_, ?_⟩
      · intro j hj hl
        rcases List.mem_cons.1 hj with rfl | hj
        · exact absurd hl h
        · exact i3 j hj hl
      · rcases i4 with i4 | ⟨i4, i5⟩
        · exact .inl i4
        · refine .inr ⟨?_, ?_⟩
          · rcases i4 with i | ⟨j, hj, hl, i⟩
            · exact .inl i
            · exact .inr ⟨j, by simp [hj], hl, i⟩
          · rcases i5 with i | ⟨j, hj, hl, i⟩
            · exact .inl i
            · exact .inr ⟨j, by simp [hj], hl, i⟩

/-- No bound inside. -/
theorem scanEdges_none {ny : Nat} {e : Nat → K} {lo hi : K} (h : ∀ j ≤ ny, ¬ (lo < e j ∧ e j < hi)) :
    scanEdges ny e lo hi = ((ny : Int), -1) := by
  unfold scanEdges
  have : ∀ (l : List Nat) (s : Int × Int), (∀ j ∈ l, j ≤ ny) →
      l.foldl (fun (s : Int × Int) j => if lo < e j ∧ e j < hi then (min s.1 (j : Int), max s.2 (j : Int)) else s) s = s := by
    intro l
    induction l with
    | nil => intro s _; rfl
    | cons a l ih =>
      intro s hl
      rw [List.foldl_cons, if_neg (h a (hl a (by simp)))]
      exact ih s fun j hj => hl j (by simp [hj])
  exact this _ _ fun j hj => by have := List.mem_range.1 hj; omega

/-- First and last bound inside. -/
theorem scanEdges_some {ny : Nat} {e : Nat → K} {lo hi : K} {k : Nat} (hk : k ≤ ny) (h : lo < e k ∧ e k < hi) :
    ∃ a b : Nat, scanEdges ny e lo hi = ((a : Int), (b : Int)) ∧ a ≤ k ∧ k ≤ b ∧ b ≤ ny ∧ (lo < e a ∧ e a < hi) ∧ (lo < e b ∧ e b < hi) ∧
      ∀ j ≤ ny, lo < e j ∧ e j < hi → a ≤ j ∧ j ≤ b := by
  obtain ⟨h1, h2, h3, h4⟩ := scanEdges_fold e lo hi (List.range (ny + 1)) ((ny : Int), -1)
  generalize hr : (List.range (ny + 1)).foldl (fun (s : Int × Int) j => if lo < e j ∧ e j < hi then (min s.1 (j : Int), max s.2 (j : Int)) else s)
    ((ny : Int), -1) = r at h1 h2 h3 h4
  have e0 : scanEdges ny e lo hi = r := hr
  obtain ⟨k1, k2⟩ := h3 k (List.mem_range.2 (by omega)) h
  have a1 : ∃ a : Nat, a ≤ ny ∧ (lo < e a ∧ e a < hi) ∧ r.1 = (a : Int) := by
    rcases h4 with h4 | ⟨h4, _⟩
    · rw [h4] at k2; simp only at k2; omega
    · rcases h4 with h4 | ⟨j, hj, hl, i⟩
      · obtain rfl : k = ny := by simp only at h4; omega
        exact ⟨k, hk, h, h4⟩
      · exact ⟨j, by have := List.mem_range.1 hj; omega, hl, i⟩
  have b1 : ∃ b : Nat, b ≤ ny ∧ (lo < e b ∧ e b < hi) ∧ r.2 = (b : Int) := by
    rcases h4 with h4 | ⟨_, h4⟩
    · rw [h4] at k2; simp only at k2; omega
    · rcases h4 with h4 | ⟨j, hj, hl, i⟩
      · simp only at h4; omega
      · exact ⟨j, by have := List.mem_range.1 hj; omega, hl, i⟩
  obtain ⟨a, ha, ha1, ha2⟩ := a1
  obtain ⟨b, hb, hb1, hb2⟩ := b1
  refine ⟨a, b, ?_, by omega, by omega, hb, ha1, hb1, ?_⟩
  · rw [e0]; exact Prod.ext ha2 hb2
  · intro j hj hl
    have := h3 j (List.mem_range.2 (by omega)) hl
    omega

/-- Rows outside the window lie on one side of the target grid. -/
theorem outside_window {ny : Nat} {e : Nat → K} {lo hi : K} {k : Nat} (hk : k ≤ ny) (h : lo < e k ∧ e k < hi)
    (ho : (∀ i j, i < j → j ≤ ny → e i < e j) ∨ (∀ i j, i < j → j ≤ ny → e j < e i)) {j : Nat} (hj : j < ny)
    (hlo : lo < max (e j) (e (j + 1))) (hhi : min (e j) (e (j + 1)) < hi) :
    (clampRows ny (scanEdges ny e lo hi)).1 ≤ (j : Int) ∧ (j : Int) ≤ (clampRows ny (scanEdges ny e lo hi)).2 := by
  obtain ⟨a, b, e0, ak, kb, bn, ha, hb, hall⟩ := scanEdges_some hk h
  rw [e0]
  unfold clampRows
  have c1 : a ≤ j + 1 := by
    by_contra hc
    have hc1 : j + 1 < a := by omega
    rcases ho with ho | ho
    · have m := max_eq_right (le_of_lt (ho j (j + 1) (by omega) (by omega)))
      rw [m] at hlo
      have := hall (j + 1) (by omega) ⟨hlo, (ho (j + 1) a hc1 (by omega)).trans ha.2⟩
      omega
    · have m := min_eq_right (le_of_lt (ho j (j + 1) (by omega) (by omega)))
      rw [m] at hhi
      have := hall (j + 1) (by omega) ⟨ha.1.trans (ho (j + 1) a hc1 (by omega)), hhi⟩
      omega
  have c2 : j ≤ b := by
    by_contra hc
    have hc1 : b < j := by omega
    rcases ho with ho | ho
    · have m := min_eq_left (le_of_lt (ho j (j + 1) (by omega) (by omega)))
      rw [m] at hhi
      have := hall j (by omega) ⟨hb.1.trans (ho b j hc1 (by omega)), hhi⟩
      omega
    · have m := max_eq_left (le_of_lt (ho j (j + 1) (by omega) (by omega)))
      rw [m] at hlo
      have := hall j (by omega) ⟨hlo, (ho b j hc1 (by omega)).trans hb.2⟩
      omega
  constructor
  · simp only; omega
  · simp only; omega

/-- With a bound inside the window has at least one row. -/
theorem window_some {ny : Nat} (hny : 2 ≤ ny) {e : Nat → K} {lo hi : K} {k : Nat} (hk : k ≤ ny) (h : lo < e k ∧ e k < hi) :
    ∃ js je : Nat, clampRows ny (scanEdges ny e lo hi) = ((js : Int), (je : Int)) ∧ js ≤ je ∧ je < ny := by
  obtain ⟨a, b, e0, ak, kb, bn, _, _, _⟩ := scanEdges_some hk h
  rw [e0]
  unfold clampRows
  refine ⟨a - 1, min (ny - 1) (b + 1), ?_, by omega, by omega⟩
  refine Prod.ext ?_ ?_ <;> simp only <;> omega

end window

/-! ### The target grid -/
section target
variable {K : Type} [Field K] [LinearOrder K]

theorem point_eq {nx i j : Nat} (hi : i ≤ nx) : (j * (nx + 1) + i) % (nx + 1) = i ∧ (j * (nx + 1) + i) / (nx + 1) = j := by
  constructor
  · rw [Nat.mul_comm, Nat.mul_add_mod]; exact Nat.mod_eq_of_lt (by omega)
  · rw [Nat.mul_comm, Nat.mul_add_div (by omega), Nat.div_eq_of_lt (by omega)]; rfl

theorem cell_eq {nx i j : Nat} (hi : i < nx) : (j * nx + i) % nx = i ∧ (j * nx + i) / nx = j := by
  constructor
  · rw [Nat.mul_comm, Nat.mul_add_mod]; exact Nat.mod_eq_of_lt hi
  · rw [Nat.mul_comm, Nat.mul_add_div (by omega), Nat.div_eq_of_lt hi]; rfl

theorem yOut_eq (rad : K) (g : Grid K) (p : Piece) {i j : Nat} (hi : i ≤ p.nx) :
    yOut rad g p (j * (p.nx + 1) + i) = g.y (p.isc + i) (p.jsc + j) * rad := by
  unfold yOut; rw [(point_eq hi).1, (point_eq hi).2]

theorem xOut_eq (rad : K) (g : Grid K) (p : Piece) {i j : Nat} (hi : i ≤ p.nx) :
    xOut rad g p (j * (p.nx + 1) + i) = g.x (p.isc + i) (p.jsc + j) * rad := by
  unfold xOut; rw [(point_eq hi).1, (point_eq hi).2]

theorem quad_eq (rad : K) (g : Grid K) (p : Piece) {i j : Nat} (hi : i < p.nx) :
    quad rad g p (j * p.nx + i) = target rad g (p.isc + i) (p.jsc + j) := by
  unfold quad target
  simp only [(cell_eq hi).1, (cell_eq hi).2, corner]
  have a := xOut_eq rad g p (i := i) (j := j) (by omega)
  have b := xOut_eq rad g p (i := i + 1) (j := j) (by omega)
  have c := xOut_eq rad g p (i := i + 1) (j := j + 1) (by omega)
  have d := xOut_eq rad g p (i := i) (j := j + 1) (by omega)
  have a' := yOut_eq rad g p (i := i) (j := j) (by omega)
  have b' := yOut_eq rad g p (i := i + 1) (j := j) (by omega)
  have c' := yOut_eq rad g p (i := i + 1) (j := j + 1) (by omega)
  have d' := yOut_eq rad g p (i := i) (j := j + 1) (by omega)
  simp only [← Nat.add_assoc] at a b c d a' b' c' d' ⊢
  rw [a, b, c, d, a', b', c', d']

theorem quad_south (rad : K) (g : Grid K) (p : Piece) (ij : Nat) {y : K} (h : southOf (quad rad g p ij) y) :
    cellMin (yOut rad g p) p.nx (ij % p.nx) (ij / p.nx) < y := by
  unfold cellMin
  rcases h with h | h | h | h
  · exact lt_of_le_of_lt (minval_le _ (k := 0) (by omega)) h
  · exact lt_of_le_of_lt (minval_le _ (k := 1) (by omega)) h
  · exact lt_of_le_of_lt (minval_le _ (k := 2) (by omega)) h
  · exact lt_of_le_of_lt (minval_le _ (k := 3) (by omega)) h

theorem quad_north (rad : K) (g : Grid K) (p : Piece) (ij : Nat) {y : K} (h : northOf (quad rad g p ij) y) :
    y < cellMax (yOut rad g p) p.nx (ij % p.nx) (ij / p.nx) := by
  unfold cellMax
  rcases h with h | h | h | h
  · exact lt_of_lt_of_le h (le_maxval (fun k => yOut rad g p (corner p.nx (ij % p.nx) (ij / p.nx) k)) (k := 0) (by omega))
  · exact lt_of_lt_of_le h (le_maxval (fun k => yOut rad g p (corner p.nx (ij % p.nx) (ij / p.nx) k)) (k := 1) (by omega))
  · exact lt_of_lt_of_le h (le_maxval (fun k => yOut rad g p (corner p.nx (ij % p.nx) (ij / p.nx) k)) (k := 2) (by omega))
  · exact lt_of_lt_of_le h (le_maxval (fun k => yOut rad g p (corner p.nx (ij % p.nx) (ij / p.nx) k)) (k := 3) (by omega))

theorem cell_in_range (rad : K) (g : Grid K) (p : Piece) {ij : Nat} (h : ij < p.nx * p.ny) :
    minval (yOut rad g p) ((p.nx + 1) * (p.ny + 1)) ≤ cellMin (yOut rad g p) p.nx (ij % p.nx) (ij / p.nx) ∧
    cellMax (yOut rad g p) p.nx (ij % p.nx) (ij / p.nx) ≤ maxval (yOut rad g p) ((p.nx + 1) * (p.ny + 1)) :=
  yMin_le (β := Unit) ⟨0, 0, p.nx, p.ny, yOut rad g p, yOut rad g p, fun _ _ _ => true, fun _ _ _ => none⟩ h

theorem inside_iff (rad : K) (g : Grid K) (p : Piece) (y : K) : Inside rad g p y ↔
    minval (yOut rad g p) ((p.nx + 1) * (p.ny + 1)) < y ∧ y < maxval (yOut rad g p) ((p.nx + 1) * (p.ny + 1)) := by
  have pos : 0 < (p.nx + 1) * (p.ny + 1) := Nat.mul_pos (by omega) (by omega)
  have back : ∀ k, k < (p.nx + 1) * (p.ny + 1) → k % (p.nx + 1) ≤ p.nx ∧ k / (p.nx + 1) ≤ p.ny := by
    intro k hk
    have := Nat.mod_lt k (show 0 < p.nx + 1 by omega)
    have := Nat.div_lt_of_lt_mul hk
    omega
  have fwd : ∀ i j, i ≤ p.nx → j ≤ p.ny → j * (p.nx + 1) + i < (p.nx + 1) * (p.ny + 1) := by
    intro i j hi hj
    calc j * (p.nx + 1) + i < j * (p.nx + 1) + (p.nx + 1) := by omega
      _ = (p.nx + 1) * (j + 1) := by ring
      _ ≤ _ := Nat.mul_le_mul_left _ (by omega)
  unfold Inside
  constructor
  · rintro ⟨⟨i, hi, j, hj, h1⟩, ⟨i', hi', j', hj', h2⟩⟩
    rw [← yOut_eq rad g p hi] at h1
    rw [← yOut_eq rad g p hi'] at h2
    exact ⟨lt_of_le_of_lt (minval_le _ (fwd i j hi hj)) h1, lt_of_lt_of_le h2 (le_maxval _ (fwd i' j' hi' hj'))⟩
  · rintro ⟨h1, h2⟩
    obtain ⟨k, hk, e⟩ := minval_mem (yOut rad g p) pos
    obtain ⟨k', hk', e'⟩ := maxval_mem (yOut rad g p) pos
    rw [e] at h1
    rw [e'] at h2
    exact ⟨⟨_, (back k hk).1, _, (back k hk).2, h1⟩, ⟨_, (back k' hk').1, _, (back k' hk').2, h2⟩⟩

end target

/-! ### Sums -/
section sums
variable {K : Type} [Field K] [LinearOrder K]

omit [LinearOrder K] in
theorem total_flatMap_range {α : Type} (f : α → K) (n : Nat) (l : Nat → List α) :
    total f ((List.range n).flatMap l) = ∑ i ∈ Finset.range n, total f (l i) := by
  induction n with
  | zero => simp [total]
  | succ n ih => rw [List.range_succ, List.flatMap_append, total_append, ih, Finset.sum_range_succ]; simp

/-- The contribution of the target cell `ij` among the numbers below `n`. -/
theorem filterMap_single {α : Type} (f : α → K) (key : α → Nat) (m : Nat → Option α) (hm : ∀ ij a, m ij = some a → key a = ij) (ij n : Nat) :
    total f (((List.range n).filterMap m).filter fun c => decide (key c = ij)) = if ij < n then (m ij).elim 0 f else 0 := by
  induction n with
  | zero => simp [total]
  | succ n ih =>
    rw [List.range_succ, List.filterMap_append, List.filter_append, total_append, ih]
    by_cases h : ij < n
    · rw [if_pos h, if_pos (by omega)]
      cases hn : m n with
      | none => simp [hn, total]
      | some a =>
        have : key a ≠ ij := by rw [hm n a hn]; omega
        simp [hn, this, total]
    · rw [if_neg h]
      by_cases h2 : ij = n
      · subst h2
        rw [if_pos (by omega)]
        cases hn : m ij with
        | none => simp [hn, total]
        | some a => simp [hn, hm ij a hn, total]
      · rw [if_neg (by omega)]
        cases hn : m n with
        | none => simp [hn, total]
        | some a =>
          have : key a ≠ ij := by rw [hm n a hn]; omega
          simp [hn, this, total]

variable (clip : Box K → Quad K → Option K)

theorem ocean_iff [IsStrictOrderedRing K] (s : Source K) (scale : K) (j i : Nat) : ocean s scale j i = true ↔ wet s scale j i := by
  unfold ocean wet
  split_ifs with h1 h2
  · simp [h1]
  · simp [h1, h2]
  · simp [h1, not_le.1 h2]

theorem scaled_wet {s : Source K} {scale : K} {j i : Nat} (h : wet s scale j i) : scaled s scale j i = s.val j i * scale := by
  unfold scaled; rw [if_neg h.1]

/-- Sum over the exchange cells of one target cell. -/
theorem total_cells [IsStrictOrderedRing K] (hc : Proper clip) (rad scale : K) (s : Source K) (g : Grid K) (p : Piece) (js nyNow : Nat)
    {i j : Nat} (hi : i < p.nx) (hj : j < p.ny) (f : XCell K → K) (v : Nat → Nat → K)
    (hf : ∀ j1 < nyNow, ∀ i1 < s.nx, ∀ a, wet s scale (js + j1) i1 → f ⟨0, i1, j1, i, j, a, 0, 0⟩ = a * v (js + j1) i1) :
    total f ((cells clip rad scale s g p js nyNow).filter fun c => decide (c.j2 * p.nx + c.i2 = j * p.nx + i)) =
      ∑ j1 ∈ Finset.range nyNow, ∑ i1 ∈ Finset.range s.nx,
        wetArea clip rad scale s (target rad g (p.isc + i) (p.jsc + j)) (js + j1) i1 * v (js + j1) i1 := by
  unfold cells
  rw [List.filter_flatMap, total_flatMap_range]
  refine Finset.sum_congr rfl fun j1 hj1 => ?_
  rw [List.filter_flatMap, total_flatMap_range]
  refine Finset.sum_congr rfl fun i1 hi1 => ?_
  have hj1' := Finset.mem_range.1 hj1
  have hi1' := Finset.mem_range.1 hi1
  by_cases hw : wet s scale (js + j1) i1
  · rw [if_pos ((ocean_iff s scale _ _).2 hw)]
    rw [filterMap_single f (fun c : XCell K => c.j2 * p.nx + c.i2)]
    · have hlt : j * p.nx + i < p.nx * p.ny := by
        calc j * p.nx + i < j * p.nx + p.nx := by omega
          _ = p.nx * (j + 1) := by ring
          _ ≤ _ := Nat.mul_le_mul_left _ (by omega)
      rw [if_pos hlt, (cell_eq hi).1, (cell_eq hi).2]
      have hq := quad_eq rad g p (i := i) (j := j) hi
      unfold wetArea
      rw [if_pos hw]
      cases hcl : clip (box rad s (js + j1) i1) (target rad g (p.isc + i) (p.jsc + j)) with
      | none => simp [hq, hcl]
      | some a =>
        have hnear : latNear rad s g p (js + j1) (j * p.nx + i) = true := by
          obtain ⟨l1, l2⟩ := hc.lat _ _ _ hcl
          rw [← hq] at l1 l2
          have m1 := quad_south rad g p _ l1
          have m2 := quad_north rad g p _ l2
          unfold latNear
          simp only [box] at m1 m2
          rw [decide_eq_false (not_le.2 m1), decide_eq_false (not_le.2 m2)]
          rfl
        simp only [hnear, if_true, hq, hcl, Option.map_some, Option.elim_some, Option.getD_some]
        exact hf j1 hj1' i1 hi1' a hw
    · intro ij a h
      split_ifs at h
      obtain ⟨b, _, rfl⟩ := Option.map_eq_some_iff.1 h
      simp only
      rw [Nat.mul_comm]
      exact Nat.div_add_mod ij p.nx
  · rw [if_neg (fun h => hw ((ocean_iff s scale _ _).1 h))]
    unfold wetArea
    rw [if_neg hw]
    simp [total]

omit [LinearOrder K] in
/-- A sum over the rows of the window is a sum over all rows. -/
theorem sum_window (F : Nat → K) {js n ny : Nat} (h : js + n ≤ ny) (h0 : ∀ j < ny, F j ≠ 0 → js ≤ j ∧ j < js + n) :
    ∑ j1 ∈ Finset.range n, F (js + j1) = ∑ j ∈ Finset.range ny, F j := by
  have e : ∑ j1 ∈ Finset.range n, F (js + j1) = ∑ j ∈ Finset.Ico js (js + n), F j := by
    rw [Finset.sum_Ico_eq_sum_range]
    rw [Nat.add_sub_cancel_left]
  rw [e]
  refine Finset.sum_subset ?_ ?_
  · intro j hj
    have := Finset.mem_Ico.1 hj
    exact Finset.mem_range.2 (by omega)
  · intro j hj hn
    by_contra hF
    exact hn (Finset.mem_Ico.2 (h0 j (Finset.mem_range.1 hj) hF))

end sums

end Verif.RealTopog
