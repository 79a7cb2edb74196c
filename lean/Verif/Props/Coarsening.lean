import Verif.Model.Bilinear
import Mathlib.Algebra.BigOperators.Intervals
import Mathlib.Algebra.Order.Ring.Rat
import Mathlib.Algebra.Field.Rat
import Mathlib.Tactic.NormNum
import Mathlib.Tactic.Linarith
import Mathlib.Tactic.Positivity
import Mathlib.Tactic.FieldSimp
import Mathlib.Tactic.LinearCombination
/-
C78: coarsening of an interpolated field to the grid asked for.
-/
namespace Verif

open Verif.Bilinear Finset

section step
variable {K : Type} [Field K] [LinearOrder K] [IsStrictOrderedRing K]

theorem coarse_cosp_inner {n j : Nat} (c : Nat → K) (h0 : 0 < j) (h1 : j + 1 < n) : cosp n c j = c j := by
  unfold cosp
  rw [if_neg (by omega)]

theorem coarse_west_lt {nx i : Nat} (hi : i < nx) : west (2 * nx) i < 2 * nx := by
  unfold west
  split <;> omega

/-- Value of an inner row without missing value. -/
theorem redu2x_inner (nx : Nat) {N j2 : Nat} (c : Nat → K) (v : Nat → Nat → K) (i : Nat) (h0 : 0 < j2) (h1 : j2 < N) :
    redu2x none (2 * nx) (2 * N + 1) c v j2 i
      = 1 / (c (2 * j2) + 1 / 2 * (c (2 * j2 - 1) + c (2 * j2 + 1)))
        * (xSweep none (2 * nx) v (2 * j2) i * c (2 * j2)
          + 1 / 2 * (xSweep none (2 * nx) v (2 * j2 - 1) i * c (2 * j2 - 1)
            + xSweep none (2 * nx) v (2 * j2 + 1) i * c (2 * j2 + 1))) := by
  unfold redu2x
  rw [if_neg (by omega), if_neg (by omega)]
  dsimp only
  unfold acosp scaled
  dsimp only
  rw [coarse_cosp_inner c (by omega) (by omega), coarse_cosp_inner c (by omega) (by omega),
    coarse_cosp_inner c (by omega) (by omega)]

theorem redu2x_range (nx N : Nat) (c : Nat → K) (v : Nat → Nat → K) (lo hi : K) (hN : 1 ≤ N)
    (hc : ∀ j, 0 < j → j < 2 * N → 0 < c j) (hv : ∀ j i, j < 2 * N + 1 → i < 2 * nx → lo ≤ v j i ∧ v j i ≤ hi)
    (j2 i : Nat) (hj : j2 < N + 1) (hi' : i < nx) :
    lo ≤ redu2x none (2 * nx) (2 * N + 1) c v j2 i ∧ redu2x none (2 * nx) (2 * N + 1) c v j2 i ≤ hi := by
  by_cases h0 : j2 = 0
  · unfold redu2x
    rw [if_pos h0]
    exact hv 0 _ (by omega) (by omega)
  by_cases h1 : j2 = N
  · unfold redu2x
    rw [if_neg h0, if_pos (by omega)]
    exact hv _ _ (by omega) (by omega)
  have hx : ∀ j, j < 2 * N + 1 → lo ≤ xSweep none (2 * nx) v j i ∧ xSweep none (2 * nx) v j i ≤ hi := by
    intro j hj
    have a := hv j (west (2 * nx) i) hj (coarse_west_lt hi')
    have b := hv j (2 * i) hj (by omega)
    have d := hv j (2 * i + 1) hj (by omega)
    unfold xSweep
    dsimp only
    constructor <;> linarith
  rw [redu2x_inner nx c v i (by omega) (by omega)]
  have p0 := hc (2 * j2) (by omega) (by omega)
  have p1 := hc (2 * j2 - 1) (by omega) (by omega)
  have p2 := hc (2 * j2 + 1) (by omega) (by omega)
  have x0 := hx (2 * j2) (by omega)
  have x1 := hx (2 * j2 - 1) (by omega)
  have x2 := hx (2 * j2 + 1) (by omega)
  have hp : 0 < c (2 * j2) + 1 / 2 * (c (2 * j2 - 1) + c (2 * j2 + 1)) := by positivity
  rw [one_div_mul_eq_div, le_div_iff₀ hp, div_le_iff₀ hp]
  constructor
  · have := mul_le_mul_of_nonneg_right x0.1 p0.le
    have := mul_le_mul_of_nonneg_right x1.1 p1.le
    have := mul_le_mul_of_nonneg_right x2.1 p2.le
    linarith
  · have := mul_le_mul_of_nonneg_right x0.2 p0.le
    have := mul_le_mul_of_nonneg_right x1.2 p1.le
    have := mul_le_mul_of_nonneg_right x2.2 p2.le
    linarith

theorem coarse_sum_x (nx : Nat) (v : Nat → Nat → K) (j : Nat) :
    ∑ i ∈ range nx, xSweep none (2 * nx) v j i = 1 / 2 * ∑ i ∈ range (2 * nx), v j i := by
  have h1 : ∀ n, ∑ i ∈ range (2 * n), v j i = ∑ i ∈ range n, (v j (2 * i) + v j (2 * i + 1)) := by
    intro n
    induction n with
    | zero => simp
    | succ n ih =>
      rw [show 2 * (n + 1) = 2 * n + 1 + 1 by ring, sum_range_succ, sum_range_succ, ih, sum_range_succ]
      ring
  have h2 : ∀ n N, n + 1 ≤ N → ∑ i ∈ range (n + 1), v j (west (2 * N) i) = v j (2 * N - 1) + ∑ i ∈ range n, v j (2 * i + 1) := by
    intro n N hn
    induction n with
    | zero => simp [west]
    | succ n ih =>
      rw [sum_range_succ, ih (by omega), sum_range_succ]
      have : west (2 * N) (n + 1) = 2 * n + 1 := by
        unfold west
        rw [if_neg (by omega)]
        omega
      rw [this]
      ring
  cases nx with
  | zero => simp
  | succ n =>
    have h3 := h2 n (n + 1) le_rfl
    rw [show 2 * (n + 1) - 1 = 2 * n + 1 by omega] at h3
    have h4 : ∑ i ∈ range (n + 1), v j (2 * i + 1) = ∑ i ∈ range n, v j (2 * i + 1) + v j (2 * n + 1) := sum_range_succ _ _
    rw [h1, sum_add_distrib]
    unfold xSweep
    dsimp only
    rw [← mul_sum, sum_add_distrib, sum_add_distrib, h3, ← mul_sum, h4]
    ring

theorem coarse_sum_y (t : Nat → K) (N : Nat) (hN : 1 ≤ N) :
    ∑ k ∈ range (N - 1), (t (2 * (k + 1)) + 1 / 2 * (t (2 * (k + 1) - 1) + t (2 * (k + 1) + 1)))
      = ∑ k ∈ range (2 * N - 1), t (k + 1) - 1 / 2 * (t 1 + t (2 * N - 1)) := by
  obtain ⟨n, rfl⟩ : ∃ n, N = n + 1 := ⟨N - 1, by omega⟩
  induction n with
  | zero => simp; ring
  | succ n ih =>
    have ih := ih (by omega)
    rw [show n + 1 + 1 - 1 = n + 1 by omega, sum_range_succ]
    rw [show n + 1 - 1 = n by omega] at ih
    rw [ih, show 2 * (n + 1 + 1) - 1 = 2 * n + 3 by omega, show 2 * (n + 1) - 1 = 2 * n + 1 by omega,
      sum_range_succ (fun k => t (k + 1)) (2 * n + 2), sum_range_succ (fun k => t (k + 1)) (2 * n + 1),
      show 2 * (n + 1) + 1 = 2 * n + 3 by omega, show 2 * (n + 1) = 2 * n + 2 by omega,
      show 2 * n + 2 + 1 = 2 * n + 3 by omega, show 2 * n + 1 + 1 = 2 * n + 2 by omega]
    ring

/-- C78: one step of coarsening keeps the mean, weighted with the cosine of latitude, over the inner rows: the sum over
the coarse grid is half the sum over the fine grid less the part of the rows next to the poles that belongs to the pole
rows. -/
theorem C78_mean (nx N : Nat) (c : Nat → K) (v : Nat → Nat → K) (hN : 1 ≤ N) (hc : ∀ j, 0 < j → j < 2 * N → 0 < c j) :
    ∑ k ∈ range (N - 1), ∑ i ∈ range nx,
        (c (2 * (k + 1)) + 1 / 2 * (c (2 * (k + 1) - 1) + c (2 * (k + 1) + 1)))
          * redu2x none (2 * nx) (2 * N + 1) c v (k + 1) i
      = 1 / 2 * (∑ k ∈ range (2 * N - 1), c (k + 1) * ∑ i ∈ range (2 * nx), v (k + 1) i
        - 1 / 2 * (c 1 * ∑ i ∈ range (2 * nx), v 1 i + c (2 * N - 1) * ∑ i ∈ range (2 * nx), v (2 * N - 1) i)) := by
  have hrow : ∀ k ∈ range (N - 1), ∑ i ∈ range nx,
      (c (2 * (k + 1)) + 1 / 2 * (c (2 * (k + 1) - 1) + c (2 * (k + 1) + 1)))
        * redu2x none (2 * nx) (2 * N + 1) c v (k + 1) i
      = 1 / 2 * ((fun j => c j * ∑ i ∈ range (2 * nx), v j i) (2 * (k + 1))
        + 1 / 2 * ((fun j => c j * ∑ i ∈ range (2 * nx), v j i) (2 * (k + 1) - 1)
          + (fun j => c j * ∑ i ∈ range (2 * nx), v j i) (2 * (k + 1) + 1))) := by
    intro k hk
    rw [mem_range] at hk
    have p0 := hc (2 * (k + 1)) (by omega) (by omega)
    have p1 := hc (2 * (k + 1) - 1) (by omega) (by omega)
    have p2 := hc (2 * (k + 1) + 1) (by omega) (by omega)
    have hp : c (2 * (k + 1)) + 1 / 2 * (c (2 * (k + 1) - 1) + c (2 * (k + 1) + 1)) ≠ 0 := by positivity
    have e : ∀ i ∈ range nx, (c (2 * (k + 1)) + 1 / 2 * (c (2 * (k + 1) - 1) + c (2 * (k + 1) + 1)))
        * redu2x none (2 * nx) (2 * N + 1) c v (k + 1) i
        = xSweep none (2 * nx) v (2 * (k + 1)) i * c (2 * (k + 1))
          + (1 / 2 * c (2 * (k + 1) - 1) * xSweep none (2 * nx) v (2 * (k + 1) - 1) i
            + 1 / 2 * c (2 * (k + 1) + 1) * xSweep none (2 * nx) v (2 * (k + 1) + 1) i) := by
      intro i _
      rw [redu2x_inner nx c v i (by omega) (by omega), ← mul_assoc, mul_one_div_cancel hp]
      ring
    rw [sum_congr rfl e, sum_add_distrib, sum_add_distrib, ← sum_mul, ← mul_sum, ← mul_sum, coarse_sum_x, coarse_sum_x,
      coarse_sum_x]
    ring
  rw [sum_congr rfl hrow, ← mul_sum]
  exact congrArg (fun x => 1 / 2 * x) (coarse_sum_y (fun j => c j * ∑ i ∈ range (2 * nx), v j i) N hN)

example : ∑ k ∈ range 1, ∑ i ∈ range 2,
    ((if 2 * (k + 1) = 2 then 2 else 1) + 1 / 2 * ((if 2 * (k + 1) - 1 = 2 then 2 else 1) + if 2 * (k + 1) + 1 = 2 then 2 else 1))
      * redu2x none 4 5 (fun j => if j = 2 then (2 : ℚ) else 1) (fun j i => (j : ℚ) * i) (k + 1) i = 18 := by
  have h := C78_mean 2 2 (fun j => if j = 2 then (2 : ℚ) else 1) (fun j i => (j : ℚ) * i) (by norm_num)
    (fun j _ _ => by split <;> norm_num)
  rw [show 2 - 1 = 1 by rfl, show 2 * 2 = 4 by rfl, show 2 * 2 + 1 = 5 by rfl] at h
  rw [h]
  simp [sum_range_succ]
  norm_num

/-- C78, violated: where a grid has a missing value `m`, a constant field without missing points becomes `a / m` in the
inner rows, instead of `a`, because line 1121 divides by the missing value where it should compare with it. -/
theorem C78_missing_wrong (nx N : Nat) (c : Nat → K) (m a : K) (hm : m ≠ 0) (ham : a ≠ m)
    (hc : ∀ j, 0 < j → j < 2 * N → 0 < c j) (hne : ∀ j, 0 < j → j < 2 * N → a / m * c j ≠ m)
    (j2 i : Nat) (h0 : 0 < j2) (h1 : j2 < N) :
    redu2x (some m) (2 * nx) (2 * N + 1) c (fun _ _ => a) j2 i = a / m := by
  have hs : ∀ j, 0 < j → j < 2 * N → scaled (some m) (2 * nx) (2 * N + 1) c (fun _ _ => a) j i = a / m * c j := by
    intro j ha hb
    have hx : xSweep (some m) (2 * nx) (fun _ _ => a) j i = a := by
      unfold xSweep
      dsimp only
      rw [if_neg (by simp [ham])]
      ring
    unfold scaled
    dsimp only
    rw [hx]
    split
    · rw [coarse_cosp_inner c ha (by omega)]
    · rename_i h
      push Not at h
      rw [h]
      simp
  unfold redu2x
  rw [if_neg (by omega), if_neg (by omega)]
  dsimp only
  rw [if_neg]
  · rw [hs _ (by omega) (by omega), hs _ (by omega) (by omega), hs _ (by omega) (by omega)]
    unfold acosp
    rw [coarse_cosp_inner c (by omega) (by omega), coarse_cosp_inner c (by omega) (by omega),
      coarse_cosp_inner c (by omega) (by omega)]
    have p0 := hc (2 * j2) (by omega) (by omega)
    have p1 := hc (2 * j2 - 1) (by omega) (by omega)
    have p2 := hc (2 * j2 + 1) (by omega) (by omega)
    have hp : c (2 * j2) + 1 / 2 * (c (2 * j2 - 1) + c (2 * j2 + 1)) ≠ 0 := by positivity
    rw [one_div_mul_eq_div, div_eq_iff hp]
    ring
  · rw [hs _ (by omega) (by omega), hs _ (by omega) (by omega), hs _ (by omega) (by omega)]
    push Not
    exact ⟨hne _ (by omega) (by omega), hne _ (by omega) (by omega), hne _ (by omega) (by omega)⟩

/-- C78, violated: where each of the three fine rows has a missing cell among the three fine columns of the coarse cell,
the coarse value is 1, not missing. -/
theorem C78_row_missing_wrong (nx N : Nat) (c : Nat → K) (m : K) (hm : m ≠ 0)
    (hc : ∀ j, 0 < j → j < 2 * N → 0 < c j) (hne : ∀ j, 0 < j → j < 2 * N → c j ≠ m)
    (v : Nat → Nat → K) (j2 i : Nat) (h0 : 0 < j2) (h1 : j2 < N)
    (hv : ∀ j, 2 * j2 - 1 ≤ j → j ≤ 2 * j2 + 1 →
      v j (2 * i) = m ∨ v j (2 * i + 1) = m ∨ v j (if i = 0 then 2 * nx - 1 else 2 * i - 1) = m) :
    redu2x (some m) (2 * nx) (2 * N + 1) c v j2 i = 1 := by
  have hs : ∀ j, 2 * j2 - 1 ≤ j → j ≤ 2 * j2 + 1 → scaled (some m) (2 * nx) (2 * N + 1) c v j i = c j := by
    intro j ha hb
    have hx : xSweep (some m) (2 * nx) v j i = m := by
      unfold xSweep
      dsimp only
      rw [if_pos]
      rcases hv j ha hb with h | h | h
      · exact Or.inr (Or.inl h)
      · exact Or.inr (Or.inr h)
      · exact Or.inl h
    unfold scaled
    dsimp only
    rw [hx, coarse_cosp_inner c (by omega) (by omega), div_self hm]
    simp
  unfold redu2x
  rw [if_neg (by omega), if_neg (by omega)]
  dsimp only
  rw [if_neg]
  · rw [hs _ (by omega) (by omega), hs _ (by omega) (by omega), hs _ (by omega) (by omega)]
    unfold acosp
    rw [coarse_cosp_inner c (by omega) (by omega), coarse_cosp_inner c (by omega) (by omega),
      coarse_cosp_inner c (by omega) (by omega)]
    have p0 := hc (2 * j2) (by omega) (by omega)
    have p1 := hc (2 * j2 - 1) (by omega) (by omega)
    have p2 := hc (2 * j2 + 1) (by omega) (by omega)
    have hp : c (2 * j2) + 1 / 2 * (c (2 * j2 - 1) + c (2 * j2 + 1)) ≠ 0 := by positivity
    exact one_div_mul_cancel hp
  · rw [hs _ (by omega) (by omega), hs _ (by omega) (by omega), hs _ (by omega) (by omega)]
    push Not
    exact ⟨hne _ (by omega) (by omega), hne _ (by omega) (by omega), hne _ (by omega) (by omega)⟩

/-- One missing column. -/
example : redu2x (some (-100 : ℚ)) 4 5 (fun j => if j = 2 then 1 else 1 / 2) (fun _ i => if i = 3 then -100 else 280) 1 1 = 1 := by
  apply C78_row_missing_wrong 2 2
  · norm_num
  · intro j _ _; split <;> norm_num
  · intro j _ _; split <;> norm_num
  · omega
  · omega
  · intro j _ _; right; left; rfl

example : redu2x (some (-100 : ℚ)) 4 5 (fun j => if j = 2 then 1 else 1 / 2) (fun _ _ => 280) 1 1 = -14 / 5 := by
  rw [C78_missing_wrong 2 2]
  · norm_num
  · norm_num
  · norm_num
  · intro j _ _; split <;> norm_num
  · intro j _ _; split <;> norm_num
  · omega
  · omega

/-- C78, violated: the coarse value is the mean around the fine column `2 i`, whose centre lies a quarter of a coarse
column west of the centre of coarse column `i`: a field `a + b * longitude` comes out displaced by that. -/
theorem C78_shift_wrong (nx N : Nat) (c : Nat → K) (lonBegin lonEnd a b : K) (hc : ∀ j, 0 < j → j < 2 * N → 0 < c j)
    (j2 i : Nat) (h0 : 0 < j2) (h1 : j2 < N) (hi0 : 0 < i) (hi : i < nx) :
    redu2x none (2 * nx) (2 * N + 1) c (fun _ i => a + b * lonCentre lonBegin lonEnd (2 * nx) i) j2 i
      = a + b * (lonCentre lonBegin lonEnd nx i - 1 / 4 * ((lonEnd - lonBegin) / nx)) := by
  have hnx : (nx : K) ≠ 0 := by
    have : (0 : K) < nx := Nat.cast_pos.2 (by omega)
    exact this.ne'
  have hx : ∀ j, xSweep none (2 * nx) (fun _ i => a + b * lonCentre lonBegin lonEnd (2 * nx) i) j i
      = a + b * (lonCentre lonBegin lonEnd nx i - 1 / 4 * ((lonEnd - lonBegin) / nx)) := by
    intro j
    unfold xSweep west lonCentre
    dsimp only
    rw [if_neg (by omega)]
    have e : ((2 * i - 1 : ℕ) : K) = 2 * i - 1 := by
      rw [Nat.cast_sub (by omega)]
      push_cast
      ring
    rw [e]
    push_cast
    field_simp
    ring
  rw [redu2x_inner nx c _ i h0 h1, hx, hx, hx]
  have p0 := hc (2 * j2) (by omega) (by omega)
  have p1 := hc (2 * j2 - 1) (by omega) (by omega)
  have p2 := hc (2 * j2 + 1) (by omega) (by omega)
  have hp : c (2 * j2) + 1 / 2 * (c (2 * j2 - 1) + c (2 * j2 + 1)) ≠ 0 := by positivity
  rw [one_div_mul_eq_div, div_eq_iff hp]
  ring

example : redu2x none 8 5 (fun _ => (1 : ℚ)) (fun _ i => 0 + 1 * lonCentre 0 360 8 i) 1 1 = 135 - 45 / 2 := by
  have := C78_shift_wrong 4 2 (fun _ => (1 : ℚ)) 0 360 0 1 (fun _ _ _ => by norm_num) 1 1 (by omega) (by omega) (by omega)
    (by omega)
  rw [this]
  norm_num [lonCentre]

end step

/-! ### Any number of steps -/

theorem regularCos_pos {n j : Nat} (h0 : 0 < j) (h1 : j + 1 < n) : 0 < regularCos n j := by
  unfold regularCos
  rw [if_neg (by omega)]
  have hn : (0 : ℝ) < (n : ℝ) - 1 := by
    have : ((1 : ℕ) : ℝ) < n := Nat.cast_lt.2 (by omega)
    simp only [Nat.cast_one] at this
    linarith
  have hj : (0 : ℝ) < j := Nat.cast_pos.2 h0
  have hj' : (j : ℝ) < n - 1 := by
    have : ((j + 1 : ℕ) : ℝ) < n := Nat.cast_lt.2 h1
    push_cast at this
    linarith
  have hq : (j : ℝ) * (Real.pi / ((n : ℝ) - 1)) < Real.pi := by
    rw [mul_div_assoc', div_lt_iff₀ hn]
    have := mul_lt_mul_of_pos_right hj' Real.pi_pos
    linarith
  have hq0 : 0 < (j : ℝ) * (Real.pi / ((n : ℝ) - 1)) := mul_pos hj (div_pos Real.pi_pos hn)
  apply Real.cos_pos_of_mem_Ioo
  constructor
  · have : -(Real.pi / 2) = -Real.pi / 2 := by ring
    rw [this]
    linarith
  · linarith

/-- C78: for any number of steps and without missing value, the coarse field stays within the range of the fine field, so
a constant is kept. -/
theorem C78_range (steps nx N : Nat) (c : Nat → ℝ) (v : Nat → Nat → ℝ) (lo hi : ℝ) (hN : 1 ≤ N)
    (hc : ∀ j, 0 < j → j < 2 ^ steps * N → 0 < c j)
    (hv : ∀ j i, j < 2 ^ steps * N + 1 → i < 2 ^ steps * nx → lo ≤ v j i ∧ v j i ≤ hi)
    (j i : Nat) (hj : j < N + 1) (hi' : i < nx) :
    lo ≤ coarsen none steps c (2 ^ steps * nx) (2 ^ steps * N + 1) v j i
    ∧ coarsen none steps c (2 ^ steps * nx) (2 ^ steps * N + 1) v j i ≤ hi := by
  induction steps generalizing c v with
  | zero =>
    simp only [pow_zero, one_mul] at hv
    exact hv j i hj hi'
  | succ s ih =>
    have e1 : 2 ^ (s + 1) * nx = 2 * (2 ^ s * nx) := by ring
    have e2 : 2 ^ (s + 1) * N = 2 * (2 ^ s * N) := by ring
    rw [e1, e2]
    unfold coarsen
    rw [show 2 * (2 ^ s * nx) / 2 = 2 ^ s * nx by omega, show (2 * (2 ^ s * N) + 1 - 1) / 2 + 1 = 2 ^ s * N + 1 by omega]
    rw [e2] at hc
    rw [e1, e2] at hv
    have hpos : 1 ≤ 2 ^ s * N := Nat.mul_pos (pow_pos (by norm_num) s) hN
    apply ih
    · intro k h0 h1
      exact regularCos_pos h0 (by omega)
    · intro k l hk hl
      exact redu2x_range _ _ c v lo hi hpos hc hv k l hk hl

example (a : ℝ) : coarsen none 3 (regularCos 33) 48 33 (fun _ _ => a) 2 3 = a := by
  have h := C78_range 3 6 4 (regularCos 33) (fun _ _ => a) a a (by norm_num)
    (fun j h0 h1 => regularCos_pos h0 (by omega)) (fun _ _ _ _ => ⟨le_refl _, le_refl _⟩) 2 3 (by norm_num) (by norm_num)
  exact le_antisymm h.2 h.1

/-- C78: for any number of steps, with or without missing value, the values of the pole rows are the fine values at every
`2 ^ steps`-th column. -/
theorem C78_poles (miss : Option ℝ) (steps nx N : Nat) (c : Nat → ℝ) (v : Nat → Nat → ℝ) (hN : 1 ≤ N) (i : Nat) :
    coarsen miss steps c (2 ^ steps * nx) (2 ^ steps * N + 1) v 0 i = v 0 (2 ^ steps * i)
    ∧ coarsen miss steps c (2 ^ steps * nx) (2 ^ steps * N + 1) v N i = v (2 ^ steps * N) (2 ^ steps * i) := by
  induction steps generalizing c v with
  | zero => simp [coarsen]
  | succ s ih =>
    have e1 : 2 ^ (s + 1) * nx = 2 * (2 ^ s * nx) := by ring
    have e2 : 2 ^ (s + 1) * N = 2 * (2 ^ s * N) := by ring
    have e3 : 2 ^ (s + 1) * i = 2 * (2 ^ s * i) := by ring
    rw [e1, e2, e3]
    unfold coarsen
    rw [show 2 * (2 ^ s * nx) / 2 = 2 ^ s * nx by omega, show (2 * (2 ^ s * N) + 1 - 1) / 2 + 1 = 2 ^ s * N + 1 by omega]
    have hpos : 1 ≤ 2 ^ s * N := Nat.mul_pos (pow_pos (by norm_num) s) hN
    obtain ⟨h1, h2⟩ := ih (regularCos (2 ^ s * N + 1)) (redu2x miss (2 * (2 ^ s * nx)) (2 * (2 ^ s * N) + 1) c v)
    rw [h1, h2]
    constructor
    · unfold redu2x
      rw [if_pos rfl]
    · unfold redu2x
      rw [if_neg (by omega), if_pos (by omega)]
      congr 1

example (v : Nat → Nat → ℝ) (c : Nat → ℝ) : coarsen (some 1) 2 c 16 9 v 2 3 = v 8 12 :=
  (C78_poles (some 1) 2 4 2 c v (by norm_num) 3).2

end Verif
