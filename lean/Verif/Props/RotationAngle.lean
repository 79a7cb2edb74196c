import Verif.Model.RotationAngle
import Verif.Spec.RotationAngle
import Mathlib.Analysis.SpecialFunctions.Trigonometric.Arctan
import Mathlib.Tactic.IntervalCases
import Mathlib.Tactic.NormNum
import Mathlib.Tactic.Linarith
/-
C149: rotation angles of the cubic grids.
-/
noncomputable section
namespace Verif
open RotationAngle Spec.RotationAngle Spec.Cube Real

/-- The arrays hold the longitudes and latitudes of six tiles. -/
def C149Holds (n : Nat) (a : Int → ℝ) (f : Nat → Nat → Nat → ℝ) : Prop := ∀ t j i : Nat, t < 6 → j ≤ n → i ≤ n → a (pos n t j i) = f t j i

private theorem wrap_small {d : ℝ} (h1 : -180 < d) (h2 : d ≤ 180) : wrap d = d := by
  unfold wrap
  have : ⌈(d - 180) / 360⌉ = 0 := by
    rw [Int.ceil_eq_iff]
    constructor <;> push_cast <;> [linarith; linarith]
  rw [this]; simp

/-- What a point that is read stands for. -/
private theorem stands {n : Nat} {a : Int → ℝ} {f : Nat → Nat → Nat → ℝ} (ha : C149Holds n a f) {t j i : Nat} {p : Int × Int × Int}
    (h : ∃ t' j' i' : Nat, p = ((t' : Int), (j' : Int), (i' : Int)) ∧ t' < 6 ∧ j' ≤ n ∧ i' ≤ n ∧ place n t' j' i' = place n t j i) :
    ∃ t' j' i' : Nat, at3 n a p = f t' j' i' ∧ t' < 6 ∧ j' ≤ n ∧ i' ≤ n ∧ place n t' j' i' = place n t j i := by
  obtain ⟨t', j', i', e, h1, h2, h3, h4⟩ := h
  exact ⟨t', j', i', by rw [e]; exact ha t' j' i' h1 h2 h3, h1, h2, h3, h4⟩

private theorem right_place {n t j i : Nat} (ht : t < 6) (hj : j ≤ n) (hi : i ≤ n) (hE : t % 2 = 0 ∨ i < n) :
    ∃ t' j' i' : Nat, right n t j i = ((t' : Int), (j' : Int), (i' : Int)) ∧ t' < 6 ∧ j' ≤ n ∧ i' ≤ n ∧ place n t' j' i' = place n t j (next n i) := by
  unfold right next
  by_cases c : i < n
  · rw [if_neg (by omega), if_pos c]
    exact ⟨t, j, i + 1, by push_cast; rfl, ht, hj, by omega, rfl⟩
  · rw [if_pos (by omega), if_neg c, if_pos (by omega)]
    obtain rfl : n = i := by omega
    refine ⟨t + 1, j, 0, by push_cast; rfl, by omega, hj, by omega, ?_⟩
    interval_cases t <;> simp only [place] <;> (try omega) <;> simp

private theorem left_place {n t j i : Nat} (ht : t < 6) (hj : j ≤ n) (hi : i ≤ n) :
    ∃ t' j' i' : Nat, left n t j i = ((t' : Int), (j' : Int), (i' : Int)) ∧ t' < 6 ∧ j' ≤ n ∧ i' ≤ n ∧ place n t' j' i' = place n t j (prev i) := by
  unfold left prev
  by_cases c : i = 0
  · subst c
    rw [if_pos (by omega)]
    by_cases e : t % 2 = 0
    · rw [if_pos (by omega)]
      refine ⟨(t + 4) % 6, n, n - j, ?_, by omega, le_refl _, by omega, ?_⟩
      · refine Prod.ext ?_ (Prod.ext ?_ ?_)
        · show (if (t : Int) - 2 < 0 then (t : Int) - 2 + 6 else (t : Int) - 2) = (((t + 4) % 6 : Nat) : Int)
          split_ifs <;> omega
        · rfl
        · show (n : Int) - j = ((n - j : Nat) : Int); omega
      · interval_cases t <;> simp only [place] <;> (try omega) <;> simp <;> omega
    · rw [if_neg (by omega)]
      refine ⟨t - 1, j, n, ?_, by omega, hj, le_refl _, ?_⟩
      · refine Prod.ext ?_ rfl
        show (t : Int) - 1 = ((t - 1 : Nat) : Int); omega
      · interval_cases t <;> simp only [place] <;> (try omega) <;> simp
  · rw [if_neg (by omega)]
    refine ⟨t, j, i - 1, ?_, ht, hj, by omega, rfl⟩
    refine Prod.ext rfl (Prod.ext rfl ?_)
    show (i : Int) - 1 = ((i - 1 : Nat) : Int); omega

private theorem above_place {n t j i : Nat} (ht : t < 6) (hj : j ≤ n) (hi : i ≤ n) :
    ∃ t' j' i' : Nat, above n t j i = ((t' : Int), (j' : Int), (i' : Int)) ∧ t' < 6 ∧ j' ≤ n ∧ i' ≤ n ∧ place n t' j' i' = place n t (next n j) i := by
  unfold above next
  by_cases c : j < n
  · rw [if_neg (by omega), if_pos c]
    exact ⟨t, j + 1, i, by push_cast; rfl, ht, by omega, hi, rfl⟩
  · rw [if_pos (by omega), if_neg c]
    obtain rfl : n = j := by omega
    by_cases e : t % 2 = 0
    · rw [if_pos (by omega)]
      refine ⟨(t + 2) % 6, n - i, 0, ?_, by omega, by omega, by omega, ?_⟩
      · refine Prod.ext ?_ (Prod.ext ?_ rfl)
        · show (if (6 : Int) ≤ (t : Int) + 2 then (t : Int) + 2 - 6 else (t : Int) + 2) = (((t + 2) % 6 : Nat) : Int)
          split_ifs <;> omega
        · show (n : Int) - i = ((n - i : Nat) : Int); omega
      · interval_cases t <;> simp only [place] <;> (try omega) <;> simp <;> omega
    · rw [if_neg (by omega)]
      refine ⟨(t + 1) % 6, 0, i, ?_, by omega, by omega, hi, ?_⟩
      · refine Prod.ext ?_ rfl
        show (if (6 : Int) ≤ (t : Int) + 1 then (t : Int) + 1 - 6 else (t : Int) + 1) = (((t + 1) % 6 : Nat) : Int)
        split_ifs <;> omega
      · interval_cases t <;> simp only [place] <;> (try omega) <;> simp

private theorem below_place {n t j i : Nat} (ht : t < 6) (hj : j ≤ n) (hi : i ≤ n) :
    ∃ t' j' i' : Nat, below n t j i = ((t' : Int), (j' : Int), (i' : Int)) ∧ t' < 6 ∧ j' ≤ n ∧ i' ≤ n ∧ place n t' j' i' = place n t (prev j) i := by
  unfold below prev
  by_cases c : j = 0
  · subst c
    rw [if_pos (by omega)]
    by_cases e : t % 2 = 0
    · rw [if_pos (by omega)]
      refine ⟨(t + 5) % 6, n, i, ?_, by omega, le_refl _, hi, ?_⟩
      · refine Prod.ext ?_ rfl
        show (if (t : Int) - 1 < 0 then (t : Int) - 1 + 6 else (t : Int) - 1) = (((t + 5) % 6 : Nat) : Int)
        split_ifs <;> omega
      · interval_cases t <;> simp only [place] <;> (try omega) <;> simp
    · rw [if_neg (by omega)]
      refine ⟨(t + 4) % 6, n - i, n, ?_, by omega, by omega, le_refl _, ?_⟩
      · refine Prod.ext ?_ (Prod.ext ?_ rfl)
        · show (if (t : Int) - 2 < 0 then (t : Int) - 2 + 6 else (t : Int) - 2) = (((t + 4) % 6 : Nat) : Int)
          split_ifs <;> omega
        · show (n : Int) - i = ((n - i : Nat) : Int); omega
      · interval_cases t <;> simp only [place] <;> (try omega) <;> simp <;> omega
  · rw [if_neg (by omega)]
    refine ⟨t, j - 1, i, ?_, ht, by omega, hi, rfl⟩
    refine Prod.ext rfl (Prod.ext ?_ rfl)
    show (j : Int) - 1 = ((j - 1 : Nat) : Int); omega

private theorem value {n : Nat} {x y : Int → ℝ} {lon lat : Nat → Nat → Nat → ℝ} (hx : C149Holds n x lon) (hy : C149Holds n y lat) (hc : Closed n lon lat) {t j i : Nat}
    (ht : t < 6) (hj : j ≤ n) (hi : i ≤ n) {p : Int × Int × Int}
    (h : ∃ t' j' i' : Nat, p = ((t' : Int), (j' : Int), (i' : Int)) ∧ t' < 6 ∧ j' ≤ n ∧ i' ≤ n ∧ place n t' j' i' = place n t j i) :
    at3 n x p = lon t j i ∧ at3 n y p = lat t j i := by
  obtain ⟨t', j', i', rfl, h1, h2, h3, h4⟩ := h
  obtain ⟨a, b⟩ := hc t' j' i' t j i h1 ht h2 h3 hj hi h4
  exact ⟨(hx t' j' i' h1 h2 h3).trans a, (hy t' j' i' h1 h2 h3).trans b⟩

private theorem next_le {n i : Nat} (hi : i ≤ n) : next n i ≤ n := by unfold next; split_ifs <;> omega
private theorem prev_le {n i : Nat} (hi : i ≤ n) : prev i ≤ n := by unfold prev; omega

/-- Full claim: at each point `angle_dx` is the angle between east and the line from the previous to the next point of the row, where the point itself stands for the one that is missing
at the end of a row, and `angle_dy` the same for the column. Proved for coordinates in degrees (`calc_rotation_angle`) on a closed cube, at points where the two longitudes differ by less
than 180, and for `angle_dx` not on the eastern side of the second, fourth and sixth tile. -/
theorem C149_degrees_partial (n : Nat) {x y : Int → ℝ} {lon lat : Nat → Nat → Nat → ℝ} (hx : C149Holds n x lon) (hy : C149Holds n y lat) (hc : Closed n lon lat) (t j i : Nat)
    (ht : t < 6) (hj : j ≤ n) (hi : i ≤ n) :
    ((t % 2 = 0 ∨ i < n) → |lon t j (next n i) - lon t j (prev i)| < 180 →
      angleDx n x y t j i = direction (lat t j i) (lon t j (next n i) - lon t j (prev i)) (lat t j (next n i) - lat t j (prev i))) ∧
    (|lon t (next n j) i - lon t (prev j) i| < 180 →
      angleDy n x y t j i = direction (lat t j i) (lon t (next n j) i - lon t (prev j) i) (lat t (next n j) i - lat t (prev j) i)) := by
  constructor
  · intro hE hw
    obtain ⟨a, b⟩ := value hx hy hc ht hj (next_le hi) (right_place ht hj hi hE)
    obtain ⟨c, d⟩ := value hx hy hc ht hj (prev_le hi) (left_place ht hj hi)
    unfold angleDx turn direction
    rw [a, b, c, d, hy t j i ht hj hi, wrap_small (abs_lt.1 hw).1 (abs_lt.1 hw).2.le]
    rfl
  · intro hw
    obtain ⟨a, b⟩ := value hx hy hc ht (next_le hj) hi (above_place ht hj hi)
    obtain ⟨c, d⟩ := value hx hy hc ht (prev_le hj) hi (below_place ht hj hi)
    unfold angleDy turn direction
    rw [a, b, c, d, hy t j i ht hj hi, wrap_small (abs_lt.1 hw).1 (abs_lt.1 hw).2.le]
    rfl

/-- On the eastern side of these tiles the point one row higher is taken in place of the point itself, and in the last row a point of another tile. -/
theorem C149_east_side (n : Nat) {x y : Int → ℝ} {lon lat : Nat → Nat → Nat → ℝ} (hx : C149Holds n x lon) (hy : C149Holds n y lat) (hc : Closed n lon lat) (t j : Nat)
    (ht : t < 6) (ho : t % 2 = 1) (hj : j ≤ n) (hn : 0 < n) :
    angleDx n x y t j n = if j < n then
      Complex.arg ⟨(lon t (j + 1) n - lon t j (n - 1)) * cos (lat t j n * (π / 180)), lat t (j + 1) n - lat t j (n - 1)⟩ * (180 / π)
    else Complex.arg ⟨(lon ((t + 1) % 6) n n - lon t j (n - 1)) * cos (lat t j n * (π / 180)), lat ((t + 1) % 6) n n - lat t j (n - 1)⟩ * (180 / π) := by
  obtain ⟨c, d⟩ := value hx hy hc ht hj (prev_le (le_refl n)) (left_place ht hj (le_refl n))
  have e : right n t j n = ((((t + 2) % 6 : Nat) : Int), 0, (n : Int) - j - 1) := by
    unfold right
    rw [if_pos (by omega), if_neg (by omega)]
    refine Prod.ext ?_ rfl
    show (if (6 : Int) ≤ (t : Int) + 2 then (t : Int) + 2 - 6 else (t : Int) + 2) = (((t + 2) % 6 : Nat) : Int)
    split_ifs <;> omega
  unfold angleDx turn
  rw [c, d, hy t j n ht hj (le_refl n)]
  by_cases h : j < n
  · rw [if_pos h]
    have v : ∃ t' j' i' : Nat, right n t j n = ((t' : Int), (j' : Int), (i' : Int)) ∧ t' < 6 ∧ j' ≤ n ∧ i' ≤ n ∧ place n t' j' i' = place n t (j + 1) n := by
      refine ⟨(t + 2) % 6, 0, n - j - 1, ?_, by omega, by omega, by omega, ?_⟩
      · rw [e]
        refine Prod.ext rfl (Prod.ext rfl ?_)
        show (n : Int) - j - 1 = ((n - j - 1 : Nat) : Int); omega
      · interval_cases t <;> simp only [place] <;> (try omega) <;> simp <;> omega
    obtain ⟨a, b⟩ := value hx hy hc ht (by omega) (le_refl n) v
    rw [a, b]
    rfl
  · rw [if_neg h]
    obtain rfl : n = j := by omega
    have p : pos n ((t + 2) % 6 : Nat) 0 ((n : Int) - n - 1) = pos n ((t + 1) % 6 : Nat) n n := by
      have : (((t + 2) % 6 : Nat) : Int) = (((t + 1) % 6 : Nat) : Int) + 1 := by omega
      unfold pos
      rw [this]
      ring
    have a : at3 n x (right n t n n) = lon ((t + 1) % 6) n n := by
      rw [e]; unfold at3; simp only
      rw [p]; exact hx _ n n (by omega) (le_refl n) (le_refl n)
    have b : at3 n y (right n t n n) = lat ((t + 1) % 6) n n := by
      rw [e]; unfold at3; simp only
      rw [p]; exact hy _ n n (by omega) (le_refl n) (le_refl n)
    rw [a, b]
    rfl

/-- Tile, row and column of a position. -/
def c149At (n : Nat) (f : Nat → Nat → Nat → ℝ) (k : Int) : ℝ :=
  f (k / ((n + 1) * (n + 1)) : Int).toNat (k % ((n + 1) * (n + 1)) / (n + 1) : Int).toNat (k % ((n + 1) * (n + 1)) % (n + 1) : Int).toNat

theorem c149_at (n : Nat) (f : Nat → Nat → Nat → ℝ) : C149Holds n (c149At n f) f := by
  intro t j i _ hj hi
  have hN : (0 : Int) < (n : Int) + 1 := by omega
  have hr : (0 : Int) ≤ (j : Int) * (n + 1) + i := by positivity
  have hlt : (j : Int) * (n + 1) + i < (n + 1) * (n + 1) := by
    have : (j : Int) * (n + 1) ≤ n * (n + 1) := mul_le_mul_of_nonneg_right (by exact_mod_cast hj) hN.le
    have : (i : Int) ≤ n := by exact_mod_cast hi
    nlinarith
  have e : pos n t j i = ((j : Int) * (n + 1) + i) + ((n + 1) * (n + 1)) * t := by unfold pos; ring
  unfold c149At
  rw [e, Int.add_mul_ediv_left _ _ (by positivity), Int.ediv_eq_zero_of_lt hr hlt, Int.add_mul_emod_self_left, Int.emod_eq_of_lt hr hlt]
  rw [show (j : Int) * (n + 1) + i = (i : Int) + (n + 1) * j by ring, Int.add_mul_ediv_left _ _ (by positivity), Int.ediv_eq_zero_of_lt (by positivity) (by omega),
    Int.add_mul_emod_self_left, Int.emod_eq_of_lt (by positivity) (by omega)]
  simp

/-- Witness: the cube with 2 times 2 cells in each face, longitude 0 everywhere, latitude 1 at the middle of the eastern side of the second tile and 0 elsewhere. -/
def c149Lat (t j i : Nat) : ℝ := if place 2 t j i = place 2 1 1 2 then 1 else 0

theorem c149_closed : Closed 2 (fun _ _ _ => 0) c149Lat := by
  intro t j i t' j' i' _ _ _ _ _ _ h
  refine ⟨rfl, ?_⟩
  unfold c149Lat
  rw [h]

/-- A closed cube: `angle_dy` at the lower right corner of the second tile. -/
example : angleDy 2 (c149At 2 fun _ _ _ => 0) (c149At 2 c149Lat) (1 : Nat) (0 : Nat) (2 : Nat) = direction (c149Lat 1 0 2) (0 - 0) (c149Lat 1 1 2 - c149Lat 1 0 2) :=
  (C149_degrees_partial 2 (c149_at 2 _) (c149_at 2 _) c149_closed 1 0 2 (by norm_num) (by norm_num) (by norm_num)).2 (by norm_num)

/-- The eastern side of an even tile gets a wrong angle: 90 degrees where the row has direction 0. -/
theorem C149_east_side_wrong : ∃ (n : Nat) (x y : Int → ℝ) (lon lat : Nat → Nat → Nat → ℝ), C149Holds n x lon ∧ C149Holds n y lat ∧ Closed n lon lat ∧
    angleDx n x y 1 0 n = 90 ∧ direction (lat 1 0 n) (lon 1 0 (next n n) - lon 1 0 (prev n)) (lat 1 0 (next n n) - lat 1 0 (prev n)) = 0 := by
  refine ⟨2, c149At 2 fun _ _ _ => 0, c149At 2 c149Lat, fun _ _ _ => 0, c149Lat, c149_at 2 _, c149_at 2 _, c149_closed, ?_, ?_⟩
  · have := C149_east_side 2 (c149_at 2 fun _ _ _ => 0) (c149_at 2 c149Lat) c149_closed 1 0 (by norm_num) rfl (by norm_num) (by norm_num)
    rw [if_pos (by norm_num)] at this
    have e : ((1 : Nat) : Int) = 1 := rfl
    refine this.trans ?_
    have l1 : c149Lat 1 (0 + 1) 2 = 1 := if_pos rfl
    have l0 : c149Lat 1 0 (2 - 1) = 0 := if_neg (by decide)
    rw [l1, l0]
    have : (⟨((0 : ℝ) - 0) * cos (c149Lat 1 0 2 * (π / 180)), 1 - 0⟩ : ℂ) = Complex.I := by
      apply Complex.ext <;> simp
    rw [this, Complex.arg_I]
    have := Real.pi_ne_zero
    field_simp
    norm_num
  · unfold direction
    have l0 : c149Lat 1 0 (next 2 2) = 0 := if_neg (by decide)
    have l1 : c149Lat 1 0 (prev 2) = 0 := if_neg (by decide)
    rw [l0, l1, show wrap ((0 : ℝ) - 0) = 0 by rw [sub_self]; exact wrap_small (by norm_num) (by norm_num)]
    have : (⟨0 * cos (c149Lat 1 0 2 * (π / 180)), (0 : ℝ) - 0⟩ : ℂ) = 0 := by
      apply Complex.ext <;> simp
    rw [this, Complex.arg_zero, zero_mul]

/-- Where longitudes start again from 0, between 360 - d and d, a row which goes east gets the angle 180. -/
theorem C149_start_again_wrong (n : Nat) {x y : Int → ℝ} {lon lat : Nat → Nat → Nat → ℝ} (hx : C149Holds n x lon) (hy : C149Holds n y lat) (t j i : Nat)
    (ht : t < 6) (hj : j ≤ n) (h0 : 0 < i) (hi : i < n) (d : ℝ) (hd : 0 < d) (hd' : d < 90) (hw : lon t j (i - 1) = 360 - d) (he : lon t j (i + 1) = d)
    (hrow : lat t j (i + 1) = lat t j (i - 1)) (hlat : |lat t j i| < 90) :
    angleDx n x y t j i = 180 ∧ direction (lat t j i) (lon t j (next n i) - lon t j (prev i)) (lat t j (next n i) - lat t j (prev i)) = 0 := by
  have hp := Real.pi_pos
  have hcos : 0 < cos (lat t j i * (π / 180)) := by
    obtain ⟨a, b⟩ := abs_lt.1 hlat
    apply cos_pos_of_mem_Ioo
    constructor <;> nlinarith
  have r : right n t j i = ((t : Int), (j : Int), ((i + 1 : Nat) : Int)) := by unfold right; rw [if_neg (by omega)]; push_cast; rfl
  have l : left n t j i = ((t : Int), (j : Int), ((i - 1 : Nat) : Int)) := by
    unfold left; rw [if_neg (by omega)]
    refine Prod.ext rfl (Prod.ext rfl ?_)
    show (i : Int) - 1 = ((i - 1 : Nat) : Int); omega
  constructor
  · unfold angleDx turn at3
    rw [r, l]
    simp only
    rw [hx t j (i + 1) ht hj (by omega), hx t j (i - 1) ht hj (by omega), hy t j (i + 1) ht hj (by omega), hy t j (i - 1) ht hj (by omega), hy t j i ht hj (by omega), hw, he, hrow, sub_self]
    have : Complex.arg ⟨(d - (360 - d)) * cos (lat t j i * D2R), 0⟩ = π := by
      rw [Complex.arg_eq_pi_iff]
      refine ⟨?_, rfl⟩
      show (d - (360 - d)) * cos (lat t j i * (π / 180)) < 0
      nlinarith
    rw [this]
    unfold R2D
    field_simp
  · unfold next prev direction
    rw [if_pos hi, hw, he, hrow, sub_self]
    have : wrap (d - (360 - d)) = 2 * d := by
      unfold wrap
      have : ⌈(d - (360 - d) - 180) / 360⌉ = -1 := by
        rw [Int.ceil_eq_iff]
        constructor <;> push_cast <;> [linarith; linarith]
      rw [this]; push_cast; ring
    rw [this]
    have : Complex.arg ⟨2 * d * cos (lat t j i * (π / 180)), 0⟩ = 0 := by
      rw [Complex.arg_eq_zero_iff]
      refine ⟨?_, rfl⟩
      show 0 ≤ 2 * d * cos (lat t j i * (π / 180))
      positivity
    rw [this, zero_mul]

private theorem arg_lt {a c c' b : ℝ} (ha : 0 < a) (hb : 0 < b) (hc : 0 < c) (hcc : c < c') : Complex.arg ⟨a * c', b⟩ < Complex.arg ⟨a * c, b⟩ := by
  have h1 : 0 < a * c := mul_pos ha hc
  have h2 : 0 < a * c' := mul_pos ha (hc.trans hcc)
  have e : ∀ u : ℝ, 0 < u → Complex.arg ⟨u, b⟩ = arctan (b / u) := by
    intro u hu
    rw [Complex.arg_of_re_nonneg hu.le, arctan_eq_arcsin]
    congr 1
    have hs : ‖(⟨u, b⟩ : ℂ)‖ = √(u ^ 2 + b ^ 2) := by
      rw [Complex.norm_eq_sqrt_sq_add_sq]
    rw [hs]
    have : u ^ 2 + b ^ 2 = u ^ 2 * (1 + (b / u) ^ 2) := by field_simp
    rw [this, Real.sqrt_mul (by positivity), Real.sqrt_sq hu.le]
    have : 0 < √(1 + (b / u) ^ 2) := by positivity
    field_simp
  rw [e _ h1, e _ h2]
  apply arctan_strictMono
  exact div_lt_div_of_pos_left hb h1 (mul_lt_mul_of_pos_left hcc ha)

/-- In the gnomonic grids (`calc_rotation_angle2`) coordinates are still radians, and the factor of the longitudes is the cosine of a latitude which has been divided by 57.3 once more.
Wherever a row goes to the north-east, away from the equator, the angle is too small. -/
theorem C149_radians_wrong (n : Nat) {x y : Int → ℝ} {lon lat : Nat → Nat → Nat → ℝ} (hx : C149Holds n x lon) (hy : C149Holds n y lat) (t j i : Nat)
    (ht : t < 6) (hj : j ≤ n) (h0 : 0 < i) (hi : i < n) (hlon : 0 < lon t j (i + 1) - lon t j (i - 1)) (hlon' : lon t j (i + 1) - lon t j (i - 1) ≤ π)
    (hlat : 0 < lat t j (i + 1) - lat t j (i - 1)) (hl : 0 < |lat t j i|) (hl' : |lat t j i| < π / 2) :
    angleDx n x y t j i < direction (lat t j i * (180 / π)) ((lon t j (i + 1) - lon t j (i - 1)) * (180 / π)) ((lat t j (i + 1) - lat t j (i - 1)) * (180 / π)) := by
  have hp := Real.pi_pos
  have r : right n t j i = ((t : Int), (j : Int), ((i + 1 : Nat) : Int)) := by unfold right; rw [if_neg (by omega)]; push_cast; rfl
  have l : left n t j i = ((t : Int), (j : Int), ((i - 1 : Nat) : Int)) := by
    unfold left; rw [if_neg (by omega)]
    refine Prod.ext rfl (Prod.ext rfl ?_)
    show (i : Int) - 1 = ((i - 1 : Nat) : Int); omega
  unfold angleDx turn at3 direction R2D D2R
  rw [r, l]
  simp only
  rw [hx t j (i + 1) ht hj (by omega), hx t j (i - 1) ht hj (by omega), hy t j (i + 1) ht hj (by omega), hy t j (i - 1) ht hj (by omega), hy t j i ht hj (by omega)]
  generalize lon t j (i + 1) - lon t j (i - 1) = a at *
  generalize lat t j (i + 1) - lat t j (i - 1) = b at *
  generalize lat t j i = p at *
  have hk : (0 : ℝ) < 180 / π := by positivity
  rw [wrap_small (by nlinarith [mul_pos hlon hk]) (by rw [mul_div_assoc', div_le_iff₀ hp]; nlinarith)]
  have e : (⟨a * (180 / π) * cos (p * (180 / π) * (π / 180)), b * (180 / π)⟩ : ℂ) = ((180 / π : ℝ) : ℂ) * ⟨a * cos p, b⟩ := by
    have : p * (180 / π) * (π / 180) = p := by field_simp
    rw [this]
    apply Complex.ext
    · simp; ring
    · simp; ring
  rw [e, Complex.arg_real_mul _ hk]
  apply mul_lt_mul_of_pos_right _ hk
  have c0 : 0 < cos p := by
    apply cos_pos_of_mem_Ioo
    exact ⟨by linarith [(abs_lt.1 hl').1], (abs_lt.1 hl').2⟩
  refine arg_lt hlon hlat c0 ?_
  have q : |p * (π / 180)| < |p| := by
    rw [abs_mul, abs_of_pos (show 0 < π / 180 by positivity)]
    have : π / 180 < 1 := by linarith [Real.pi_le_four]
    nlinarith
  rw [← cos_abs p, ← cos_abs (p * (π / 180))]
  exact cos_lt_cos_of_nonneg_of_le_pi (abs_nonneg _) (by linarith) q

/-- A row across the meridian 0 -/
example : angleDx 2 (c149At 2 fun _ _ i => if i = 0 then 359 else if i = 1 then 0 else 1) (c149At 2 fun _ _ _ => 45) (0 : Nat) (1 : Nat) (1 : Nat) = 180 :=
  (C149_start_again_wrong 2 (c149_at 2 _) (c149_at 2 _) 0 1 1 (by norm_num) (by norm_num) (by norm_num) (by norm_num) 1 (by norm_num) (by norm_num) (by norm_num) (by norm_num) rfl
    (by rw [abs_of_pos] <;> norm_num)).1

/-- A row to the north-east near latitude 0.5 (radians) -/
example : angleDx 2 (c149At 2 fun _ _ i => i) (c149At 2 fun _ _ i => (i + 9) / 20) (0 : Nat) (1 : Nat) (1 : Nat) < direction (((1 : Nat) + 9) / 20 * (180 / π))
    ((((1 + 1 : Nat) : ℝ) - ((1 - 1 : Nat) : ℝ)) * (180 / π)) (((((1 + 1 : Nat) : ℝ) + 9) / 20 - (((1 - 1 : Nat) : ℝ) + 9) / 20) * (180 / π)) :=
  C149_radians_wrong 2 (c149_at 2 fun _ _ i => (i : ℝ)) (c149_at 2 fun _ _ i => ((i : ℝ) + 9) / 20) 0 1 1 (by norm_num) (by norm_num) (by norm_num) (by norm_num) (by norm_num)
    (by norm_num; linarith [Real.two_le_pi]) (by norm_num) (by norm_num) (by rw [abs_of_pos (by norm_num)]; norm_num; linarith [Real.two_le_pi])

end Verif
