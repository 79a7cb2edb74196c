import Verif.Model.Gnomonic
import Verif.Spec.Gnomonic
import Verif.Props.Rotate
import Mathlib.Analysis.SpecialFunctions.Trigonometric.Arctan
import Mathlib.Analysis.SpecialFunctions.Trigonometric.Bounds
import Mathlib.Tactic.Linarith
import Mathlib.Tactic.FieldSimp
import Mathlib.Tactic.Positivity
import Mathlib.Tactic.Ring
import Mathlib.Tactic.IntervalCases
import Mathlib.Tactic.FinCases
/-
Lemmas for the corners of a gnomonic cubed sphere grid.
-/
namespace Verif.Gnomonic

open Verif.Vec3 Verif.CubeGrid Verif.Spec Verif.Spec.Cube

/-! ### The coordinate -/

theorem alpha_eq : alpha = halfEdge := rfl

theorem sqrt3_pos : 0 < Real.sqrt 3 := Real.sqrt_pos.2 (by norm_num)
theorem sq3 : Real.sqrt 3 * Real.sqrt 3 = 3 := Real.mul_self_sqrt (by norm_num)
theorem sqrt2_pos : 0 < Real.sqrt 2 := Real.sqrt_pos.2 (by norm_num)
theorem sq2 : Real.sqrt 2 * Real.sqrt 2 = 2 := Real.mul_self_sqrt (by norm_num)

theorem rsq3_pos : 0 < rsq3 := by unfold rsq3; exact div_pos one_pos sqrt3_pos
theorem rsq3_sq : rsq3 * rsq3 = 1 / 3 := by
  unfold rsq3
  rw [div_mul_div_comm, sq3, one_mul]

theorem rsq3_lt : rsq3 < 1 := by nlinarith [rsq3_pos, rsq3_sq]
theorem rsq3_gt : 1 / 2 < rsq3 := by nlinarith [rsq3_pos, rsq3_sq]

theorem sin_alpha : Real.sin alpha = rsq3 := Real.sin_arcsin (by linarith [rsq3_pos]) rsq3_lt.le

theorem alpha_pos : 0 < alpha := by
  unfold alpha; exact Real.arcsin_pos.2 rsq3_pos

theorem alpha_lt : alpha < Real.pi / 2 := by
  unfold alpha; exact Real.arcsin_lt_pi_div_two.2 rsq3_lt

theorem cos_alpha_pos : 0 < Real.cos alpha := Real.cos_pos_of_mem_Ioo ⟨by linarith [alpha_pos, Real.pi_pos], alpha_lt⟩

theorem cos_alpha : Real.cos alpha = Real.sqrt 2 * rsq3 := by
  have h := Real.sin_sq_add_cos_sq alpha
  rw [sin_alpha] at h
  have e : (Real.cos alpha) ^ 2 = (Real.sqrt 2 * rsq3) ^ 2 := by
    have h1 := rsq3_sq
    have h2 := sq2
    nlinarith
  exact (pow_left_inj₀ cos_alpha_pos.le (mul_pos sqrt2_pos rsq3_pos).le two_ne_zero).1 e

theorem tan_alpha : Real.sqrt 2 * Real.tan alpha = 1 := by
  rw [Real.tan_eq_sin_div_cos, sin_alpha, cos_alpha]
  have := rsq3_pos.ne'
  have := sqrt2_pos.ne'
  field_simp

/-- The angle of `coordinate` -/
noncomputable def ang (n k : Nat) : ℝ := (2 * k / n - 1) * alpha

theorem coordinate_eq (n k : Nat) : coordinate n k = Real.sqrt 2 * Real.tan (ang n k) := rfl

theorem ang_zero (n : Nat) : ang n 0 = -alpha := by simp [ang]

theorem ang_last {n : Nat} (hn : 0 < n) : ang n n = alpha := by
  have : (n : ℝ) ≠ 0 := by positivity
  unfold ang; field_simp; ring

theorem ang_symm {n k : Nat} (hn : 0 < n) (hk : k ≤ n) : ang n (n - k) = -ang n k := by
  have : (n : ℝ) ≠ 0 := by positivity
  unfold ang; rw [Nat.cast_sub hk]; field_simp; ring

theorem ang_step {n k : Nat} : ang n (k + 1) = ang n k + 2 * alpha / n := by
  unfold ang; push_cast; ring

theorem ang_mid {n : Nat} (hn : 0 < n) (h : n % 2 = 0) : ang n (n / 2) = 0 := by
  have h0 : (n : ℝ) ≠ 0 := by positivity
  have h1 : ((n / 2 : Nat) : ℝ) = n / 2 := by
    have : 2 * (n / 2) = n := by omega
    have h2 : (2 : ℝ) * ((n / 2 : Nat) : ℝ) = n := by exact_mod_cast this
    linarith
  unfold ang; rw [h1]; field_simp; ring

theorem ang_lt {n k l : Nat} (hn : 0 < n) (h : k < l) : ang n k < ang n l := by
  have h0 : (0 : ℝ) < n := by positivity
  have h1 : (k : ℝ) < l := by exact_mod_cast h
  unfold ang
  apply mul_lt_mul_of_pos_right _ alpha_pos
  have : 2 * (k : ℝ) / n < 2 * l / n := by
    apply div_lt_div_of_pos_right _ h0; linarith
  linarith

theorem ang_le {n k : Nat} (hn : 0 < n) (hk : k ≤ n) : |ang n k| ≤ alpha := by
  rw [abs_le]
  constructor
  · rcases Nat.eq_zero_or_pos k with h | h
    · rw [h, ang_zero]
    · rw [← ang_zero n]; exact (ang_lt hn h).le
  · rcases Nat.lt_or_ge k n with h | h
    · rw [← ang_last hn]; exact (ang_lt hn h).le
    · rw [show k = n by omega, ang_last hn]

theorem ang_cos_pos {n k : Nat} (hn : 0 < n) (hk : k ≤ n) : Real.cos alpha ≤ Real.cos (ang n k) := by
  rw [← Real.cos_abs (ang n k)]
  exact Real.cos_le_cos_of_nonneg_of_le_pi (abs_nonneg _) (by linarith [alpha_lt, Real.pi_pos]) (ang_le hn hk)

theorem coordinate_symm {n k : Nat} (hn : 0 < n) (hk : k ≤ n) : coordinate n (n - k) = -coordinate n k := by
  rw [coordinate_eq, coordinate_eq, ang_symm hn hk, Real.tan_neg]; ring

theorem coordinate_zero (n : Nat) : coordinate n 0 = -1 := by
  rw [coordinate_eq, ang_zero, Real.tan_neg]; linarith [tan_alpha]

theorem coordinate_last {n : Nat} (hn : 0 < n) : coordinate n n = 1 := by
  rw [coordinate_eq, ang_last hn, tan_alpha]

theorem coordinate_mid {n : Nat} (hn : 0 < n) (h : n % 2 = 0) : coordinate n (n / 2) = 0 := by
  rw [coordinate_eq, ang_mid hn h]; simp

theorem coordinate_lt {n k l : Nat} (hn : 0 < n) (h : k < l) (hl : l ≤ n) : coordinate n k < coordinate n l := by
  rw [coordinate_eq, coordinate_eq]
  have h1 := abs_le.1 (ang_le hn (h.le.trans hl))
  have h2 := abs_le.1 (ang_le hn hl)
  have := alpha_lt
  exact mul_lt_mul_of_pos_left (Real.tan_lt_tan_of_lt_of_lt_pi_div_two (by linarith) (by linarith) (ang_lt hn h)) sqrt2_pos

theorem coordinate_le {n k : Nat} (hn : 0 < n) (hk : k ≤ n) : |coordinate n k| ≤ 1 := by
  rw [abs_le]
  constructor
  · rcases Nat.eq_zero_or_pos k with h | h
    · rw [h, coordinate_zero]
    · rw [← coordinate_zero n]; exact (coordinate_lt hn h hk).le
  · rcases Nat.lt_or_ge k n with h | h
    · rw [← coordinate_last hn]; exact (coordinate_lt hn h le_rfl).le
    · rw [show k = n by omega, coordinate_last hn]

/-- A coordinate is 0 or not close to 0. -/
theorem coordinate_clear {n k : Nat} (hn : 0 < n) (hk : k ≤ n) :
    coordinate n k = 0 ∨ Real.sqrt 2 * rsq3 / n ≤ |coordinate n k| := by
  have h0 : (0 : ℝ) < n := by positivity
  by_cases h : 2 * k = n
  · left
    have : k = n / 2 := by omega
    rw [this]; exact coordinate_mid hn (by omega)
  · right
    have ha := ang_le hn hk
    have hb : alpha / n ≤ |ang n k| := by
      unfold ang
      rw [abs_mul, abs_of_pos alpha_pos]
      have e : 2 * (k : ℝ) / n - 1 = ((2 * (k : ℤ) - n : ℤ) : ℝ) / n := by push_cast; field_simp
      rw [e, abs_div, abs_of_pos h0, div_mul_eq_mul_div]
      apply div_le_div_of_nonneg_right _ h0.le
      have : (1 : ℝ) ≤ |((2 * (k : ℤ) - n : ℤ) : ℝ)| := by
        rw [← Int.cast_abs]
        have : (1 : ℤ) ≤ |2 * (k : ℤ) - n| := Int.one_le_abs (by omega)
        exact_mod_cast this
      nlinarith [alpha_pos]
    have hs : rsq3 ≤ alpha := by rw [← sin_alpha]; exact Real.sin_le alpha_pos.le
    have ht : |ang n k| ≤ |Real.tan (ang n k)| := by
      rcases abs_cases (ang n k) with ⟨e, h1⟩ | ⟨e, h1⟩
      · have := Real.le_tan h1 (by rw [e] at ha; linarith [alpha_lt])
        rw [e]; exact this.trans (le_abs_self _)
      · have := Real.le_tan (x := -ang n k) (by linarith) (by rw [e] at ha; linarith [alpha_lt])
        rw [e]; rw [Real.tan_neg] at this; exact this.trans (neg_le_abs _)
    rw [coordinate_eq, abs_mul, abs_of_pos sqrt2_pos, mul_div_assoc]
    apply mul_le_mul_of_nonneg_left _ sqrt2_pos.le
    exact ((div_le_div_of_nonneg_right hs h0.le).trans hb).trans ht

/-! ### First tile -/

theorem west_ang (n j : Nat) : -alpha + 2 * alpha / n * j = ang n j := by unfold ang; ring

theorem cos_34 : Real.cos (0.75 * Real.pi) = -(Real.sqrt 2 / 2) := by
  rw [show (0.75 : ℝ) * Real.pi = Real.pi - Real.pi / 4 by ring, Real.cos_pi_sub, Real.cos_pi_div_four]
theorem sin_34 : Real.sin (0.75 * Real.pi) = Real.sqrt 2 / 2 := by
  rw [show (0.75 : ℝ) * Real.pi = Real.pi - Real.pi / 4 by ring, Real.sin_pi_sub, Real.sin_pi_div_four]
theorem cos_54 : Real.cos (1.25 * Real.pi) = -(Real.sqrt 2 / 2) := by
  rw [show (1.25 : ℝ) * Real.pi = Real.pi / 4 + Real.pi by ring, Real.cos_add_pi, Real.cos_pi_div_four]
theorem sin_54 : Real.sin (1.25 * Real.pi) = -(Real.sqrt 2 / 2) := by
  rw [show (1.25 : ℝ) * Real.pi = Real.pi / 4 + Real.pi by ring, Real.sin_add_pi, Real.sin_pi_div_four]

theorem xyz_west (n j : Nat) : xyz (west n j) =
    ![-(Real.cos (ang n j) * (Real.sqrt 2 / 2)), Real.cos (ang n j) * (Real.sqrt 2 / 2), Real.sin (ang n j)] := by
  unfold xyz west toXyz
  dsimp only
  rw [west_ang, cos_34, sin_34]
  ring_nf

theorem xyz_east (n j : Nat) : xyz (east n j) =
    ![-(Real.cos (ang n j) * (Real.sqrt 2 / 2)), -(Real.cos (ang n j) * (Real.sqrt 2 / 2)), Real.sin (ang n j)] := by
  unfold xyz east toXyz
  dsimp only
  rw [west_ang, cos_54, sin_54]
  ring_nf

theorem corner_val : Real.cos alpha * (Real.sqrt 2 / 2) = rsq3 := by
  rw [cos_alpha]; linear_combination rsq3 / 2 * sq2

theorem xyz_sw (n : Nat) : xyz (west n 0) = ![-rsq3, rsq3, -rsq3] := by
  rw [xyz_west, ang_zero, Real.cos_neg, Real.sin_neg, sin_alpha, corner_val]
theorem xyz_nw {n : Nat} (hn : 0 < n) : xyz (west n n) = ![-rsq3, rsq3, rsq3] := by
  rw [xyz_west, ang_last hn, sin_alpha, corner_val]
theorem xyz_se (n : Nat) : xyz (east n 0) = ![-rsq3, -rsq3, -rsq3] := by
  rw [xyz_east, ang_zero, Real.cos_neg, Real.sin_neg, sin_alpha, corner_val]
theorem xyz_ne {n : Nat} (hn : 0 < n) : xyz (east n n) = ![-rsq3, -rsq3, rsq3] := by
  rw [xyz_east, ang_last hn, sin_alpha, corner_val]

theorem xyz_sphere (p : LonLat) : xyz p = spherePoint p := rfl

/-- The south edge is the image of the west edge in the plane through two opposite corners. -/
theorem xyz_south {eps : ℝ} (he : 0 < eps) (he1 : eps ≤ 1 / 2) {n i : Nat} (hn : 0 < n) (hi : i ≤ n) :
    xyz (south eps n i) = ![xyz (west n i) 0, -xyz (west n i) 2, -xyz (west n i) 1] := by
  have hr := rsq3_sq
  have h2 : Real.sqrt (1 / 2) * Real.sqrt (1 / 2) = 1 / 2 := half_sqrt
  have hc : cross (xyz (west n 0)) (xyz (east n n)) = ![0, 2 / 3, 2 / 3] := by
    rw [xyz_sw, xyz_ne hn]
    unfold cross
    funext k
    fin_cases k <;> simp <;> linarith
  have hlen : Real.sqrt ((0 : ℝ) * 0 + 2 / 3 * (2 / 3) + 2 / 3 * (2 / 3)) = 2 / 3 * Real.sqrt 2 := by
    rw [Real.sqrt_eq_iff_mul_self_eq (by norm_num) (by positivity)]
    nlinarith [sq2]
  have hv : south eps n i = toLonLat eps ![xyz (west n i) 0, -xyz (west n i) 2, -xyz (west n i) 1] := by
    unfold south mirrorLatLon
    dsimp only
    rw [hc]
    congr 1
    simp only [Matrix.cons_val_zero, Matrix.cons_val_one, Matrix.cons_val]
    rw [hlen]
    have hs := sqrt2_pos.ne'
    have e : (2 : ℝ) / 3 / (2 / 3 * Real.sqrt 2) = 1 / Real.sqrt 2 := by field_simp
    have e2 : 1 / Real.sqrt 2 * (1 / Real.sqrt 2) = 1 / 2 := by rw [div_mul_div_comm, sq2, one_mul]
    rw [e]
    funext k
    fin_cases k
    · simp
    · simp only [zero_div, Fin.mk_one, Matrix.cons_val_one, Matrix.cons_val_zero]
      linear_combination (-2 * xyz (west n i) 1 - 2 * xyz (west n i) 2) * e2
    · simp only [zero_div, Fin.reduceFinMk, Matrix.cons_val]
      linear_combination (-2 * xyz (west n i) 1 - 2 * xyz (west n i) 2) * e2
  have hon : OnSphere (xyz (west n i)) := onSphere_point _
  rw [hv, xyz_sphere]
  refine (C35_lonlat eps he _ ?_ ?_).1
  · unfold OnSphere inner3 at hon ⊢
    simp only [Matrix.cons_val_zero, Matrix.cons_val_one, Matrix.cons_val]
    linarith
  · simp only [Matrix.cons_val_zero, Matrix.cons_val_one]
    have h1 : rsq3 ≤ |xyz (west n i) 0| := by
      rw [xyz_west]
      simp only [Matrix.cons_val_zero, abs_neg]
      rw [abs_of_pos (mul_pos (lt_of_lt_of_le cos_alpha_pos (ang_cos_pos hn hi)) (by positivity)), ← corner_val]
      exact mul_le_mul_of_nonneg_right (ang_cos_pos hn hi) (by positivity)
    linarith [abs_nonneg (-xyz (west n i) 2), rsq3_gt]

theorem west_yz {n j : Nat} (hn : 0 < n) (hj : j ≤ n) : westYZ n j = (rsq3, rsq3 * coordinate n j) := by
  unfold westYZ
  split_ifs with h
  · rcases h with h | h
    · rw [h, xyz_sw, coordinate_zero]; simp
    · rw [h, xyz_nw hn, coordinate_last hn]; simp
  · have hc := (lt_of_lt_of_le cos_alpha_pos (ang_cos_pos hn hj)).ne'
    have hs := sqrt2_pos.ne'
    unfold onCubeY onCubeZ
    rw [xyz_west, coordinate_eq, Real.tan_eq_sin_div_cos]
    simp only [Matrix.cons_val_zero, Matrix.cons_val_one, Matrix.cons_val]
    rw [Prod.mk.injEq]
    constructor
    · field_simp
    · field_simp
      linear_combination -Real.sin (ang n j) * rsq3 * sq2

theorem south_yz {eps : ℝ} (he : 0 < eps) (he1 : eps ≤ 1 / 2) {n i : Nat} (hn : 0 < n) (hi : i ≤ n) :
    southYZ eps n i = (-(rsq3 * coordinate n i), -rsq3) := by
  unfold southYZ
  split_ifs with h h'
  · rw [h, xyz_sw, coordinate_zero]; simp
  · rw [h', xyz_se, coordinate_last hn]; simp
  · have hc := (lt_of_lt_of_le cos_alpha_pos (ang_cos_pos hn hi)).ne'
    have hs := sqrt2_pos.ne'
    unfold onCubeY onCubeZ
    rw [xyz_south he he1 hn hi, xyz_west, coordinate_eq, Real.tan_eq_sin_div_cos]
    simp only [Matrix.cons_val_zero, Matrix.cons_val_one, Matrix.cons_val]
    rw [Prod.mk.injEq]
    constructor
    · field_simp
      linear_combination Real.sin (ang n i) * rsq3 * sq2
    · field_simp

theorem cube_yz {eps : ℝ} (he : 0 < eps) (he1 : eps ≤ 1 / 2) {n j i : Nat} (hn : 0 < n) (hj : j ≤ n) (hi : i ≤ n) :
    cubeYZ eps n j i = (-(rsq3 * coordinate n i), rsq3 * coordinate n j) := by
  unfold cubeYZ
  split_ifs with h h'
  · rw [south_yz he he1 hn hi, h, coordinate_zero]; simp
  · rw [west_yz hn hj, h', coordinate_zero]; simp
  · rw [south_yz he he1 hn hi, west_yz hn hj]

theorem arg_pos {x y : ℝ} (hx : 0 < x) : Complex.arg ⟨x, y⟩ = Real.arctan (y / x) := by
  rw [Complex.arg_of_re_nonneg (by simpa using hx.le), Real.arctan_eq_arcsin]
  congr 1
  have hn : ‖(⟨x, y⟩ : ℂ)‖ = x * Real.sqrt (1 + (y / x) ^ 2) := by
    rw [Complex.norm_def, Complex.normSq_mk]
    rw [Real.sqrt_eq_iff_mul_self_eq (by nlinarith [mul_self_nonneg x, mul_self_nonneg y]) (by positivity)]
    rw [mul_mul_mul_comm, Real.mul_self_sqrt (by positivity)]
    field_simp
  rw [hn]
  have h := (Real.sqrt_pos.2 (by positivity : 0 < 1 + (y / x) ^ 2)).ne'
  field_simp

/-- Length of `(1, y, z)` -/
noncomputable def len3 (y z : ℝ) : ℝ := Real.sqrt (1 + y * y + z * z)

theorem len3_pos (y z : ℝ) : 0 < len3 y z :=
  Real.sqrt_pos.2 (by nlinarith [mul_self_nonneg y, mul_self_nonneg z])

theorem len3_sq (y z : ℝ) : len3 y z * len3 y z = 1 + y * y + z * z :=
  Real.mul_self_sqrt (by nlinarith [mul_self_nonneg y, mul_self_nonneg z])

theorem len3_le {y z : ℝ} (hy : |y| ≤ 1) (hz : |z| ≤ 1) : len3 y z < 2 := by
  have h1 := abs_le.1 hy
  have h2 := abs_le.1 hz
  have := len3_sq y z
  nlinarith [len3_pos y z]

theorem toLonLat_front {eps r y z : ℝ} (he1 : eps ≤ 1 / 2) (hr : 0 < r) (hy : |y| ≤ 1) (hz : |z| ≤ 1) :
    toLonLat eps ![-r, -(r * y), r * z] = (Real.pi + Real.arctan y, Real.arcsin (z / len3 y z)) := by
  have hd : Real.sqrt (-r * -r + -(r * y) * -(r * y) + r * z * (r * z)) = r * len3 y z := by
    rw [Real.sqrt_eq_iff_mul_self_eq (by nlinarith [mul_self_nonneg r, mul_self_nonneg (r * y), mul_self_nonneg (r * z)])
      (mul_pos hr (len3_pos y z)).le]
    linear_combination -(r * r) * len3_sq y z
  have hl := len3_pos y z
  have hpi := Real.pi_pos
  unfold toLonLat
  simp only [Matrix.cons_val_zero, Matrix.cons_val_one, Matrix.cons_val]
  have e0 : -r / (r * len3 y z) = -(1 / len3 y z) := by field_simp
  have e1 : -(r * y) / (r * len3 y z) = -(y / len3 y z) := by field_simp
  have e2 : r * z / (r * len3 y z) = z / len3 y z := by field_simp
  have hfar : ¬ |-(1 / len3 y z)| + |-(y / len3 y z)| < eps := by
    rw [not_lt, abs_neg, abs_of_pos (by positivity)]
    have : 1 / 2 < 1 / len3 y z := by
      rw [div_lt_div_iff₀ (by norm_num) hl]; linarith [len3_le hy hz]
    linarith [abs_nonneg (-(y / len3 y z))]
  simp only [hd, e0, e1, e2, if_neg hfar]
  have hq : y / len3 y z / (1 / len3 y z) = y := by field_simp
  have hp : 0 < 1 / len3 y z := by positivity
  have ha := arg_pos (y := y / len3 y z) hp
  rw [hq] at ha
  have hneg : (⟨-(1 / len3 y z), -(y / len3 y z)⟩ : ℂ) = -⟨1 / len3 y z, y / len3 y z⟩ := by
    apply Complex.ext <;> simp
  have lo := Real.neg_pi_div_two_lt_arctan y
  have hi := Real.arctan_lt_pi_div_two y
  unfold atan2
  rw [hneg]
  rw [Prod.mk.injEq]
  refine ⟨?_, rfl⟩
  rcases lt_trichotomy y 0 with h | h | h
  · rw [Complex.arg_neg_eq_arg_add_pi_of_im_neg (div_neg_of_neg_of_pos h hl), ha, if_neg (by linarith)]; ring
  · have hz0 : -(⟨1 / len3 y z, y / len3 y z⟩ : ℂ) = ((-(1 / len3 y z) : ℝ) : ℂ) := by
      apply Complex.ext <;> simp [h]
    rw [hz0, Complex.arg_ofReal_of_neg (by linarith), if_neg (by linarith), h]; simp
  · rw [Complex.arg_neg_eq_arg_sub_pi_of_im_pos (div_pos h hl), ha, if_pos (by linarith)]; ring

theorem gnomonic_eq {eps : ℝ} (he : 0 < eps) (he1 : eps ≤ 1 / 2) {n j i : Nat} (hn : 0 < n) (hj : j ≤ n) (hi : i ≤ n) :
    gnomonicEd eps n j i = (Real.pi + Real.arctan (coordinate n i),
      Real.arcsin (coordinate n j / len3 (coordinate n i) (coordinate n j))) := by
  unfold gnomonicEd
  rw [cube_yz he he1 hn hj hi]
  exact toLonLat_front he1 rsq3_pos (coordinate_le hn hi) (coordinate_le hn hj)

/-- Latitude of the first tile -/
noncomputable def lat1 (n j i : Nat) : ℝ := Real.arcsin (coordinate n j / len3 (coordinate n i) (coordinate n j))

theorem len3_neg_left (y z : ℝ) : len3 (-y) z = len3 y z := by unfold len3; rw [neg_mul_neg]
theorem len3_neg_right (y z : ℝ) : len3 y (-z) = len3 y z := by unfold len3; rw [neg_mul_neg]

theorem lat1_i {n j i : Nat} (hn : 0 < n) (hi : i ≤ n) : lat1 n j (n - i) = lat1 n j i := by
  unfold lat1; rw [coordinate_symm hn hi, len3_neg_left]

theorem lat1_j {n j i : Nat} (hn : 0 < n) (hj : j ≤ n) : lat1 n (n - j) i = -lat1 n j i := by
  unfold lat1; rw [coordinate_symm hn hj, len3_neg_right, neg_div, Real.arcsin_neg]

theorem lonBefore_eq {eps : ℝ} (he : 0 < eps) (he1 : eps ≤ 1 / 2) {n j i : Nat} (hn : 0 < n) (hj : j ≤ n) (hi : i ≤ n) :
    lonBefore eps n j i = Real.arctan (coordinate n i) := by
  have h1 : ∀ j i, j ≤ n → i ≤ n → symmCopy n (fun j i => (gnomonicEd eps n j i).1) j i
      = Real.pi + Real.arctan (coordinate n i) := by
    intro j i hj hi
    unfold symmCopy
    dsimp only
    split_ifs
    · rw [gnomonic_eq he he1 hn (Nat.zero_le n) hi]
    · rw [gnomonic_eq he he1 hn hj hi]
  have h2 : ∀ j i, j ≤ n → i ≤ n → symmLamI n (symmCopy n fun j i => (gnomonicEd eps n j i).1) j i
      = Real.pi + Real.arctan (coordinate n i) := by
    intro j i hj hi
    unfold symmLamI
    rw [h1 j i hj hi, h1 j (n - i) hj (by omega), coordinate_symm hn hi, Real.arctan_neg]
    split_ifs <;> ring
  unfold lonBefore symmLamJ
  rw [h2 j i hj hi, h2 (n - j) i (by omega) hi]
  split_ifs <;> ring

theorem latBefore_eq {eps : ℝ} (he : 0 < eps) (he1 : eps ≤ 1 / 2) {n j i : Nat} (hn : 0 < n) (hj : j ≤ n) (hi : i ≤ n) :
    latBefore eps n j i = lat1 n j i := by
  have h1 : ∀ j i, j ≤ n → i ≤ n → (gnomonicEd eps n j i).2 = lat1 n j i := by
    intro j i hj hi
    rw [gnomonic_eq he he1 hn hj hi]; rfl
  have h2 : ∀ j i, j ≤ n → i ≤ n → symmTheI n (fun j i => (gnomonicEd eps n j i).2) j i = lat1 n j i := by
    intro j i hj hi
    unfold symmTheI
    dsimp only
    rw [h1 j i hj hi, h1 j (n - i) hj (by omega), lat1_i hn hi]
    split_ifs <;> ring
  unfold latBefore symmTheJ
  rw [h2 j i hj hi, h2 (n - j) i (by omega) hi, lat1_j hn hj]
  split_ifs <;> ring

theorem abs_sign (a : ℝ) : |a| * sign a = a := by
  unfold sign
  split_ifs with h
  · rw [abs_of_nonneg h, mul_one]
  · rw [abs_of_neg (not_le.1 h)]; ring

theorem tile1_eq {eps : ℝ} (he : 0 < eps) (he1 : eps ≤ 1 / 2) {n j i : Nat} (hn : 0 < n) (hj : j ≤ n) (hi : i ≤ n) :
    tile1 eps n j i = (Real.arctan (coordinate n i), lat1 n j i) := by
  have hj' : n - j ≤ n := by omega
  have hi' : n - i ≤ n := by omega
  unfold tile1 mean4
  rw [lonBefore_eq he he1 hn hj hi, lonBefore_eq he he1 hn hj hi', lonBefore_eq he he1 hn hj' hi,
    lonBefore_eq he he1 hn hj' hi', latBefore_eq he he1 hn hj hi, latBefore_eq he he1 hn hj hi',
    latBefore_eq he he1 hn hj' hi, latBefore_eq he he1 hn hj' hi', lat1_i hn hi, lat1_i hn hi, lat1_j hn hj,
    coordinate_symm hn hi, Real.arctan_neg, abs_neg, abs_neg]
  have e1 := abs_sign (Real.arctan (coordinate n i))
  have e2 := abs_sign (lat1 n j i)
  rw [Prod.mk.injEq]
  constructor
  · split_ifs with h
    · rw [h.2, coordinate_mid hn h.1, Real.arctan_zero]
    · linear_combination e1
  · linear_combination e2

theorem tile1_point {eps : ℝ} (he : 0 < eps) (he1 : eps ≤ 1 / 2) {n j i : Nat} (hn : 0 < n) (hj : j ≤ n) (hi : i ≤ n) :
    spherePoint (tile1 eps n j i) = project ![1, coordinate n i, coordinate n j] ∧
      |(tile1 eps n j i).2| ≤ Real.pi / 2 := by
  rw [tile1_eq he he1 hn hj hi]
  constructor
  swap
  · exact abs_le.2 ⟨Real.neg_pi_div_two_le_arcsin _, Real.arcsin_le_pi_div_two _⟩
  unfold lat1
  generalize coordinate n i = y
  generalize coordinate n j = z
  have hl := len3_pos y z
  have hsq := len3_sq y z
  have hb : -1 ≤ z / len3 y z ∧ z / len3 y z ≤ 1 := by
    constructor
    · rw [le_div_iff₀ hl]; nlinarith [mul_self_nonneg y]
    · rw [div_le_one hl]; nlinarith [mul_self_nonneg y]
  have hq : 0 < Real.sqrt (1 + y ^ 2) := Real.sqrt_pos.2 (by positivity)
  have hc : Real.cos (Real.arcsin (z / len3 y z)) = Real.sqrt (1 + y ^ 2) / len3 y z := by
    rw [Real.cos_arcsin, Real.sqrt_eq_iff_mul_self_eq (by nlinarith) (by positivity)]
    rw [div_mul_div_comm, Real.mul_self_sqrt (by positivity), hsq, div_pow, pow_two (len3 y z), hsq]
    have : 1 + y * y + z * z ≠ 0 := by rw [← hsq]; positivity
    field_simp
    ring
  have hp : Real.sqrt (inner3 ![1, y, z] ![1, y, z]) = len3 y z := by
    unfold inner3 len3
    simp
  have hq' := hq.ne'
  unfold spherePoint project
  rw [hp]
  dsimp only
  rw [hc, Real.sin_arcsin hb.1 hb.2, Real.cos_arctan, Real.sin_arctan]
  funext k
  fin_cases k
  · simp; field_simp
  · simp; field_simp
  · simp

/-! ### The other tiles -/

/-- No component is close to 0 without being 0. -/
def Clear (eps : ℝ) (w : V ℝ) : Prop := ∀ k, w k = 0 ∨ eps ≤ |w k|

/-- The result of `rot_3d` is the point `w` of the sphere. -/
def At (r : ℝ) (w : V ℝ) (q : ℝ × ℝ × ℝ) : Prop :=
  spherePoint (q.1, q.2.1) = w ∧ |q.2.1| ≤ Real.pi / 2 ∧ q.2.2 = r

theorem cart_eq (eps a b c : ℝ) : cartToSph eps ![a, b, c] =
    (if |a| + |b| < eps then 0 else atan2 b a, Real.arccos (c / Real.sqrt (a * a + b * b + c * c)) - Real.pi / 2,
      Real.sqrt (a * a + b * b + c * c)) := rfl

theorem cart_at {eps r : ℝ} (he : 0 < eps) (hr : 1 ≤ r) {w : V ℝ} (hw : OnSphere w) (hc : Clear eps w) :
    At r w (cartToSph eps ![r * w 0, r * w 1, -(r * w 2)]) := by
  have hr0 : 0 < r := by linarith
  have hz := sphere_z hw
  have hon := hw
  unfold OnSphere inner3 at hon
  have hd : Real.sqrt (r * w 0 * (r * w 0) + r * w 1 * (r * w 1) + -(r * w 2) * -(r * w 2)) = r := by
    have h0 : 0 ≤ r * w 0 * (r * w 0) + r * w 1 * (r * w 1) + -(r * w 2) * -(r * w 2) := by
      have a := mul_self_nonneg (r * w 0)
      have b := mul_self_nonneg (r * w 1)
      have c := mul_self_nonneg (-(r * w 2))
      linarith
    rw [Real.sqrt_eq_iff_mul_self_eq h0 hr0.le]
    linear_combination r * r * hon
  have hlat : Real.arccos (-(r * w 2) / r) - Real.pi / 2 = Real.arcsin (w 2) := by
    rw [show -(r * w 2) / r = -w 2 by field_simp]
    unfold Real.arccos
    rw [Real.arcsin_neg]; ring
  unfold At
  rw [cart_eq, hd, hlat]
  refine ⟨?_, abs_le.2 ⟨Real.neg_pi_div_two_le_arcsin _, Real.arcsin_le_pi_div_two _⟩, rfl⟩
  dsimp only
  have hsin : Real.sin (Real.arcsin (w 2)) = w 2 := Real.sin_arcsin hz.1 hz.2
  have hcos := cos_arcsin_sphere hw
  by_cases h00 : w 0 = 0 ∧ w 1 = 0
  · funext k
    have h0 : Real.cos (Real.arcsin (w 2)) = 0 := by rw [hcos, h00.1, h00.2]; simp
    fin_cases k <;> simp [spherePoint, h0, h00.1, h00.2, hsin]
  · have hfar : ¬ |r * w 0| + |r * w 1| < eps := by
      rw [not_lt, abs_mul, abs_mul, abs_of_pos hr0]
      rcases hc 0 with h | h
      · rcases hc 1 with h' | h'
        · exact absurd ⟨h, h'⟩ h00
        · nlinarith [abs_nonneg (w 0), abs_nonneg (w 1)]
      · nlinarith [abs_nonneg (w 0), abs_nonneg (w 1)]
    rw [if_neg hfar]
    have hne : (⟨w 0, w 1⟩ : ℂ) ≠ 0 := by
      intro e
      exact h00 ⟨by simpa using congrArg Complex.re e, by simpa using congrArg Complex.im e⟩
    have hat : atan2 (r * w 1) (r * w 0) = atan2 (w 1) (w 0) := by
      unfold atan2
      rw [← Complex.arg_real_mul (⟨w 0, w 1⟩ : ℂ) hr0]
      congr 1
      apply Complex.ext <;> simp
    obtain ⟨h1, h2⟩ := atan2_cos hne
    rw [hat]
    funext k
    fin_cases k
    · simpa [spherePoint, hcos] using h1
    · simpa [spherePoint, hcos] using h2
    · simpa [spherePoint] using hsin

theorem sph_of {r : ℝ} {w : V ℝ} {q : ℝ × ℝ × ℝ} (h : At r w q) :
    sphToCart q.1 q.2.1 q.2.2 = ![r * w 0, r * w 1, -(r * w 2)] := by
  obtain ⟨h1, -, h3⟩ := h
  rw [h3, ← h1]
  unfold sphToCart spherePoint
  funext k
  fin_cases k <;> simp <;> ring

theorem ninety : (90 : ℝ) * (Real.pi / 180) = Real.pi / 2 := by ring
theorem minus90 : (-90 : ℝ) * (Real.pi / 180) = -(Real.pi / 2) := by ring
theorem minus180 : (-180 : ℝ) * (Real.pi / 180) = -Real.pi := by ring

section
variable {eps r : ℝ} (he : 0 < eps) (hr : 1 ≤ r) {w : V ℝ} {q : ℝ × ℝ × ℝ} (h : At r w q) (hw : OnSphere w)
  (hc : Clear eps w)
include he hr h hw hc

theorem rot_three_minus90 : At r ![-w 1, w 0, w 2] (rot3d eps .three q (-90)) := by
  have key := cart_at he hr (w := ![-w 1, w 0, w 2]) (by unfold OnSphere inner3 at *; simp; linarith)
    (by intro k; fin_cases k <;> simp <;> first | exact hc 1 | exact hc 0 | exact hc 2)
  unfold rot3d
  rw [sph_of h, minus90]
  simpa using key

theorem rot_three_90 : At r ![w 1, -w 0, w 2] (rot3d eps .three q 90) := by
  have key := cart_at he hr (w := ![w 1, -w 0, w 2]) (by unfold OnSphere inner3 at *; simp; linarith)
    (by intro k; fin_cases k <;> simp <;> first | exact hc 1 | exact hc 0 | exact hc 2)
  unfold rot3d
  rw [sph_of h, ninety]
  simpa using key

theorem rot_three_minus180 : At r ![-w 0, -w 1, w 2] (rot3d eps .three q (-180)) := by
  have key := cart_at he hr (w := ![-w 0, -w 1, w 2]) (by unfold OnSphere inner3 at *; simp; linarith)
    (by intro k; fin_cases k <;> simp <;> first | exact hc 0 | exact hc 1 | exact hc 2)
  unfold rot3d
  rw [sph_of h, minus180]
  simpa using key

theorem rot_three_0 : At r ![w 0, w 1, w 2] (rot3d eps .three q 0) := by
  have key := cart_at he hr (w := ![w 0, w 1, w 2]) (by unfold OnSphere inner3 at *; simp; linarith)
    (by intro k; fin_cases k <;> simp <;> first | exact hc 0 | exact hc 1 | exact hc 2)
  unfold rot3d
  rw [sph_of h, zero_mul]
  simpa using key

theorem rot_one_90 : At r ![w 0, -w 2, w 1] (rot3d eps .one q 90) := by
  have key := cart_at he hr (w := ![w 0, -w 2, w 1]) (by unfold OnSphere inner3 at *; simp; linarith)
    (by intro k; fin_cases k <;> simp <;> first | exact hc 0 | exact hc 2 | exact hc 1)
  unfold rot3d
  rw [sph_of h, ninety]
  simpa using key

theorem rot_two_90 : At r ![w 2, w 1, -w 0] (rot3d eps .two q 90) := by
  have key := cart_at he hr (w := ![w 2, w 1, -w 0]) (by unfold OnSphere inner3 at *; simp; linarith)
    (by intro k; fin_cases k <;> simp <;> first | exact hc 2 | exact hc 1 | exact hc 0)
  unfold rot3d
  rw [sph_of h, ninety]
  simpa using key

end

theorem force_cos {l t : ℝ} {w : V ℝ} (h : spherePoint (l, t) = w) (ht : |t| ≤ Real.pi / 2) (h1 : w 1 = 0) :
    Real.cos t = |w 0| := by
  have hb := abs_le.1 ht
  have h0 : 0 ≤ Real.cos t := Real.cos_nonneg_of_neg_pi_div_two_le_of_le hb.1 hb.2
  have e0 : Real.cos t * Real.cos l = w 0 := by rw [← h]; simp [spherePoint]
  have e1 : Real.cos t * Real.sin l = 0 := by rw [← h1, ← h]; simp [spherePoint]
  have hs := Real.sin_sq_add_cos_sq l
  have e : (Real.cos t) ^ 2 = |w 0| ^ 2 := by
    rw [sq_abs, ← e0]
    linear_combination -(Real.cos t) ^ 2 * hs + (Real.cos t * Real.sin l) * e1
  exact (pow_left_inj₀ h0 (abs_nonneg _) two_ne_zero).1 e

theorem force_zero {l t : ℝ} {w : V ℝ} (h : spherePoint (l, t) = w) (ht : |t| ≤ Real.pi / 2) (h1 : w 1 = 0)
    (h0 : 0 ≤ w 0) : spherePoint (0, t) = w := by
  have hc := force_cos h ht h1
  have h2 : Real.sin t = w 2 := by rw [← h]; simp [spherePoint]
  rw [abs_of_nonneg h0] at hc
  funext k
  fin_cases k <;> simp [spherePoint, hc, h1, h2]

theorem force_pi {l t : ℝ} {w : V ℝ} (h : spherePoint (l, t) = w) (ht : |t| ≤ Real.pi / 2) (h1 : w 1 = 0)
    (h0 : w 0 ≤ 0) : spherePoint (Real.pi, t) = w := by
  have hc := force_cos h ht h1
  have h2 : Real.sin t = w 2 := by rw [← h]; simp [spherePoint]
  rw [abs_of_nonpos h0] at hc
  funext k
  fin_cases k <;> simp [spherePoint, hc, h1, h2]

/-! ### All tiles -/

theorem project_eq (a b c : ℝ) : project ![a, b, c] =
    ![a / Real.sqrt (a * a + b * b + c * c), b / Real.sqrt (a * a + b * b + c * c),
      c / Real.sqrt (a * a + b * b + c * c)] := by
  unfold project inner3
  funext k
  fin_cases k <;> simp

theorem project_front (y z : ℝ) : project ![1, y, z] = ![1 / len3 y z, y / len3 y z, z / len3 y z] := by
  rw [project_eq]; unfold len3; rw [one_mul]

theorem project_sphere (y z : ℝ) : OnSphere (project ![1, y, z]) := by
  have h := len3_sq y z
  have hl := (len3_pos y z).ne'
  rw [project_front]
  unfold OnSphere inner3
  simp only [Matrix.cons_val_zero, Matrix.cons_val_one, Matrix.cons_val]
  field_simp
  nlinarith

theorem project_clear {eps : ℝ} {n j i : Nat} (hn : 0 < n) (hj : j ≤ n) (hi : i ≤ n) (he2 : eps * n ≤ 2 / 5) :
    Clear eps (project ![1, coordinate n i, coordinate n j]) := by
  have h0 : (0 : ℝ) < n := by positivity
  have h1 : (1 : ℝ) ≤ n := by exact_mod_cast hn
  have hl := len3_pos (coordinate n i) (coordinate n j)
  have hl2 := len3_le (coordinate_le hn hi) (coordinate_le hn hj)
  have h8 : 4 / 5 ≤ Real.sqrt 2 * rsq3 := by
    have a := rsq3_sq
    have b := sq2
    have c := mul_pos sqrt2_pos rsq3_pos
    have d : Real.sqrt 2 * rsq3 * (Real.sqrt 2 * rsq3) = 2 / 3 := by
      linear_combination rsq3 * rsq3 * b + 2 * a
    nlinarith
  have hq : ∀ a : ℝ, Real.sqrt 2 * rsq3 / n ≤ |a| → eps ≤ |a / len3 (coordinate n i) (coordinate n j)| := by
    intro a ha
    rw [abs_div, abs_of_pos hl, le_div_iff₀ hl]
    rw [div_le_iff₀ h0] at ha
    have e : eps * len3 (coordinate n i) (coordinate n j) * n ≤ |a| * n := by
      have : eps * n * len3 (coordinate n i) (coordinate n j) ≤ 2 / 5 * len3 (coordinate n i) (coordinate n j) :=
        mul_le_mul_of_nonneg_right he2 hl.le
      nlinarith
    exact le_of_mul_le_mul_right e h0
  rw [project_front]
  intro k
  fin_cases k
  · right
    refine hq 1 ?_
    rw [abs_one, div_le_one h0]
    have a := rsq3_sq
    have b := sq2
    have c := mul_pos sqrt2_pos rsq3_pos
    have d : Real.sqrt 2 * rsq3 * (Real.sqrt 2 * rsq3) = 2 / 3 := by
      linear_combination rsq3 * rsq3 * b + 2 * a
    nlinarith
  · rcases coordinate_clear hn hi with h | h
    · left; simp [h]
    · right; exact hq _ h
  · rcases coordinate_clear hn hj with h | h
    · left; simp [h]
    · right; exact hq _ h

/-- The direction of a corner -/
noncomputable def dir (n t j i : Nat) : V ℝ := project (cubePoint n (place n t j i))

/-- The rotation which leads from the first tile to tile `t` -/
def permOf (t : Nat) (w : V ℝ) : V ℝ :=
  match t with
  | 0 => w
  | 1 => ![-w 1, w 0, w 2]
  | 2 => ![-w 1, -w 2, w 0]
  | 3 => ![-w 0, -w 2, -w 1]
  | 4 => ![w 2, -w 0, -w 1]
  | _ => ![w 2, w 1, -w 0]

theorem dir_eq {n t j i : Nat} (hn : 0 < n) (ht : t < 6) (hj : j ≤ n) (hi : i ≤ n) :
    dir n t j i = permOf t (project ![1, coordinate n i, coordinate n j]) := by
  have hy := coordinate_symm hn hi
  have hz := coordinate_symm hn hj
  have h1 := coordinate_last hn
  have h0 := coordinate_zero n
  unfold dir cubePoint
  interval_cases t <;> simp only [place, permOf, hy, hz, h1, h0, project_eq] <;> generalize coordinate n i = y <;>
    generalize coordinate n j = z
  · simp only [Matrix.cons_val_zero, Matrix.cons_val_one, Matrix.cons_val]
    rw [show -y * -y + 1 * 1 + z * z = 1 * 1 + y * y + z * z by ring, neg_div]
  · simp only [Matrix.cons_val_zero, Matrix.cons_val_one, Matrix.cons_val]
    rw [show -y * -y + -z * -z + 1 * 1 = 1 * 1 + y * y + z * z by ring, neg_div, neg_div]
  · simp only [Matrix.cons_val_zero, Matrix.cons_val_one, Matrix.cons_val]
    rw [show (-1 : ℝ) * -1 + -z * -z + -y * -y = 1 * 1 + y * y + z * z by ring, neg_div, neg_div, neg_div]
  · simp only [Matrix.cons_val_zero, Matrix.cons_val_one, Matrix.cons_val]
    rw [show z * z + (-1 : ℝ) * -1 + -y * -y = 1 * 1 + y * y + z * z by ring, neg_div, neg_div]
  · simp only [Matrix.cons_val_zero, Matrix.cons_val_one, Matrix.cons_val]
    rw [show z * z + y * y + (-1 : ℝ) * -1 = 1 * 1 + y * y + z * z by ring, neg_div]

theorem dir_clear {eps : ℝ} {n t j i : Nat} (hn : 0 < n) (ht : t < 6) (hj : j ≤ n) (hi : i ≤ n) (he2 : eps * n ≤ 2 / 5) :
    Clear eps (dir n t j i) := by
  have hc := project_clear hn hj hi he2
  rw [dir_eq hn ht hj hi]
  generalize project ![1, coordinate n i, coordinate n j] = w at hc
  unfold permOf
  interval_cases t
  · exact hc
  all_goals
    intro k; fin_cases k <;> simp <;> first | exact hc 0 | exact hc 1 | exact hc 2

theorem tile_at {eps r : ℝ} (he : 0 < eps) (hr : 1 ≤ r) {n t j i : Nat} (hn : 0 < n) (ht : t < 6) (hj : j ≤ n)
    (hi : i ≤ n) (he2 : eps * n ≤ 2 / 5) :
    spherePoint (tileOf eps r n t (tile1 eps n j i) j i) = dir n t j i ∧
      |(tileOf eps r n t (tile1 eps n j i) j i).2| ≤ Real.pi / 2 := by
  have h1 : (1 : ℝ) ≤ n := by exact_mod_cast hn
  have he1 : eps ≤ 1 / 2 := by nlinarith
  obtain ⟨hp, hlat⟩ := tile1_point he he1 hn hj hi
  have hs := project_sphere (coordinate n i) (coordinate n j)
  have hc := project_clear hn hj hi he2
  have hf := project_front (coordinate n i) (coordinate n j)
  have hl := len3_pos (coordinate n i) (coordinate n j)
  have hpi := Real.pi_pos
  rw [dir_eq hn ht hj hi]
  -- signs on the middle lines
  have ylo : n % 2 = 0 → i < n / 2 → coordinate n i < 0 := fun h h' => by
    rw [← coordinate_mid hn h]; exact coordinate_lt hn h' (by omega)
  have yhi : n % 2 = 0 → n / 2 < i → 0 < coordinate n i := fun h h' => by
    rw [← coordinate_mid hn h]; exact coordinate_lt hn h' hi
  have zlo : n % 2 = 0 → j < n / 2 → coordinate n j < 0 := fun h h' => by
    rw [← coordinate_mid hn h]; exact coordinate_lt hn h' (by omega)
  have zhi : n % 2 = 0 → n / 2 < j → 0 < coordinate n j := fun h h' => by
    rw [← coordinate_mid hn h]; exact coordinate_lt hn h' hj
  have ymid : n % 2 = 0 → i = n / 2 → coordinate n i = 0 := fun h h' => by rw [h', coordinate_mid hn h]
  have zmid : n % 2 = 0 → j = n / 2 → coordinate n j = 0 := fun h h' => by rw [h', coordinate_mid hn h]
  generalize tile1 eps n j i = p at hp hlat
  generalize coordinate n i = y at *
  generalize coordinate n j = z at *
  set w := project ![1, y, z] with hw
  have w0 : w 0 = 1 / len3 y z := by rw [hf]; rfl
  have w1 : w 1 = y / len3 y z := by rw [hf]; rfl
  have w2 : w 2 = z / len3 y z := by rw [hf]; rfl
  have w0p : 0 < w 0 := by rw [w0]; positivity
  have hon : w 0 * w 0 + w 1 * w 1 + w 2 * w 2 = 1 := hs
  have hq : At r w (p.1, p.2, r) := ⟨hp, hlat, rfl⟩
  interval_cases t <;> simp only [tileOf, permOf]
  · exact ⟨hp, hlat⟩
  · have := rot_three_minus90 he hr hq hs hc
    exact ⟨this.1, this.2.1⟩
  · have a := rot_three_minus90 he hr hq hs hc
    have b := rot_one_90 he hr a (by unfold OnSphere inner3; simp; linarith)
      (by intro k; fin_cases k <;> simp <;> first | exact hc 1 | exact hc 0 | exact hc 2)
    simp only [Matrix.cons_val_zero, Matrix.cons_val_one, Matrix.cons_val] at b
    generalize rot3d eps .one (rot3d eps .three (p.1, p.2, r) (-90)) 90 = q' at b ⊢
    obtain ⟨b1, b2, -⟩ := b
    split_ifs with h h2 h3 h4
    · have y0 := ymid h h2.1
      have z0 := zmid h (by omega)
      have e1 : w 1 = 0 := by rw [w1, y0, zero_div]
      have e2 : w 2 = 0 := by rw [w2, z0, zero_div]
      have e0 : w 0 = 1 := by rw [e1, e2] at hon; nlinarith
      refine ⟨?_, ?_⟩
      · rw [show Real.pi * 0.5 = Real.pi / 2 by ring]
        funext k
        fin_cases k <;> simp [spherePoint, e0, e1, e2]
      · rw [show Real.pi * 0.5 = Real.pi / 2 by ring, abs_of_pos (by linarith)]
    · refine ⟨force_zero b1 b2 ?_ ?_, b2⟩
      · simp [w2, zmid h h3.1]
      · simp only [Matrix.cons_val_zero, w1]
        have := div_neg_of_neg_of_pos (ylo h h3.2) hl
        linarith
    · refine ⟨force_pi b1 b2 ?_ ?_, b2⟩
      · simp [w2, zmid h h4.1]
      · simp only [Matrix.cons_val_zero, w1]
        have := div_pos (yhi h h4.2) hl
        linarith
    · exact ⟨b1, b2⟩
    · exact ⟨b1, b2⟩
  · have a := rot_three_minus180 he hr hq hs hc
    have b := rot_one_90 he hr a (by unfold OnSphere inner3; simp; linarith)
      (by intro k; fin_cases k <;> simp <;> first | exact hc 0 | exact hc 1 | exact hc 2)
    simp only [Matrix.cons_val_zero, Matrix.cons_val_one, Matrix.cons_val] at b
    generalize rot3d eps .one (rot3d eps .three (p.1, p.2, r) (-180)) 90 = q' at b ⊢
    obtain ⟨b1, b2, -⟩ := b
    split_ifs with h
    · refine ⟨force_pi b1 b2 ?_ ?_, b2⟩
      · simp [w2, zmid h.1 h.2]
      · simp only [Matrix.cons_val_zero]; linarith
    · exact ⟨b1, b2⟩
  · have a := rot_three_90 he hr hq hs hc
    have b := rot_two_90 he hr a (by unfold OnSphere inner3; simp; linarith)
      (by intro k; fin_cases k <;> simp <;> first | exact hc 1 | exact hc 0 | exact hc 2)
    simp only [Matrix.cons_val_zero, Matrix.cons_val_one, Matrix.cons_val] at b
    generalize rot3d eps .two (rot3d eps .three (p.1, p.2, r) 90) 90 = q' at b ⊢
    exact ⟨b.1, b.2.1⟩
  · have a := rot_two_90 he hr hq hs hc
    have b := rot_three_0 he hr a (by unfold OnSphere inner3; simp; linarith)
      (by intro k; fin_cases k <;> simp <;> first | exact hc 2 | exact hc 1 | exact hc 0)
    simp only [Matrix.cons_val_zero, Matrix.cons_val_one, Matrix.cons_val] at b
    generalize rot3d eps .three (rot3d eps .two (p.1, p.2, r) 90) 0 = q' at b ⊢
    obtain ⟨b1, b2, -⟩ := b
    split_ifs with h h2 h3 h4
    · have y0 := ymid h h2.1
      have z0 := zmid h (by omega)
      have e1 : w 1 = 0 := by rw [w1, y0, zero_div]
      have e2 : w 2 = 0 := by rw [w2, z0, zero_div]
      have e0 : w 0 = 1 := by rw [e1, e2] at hon; nlinarith
      refine ⟨?_, ?_⟩
      · rw [show -Real.pi * 0.5 = -(Real.pi / 2) by ring]
        funext k
        fin_cases k <;> simp [spherePoint, e0, e1, e2]
      · rw [show -Real.pi * 0.5 = -(Real.pi / 2) by ring, abs_neg, abs_of_pos (by linarith)]
    · refine ⟨force_zero b1 b2 ?_ ?_, b2⟩
      · simp [w1, ymid h h3.1]
      · simp only [Matrix.cons_val_zero, w2]
        exact (div_pos (zhi h h3.2) hl).le
    · refine ⟨force_pi b1 b2 ?_ ?_, b2⟩
      · simp [w1, ymid h h4.1]
      · simp only [Matrix.cons_val_zero, w2]
        exact (div_neg_of_neg_of_pos (zlo h h4.2) hl).le
    · exact ⟨b1, b2⟩
    · exact ⟨b1, b2⟩

end Verif.Gnomonic
