import Verif.Model.ConformalGrid
import Mathlib.Tactic.LinearCombination
import Mathlib.Tactic.NormNum
import Mathlib.Tactic.Linarith
import Mathlib.Tactic.FieldSimp
import Mathlib.Tactic.Ring
/-
Lemmas on the map of a square to a face of the sphere.
-/
noncomputable section
namespace Verif.ConformalGrid
open Real
open Complex (I)

/-! ### The series -/

def rser (l : List ℝ) (t : ℝ) : ℝ := l.foldr (fun a w => (w + a) * t) 0

theorem series_real (t : ℝ) : series (t : ℂ) = (rser coeffs t : ℂ) := by
  unfold series rser
  induction coeffs with
  | nil => simp
  | cons a l ih => rw [List.foldr_cons, List.foldr_cons, ih]; push_cast; ring

theorem rser_abs (t : ℝ) (ht : |t| ≤ 1) (l : List ℝ) : |rser l t| ≤ (l.map abs).sum * |t| := by
  induction l with
  | nil => simp [rser]
  | cons a l ih =>
    have e : rser (a :: l) t = (rser l t + a) * t := rfl
    rw [e, abs_mul, List.map_cons, List.sum_cons]
    have h0 : 0 ≤ (l.map abs).sum := List.sum_nonneg (by
      intro x hx
      obtain ⟨y, _, rfl⟩ := List.mem_map.1 hx
      exact abs_nonneg y)
    have h1 : |rser l t + a| ≤ |rser l t| + |a| := abs_add_le _ _
    have h2 : (l.map abs).sum * |t| ≤ (l.map abs).sum := by nlinarith [abs_nonneg t]
    have := abs_nonneg t
    nlinarith

theorem rser_nonpos (t : ℝ) (ht : 0 ≤ t) (l : List ℝ) (hl : ∀ a ∈ l, a ≤ 0) : rser l t ≤ 0 := by
  induction l with
  | nil => simp [rser]
  | cons a l ih =>
    have e : rser (a :: l) t = (rser l t + a) * t := rfl
    have h1 := ih (fun b hb => hl b (List.mem_cons_of_mem _ hb))
    have h2 := hl a List.mem_cons_self
    rw [e]
    nlinarith

theorem tail_sum : (coeffs.tail.map abs).sum ≤ 1 / 2 := by
  unfold coeffs
  simp only [List.tail_cons, List.map_cons, List.map_nil, List.sum_cons, List.sum_nil, abs_neg]
  norm_num [abs_of_pos]

theorem coeffs_split : coeffs = 1.47713057321600 :: coeffs.tail := rfl

/-- The sum has the sign of its argument. -/
theorem rser_sign' (t : ℝ) (ht : |t| ≤ 1) : ∃ c, 0 < c ∧ c < 2 ∧ rser coeffs t = c * t := by
  have h1 := rser_abs t ht coeffs.tail
  have h2 := tail_sum
  have h3 := neg_abs_le (rser coeffs.tail t)
  have h4 := le_abs_self (rser coeffs.tail t)
  have : (coeffs.tail.map abs).sum * |t| ≤ 1 / 2 := by
    have := abs_nonneg t
    nlinarith
  refine ⟨rser coeffs.tail t + 1.47713057321600, ?_, ?_, ?_⟩
  · norm_num at *
    linarith
  · norm_num at *
    linarith
  · conv_lhs => rw [coeffs_split]
    rfl

theorem rser_sign (t : ℝ) (ht : |t| ≤ 1) : ∃ c, 0 < c ∧ rser coeffs t = c * t := by
  obtain ⟨c, h, _, h'⟩ := rser_sign' t ht
  exact ⟨c, h, h'⟩

theorem rser_upper (t : ℝ) (h0 : 0 ≤ t) (h1 : t ≤ 1 / 16) : rser coeffs t < (√6 - 2) ^ 3 := by
  have e : rser coeffs t = ((((rser (coeffs.drop 4) t + -0.01895884801823) * t + -0.05573055466344) * t + -0.38183513110512) * t + 1.47713057321600) * t := rfl
  have hw : rser (coeffs.drop 4) t ≤ 0 := by
    apply rser_nonpos t h0
    unfold coeffs
    simp only [List.drop_succ_cons, List.drop_zero, List.mem_cons, List.not_mem_nil, or_false, forall_eq_or_imp, forall_eq]
    norm_num
  have h6 : (2.44948974 : ℝ) < √6 := by
    rw [Real.lt_sqrt (by norm_num)]
    norm_num
  have h66 : √6 ^ 2 = 6 := Real.sq_sqrt (by norm_num)
  have e3 : (√6 - 2) ^ 3 = 18 * √6 - 44 := by linear_combination (√6 - 6) * h66
  rw [e, e3]
  set w := rser (coeffs.drop 4) t
  have t2 : 0 ≤ t ^ 2 := by positivity
  have t4 : 0 ≤ t ^ 4 := by positivity
  have k1 : w * t ^ 4 ≤ 0 := mul_nonpos_of_nonpos_of_nonneg hw t4
  have key : (((-0.01895884801823 * t + -0.05573055466344) * t + -0.38183513110512) * t + 1.47713057321600) * t ≤
      (((-0.01895884801823 * (1 / 16) + -0.05573055466344) * (1 / 16) + -0.38183513110512) * (1 / 16) + 1.47713057321600) * (1 / 16 : ℝ) := by
    have s1 : t ^ 2 ≤ 1 / 256 := by nlinarith
    have s2 : t ^ 3 ≤ 1 / 4096 := by nlinarith
    have f : (((-0.01895884801823 * (1 / 16) + -0.05573055466344) * (1 / 16) + -0.38183513110512) * (1 / 16) + 1.47713057321600) * (1 / 16 : ℝ) -
        (((-0.01895884801823 * t + -0.05573055466344) * t + -0.38183513110512) * t + 1.47713057321600) * t =
        (1 / 16 - t) * (1.47713057321600 - 0.38183513110512 * (1 / 16 + t) - 0.05573055466344 * (1 / 256 + t / 16 + t ^ 2)
          - 0.01895884801823 * (1 / 4096 + t / 256 + t ^ 2 / 16 + t ^ 3)) := by ring
    have g : 0 ≤ (1.47713057321600 - 0.38183513110512 * (1 / 16 + t) - 0.05573055466344 * (1 / 256 + t / 16 + t ^ 2)
          - 0.01895884801823 * (1 / 4096 + t / 256 + t ^ 2 / 16 + t ^ 3)) := by
      norm_num
      linarith
    have := mul_nonneg (sub_nonneg.2 h1) g
    linarith
  norm_num at key h6 ⊢
  nlinarith

/-! ### The cube root -/

theorem root_pos (s : ℝ) (hs : 0 < s) : ∃ r : ℝ, 0 < r ∧ r ^ 3 = s ∧
    I ^ ((1 : ℂ) / 3) * ((s : ℂ) * I) ^ ((1 : ℂ) / 3) = (r / 2 : ℝ) + (√3 / 2 * r : ℝ) * I := by
  refine ⟨Real.exp (Real.log s / 3), Real.exp_pos _, ?_, ?_⟩
  · rw [← Real.exp_nat_mul]
    push_cast
    rw [show (3 : ℝ) * (Real.log s / 3) = Real.log s by ring, Real.exp_log hs]
  · have hs' : (s : ℂ) ≠ 0 := by exact_mod_cast hs.ne'
    rw [Complex.cpow_def_of_ne_zero Complex.I_ne_zero, Complex.cpow_def_of_ne_zero (mul_ne_zero hs' Complex.I_ne_zero), ← Complex.exp_add,
      Complex.log_ofReal_mul hs Complex.I_ne_zero, Complex.log_I]
    rw [show (π / 2 * I * (1 / 3) + ((Real.log s : ℂ) + π / 2 * I) * (1 / 3) : ℂ) = ((Real.log s / 3 : ℝ) : ℂ) + ((π / 3 : ℝ) : ℂ) * I by push_cast; ring]
    rw [Complex.exp_add, Complex.exp_mul_I, ← Complex.ofReal_exp, ← Complex.ofReal_cos, ← Complex.ofReal_sin, Real.cos_pi_div_three, Real.sin_pi_div_three]
    push_cast
    ring

theorem root_neg (s : ℝ) (hs : 0 < s) : ∃ r : ℝ, 0 < r ∧ r ^ 3 = s ∧
    I ^ ((1 : ℂ) / 3) * ((-s : ℂ) * I) ^ ((1 : ℂ) / 3) = (r : ℂ) := by
  refine ⟨Real.exp (Real.log s / 3), Real.exp_pos _, ?_, ?_⟩
  · rw [← Real.exp_nat_mul]
    push_cast
    rw [show (3 : ℝ) * (Real.log s / 3) = Real.log s by ring, Real.exp_log hs]
  · have hs' : (s : ℂ) ≠ 0 := by exact_mod_cast hs.ne'
    have hI : (-I : ℂ) ≠ 0 := neg_ne_zero.2 Complex.I_ne_zero
    rw [show (-s : ℂ) * I = (s : ℂ) * -I by ring]
    rw [Complex.cpow_def_of_ne_zero Complex.I_ne_zero, Complex.cpow_def_of_ne_zero (mul_ne_zero hs' hI), ← Complex.exp_add,
      Complex.log_ofReal_mul hs hI, Complex.log_neg_I, Complex.log_I]
    rw [show (π / 2 * I * (1 / 3) + ((Real.log s : ℂ) + -(π / 2) * I) * (1 / 3) : ℂ) = ((Real.log s / 3 : ℝ) : ℂ) by push_cast; ring]
    rw [← Complex.ofReal_exp]

/-! ### From the plane to the sphere -/

theorem sqrt3 : √3 ^ 2 = 3 := Real.sq_sqrt (by norm_num)

theorem RA_pos : 0 < RA := by
  unfold RA
  have : (1 : ℝ) < √3 := by rw [Real.lt_sqrt (by norm_num)]; norm_num
  linarith

/-- The quotient of two complex numbers on the sphere. -/
theorem toSphere_div (a b c d : ℝ) (h : 0 < c ^ 2 + d ^ 2) :
    toSphere (((a : ℂ) + b * I) / ((c : ℂ) + d * I)) =
      ⟨2 * (a * c + b * d) / (c ^ 2 + d ^ 2 + a ^ 2 + b ^ 2), 2 * (b * c - a * d) / (c ^ 2 + d ^ 2 + a ^ 2 + b ^ 2),
        (c ^ 2 + d ^ 2 - a ^ 2 - b ^ 2) / (c ^ 2 + d ^ 2 + a ^ 2 + b ^ 2)⟩ := by
  have hq : 0 < c ^ 2 + d ^ 2 + a ^ 2 + b ^ 2 := by positivity
  have n : Complex.normSq ((c : ℂ) + d * I) = c ^ 2 + d ^ 2 := by
    rw [Complex.normSq_apply]; simp; ring
  have re : (((a : ℂ) + b * I) / ((c : ℂ) + d * I)).re = (a * c + b * d) / (c ^ 2 + d ^ 2) := by
    rw [Complex.div_re, n]; simp; ring
  have im : (((a : ℂ) + b * I) / ((c : ℂ) + d * I)).im = (b * c - a * d) / (c ^ 2 + d ^ 2) := by
    rw [Complex.div_im, n]; simp; ring
  have hh : 2 / (1 + ((a * c + b * d) / (c ^ 2 + d ^ 2)) ^ 2 + ((b * c - a * d) / (c ^ 2 + d ^ 2)) ^ 2) = 2 * (c ^ 2 + d ^ 2) / (c ^ 2 + d ^ 2 + a ^ 2 + b ^ 2) := by
    have : 1 + ((a * c + b * d) / (c ^ 2 + d ^ 2)) ^ 2 + ((b * c - a * d) / (c ^ 2 + d ^ 2)) ^ 2 = (c ^ 2 + d ^ 2 + a ^ 2 + b ^ 2) / (c ^ 2 + d ^ 2) := by
      field_simp
      ring
    rw [this]
    field_simp
  unfold toSphere
  rw [re, im, hh, Point.mk.injEq]
  refine ⟨?_, ?_, ?_⟩
  · field_simp
  · field_simp
  · field_simp
    ring

/-- On the side of the face. -/
theorem side_plane (yc : ℝ) (h0 : 0 < yc) (h1 : yc ≤ 1) : ∃ y z, 0 < y ∧ 0 < z ∧ toSphere (toPlane 0 yc) = ⟨z, y, z⟩ := by
  have hz : (((0 : ℝ) : ℂ) + I * yc) / 2 = (yc / 2 : ℝ) * I := by push_cast; ring
  have hz4 : ((((0 : ℝ) : ℂ) + I * yc) / 2) ^ (4 : ℂ) = ((yc ^ 4 / 16 : ℝ) : ℂ) := by
    rw [hz, show (4 : ℂ) = ((4 : ℕ) : ℂ) by norm_num, Complex.cpow_natCast, mul_pow, Complex.I_pow_four]
    push_cast
    ring
  have t0 : 0 < yc ^ 4 / 16 := by positivity
  have t1 : yc ^ 4 / 16 ≤ 1 / 16 := by
    have : yc ^ 4 ≤ 1 := pow_le_one₀ h0.le h1
    linarith
  obtain ⟨c, hc, hs⟩ := rser_sign (yc ^ 4 / 16) (by rw [abs_of_pos t0]; linarith)
  have hp : 0 < rser coeffs (yc ^ 4 / 16) := by rw [hs]; positivity
  have hu := rser_upper _ t0.le t1
  obtain ⟨r, r0, r3, hr⟩ := root_pos _ hp
  have r1 : r < √6 - 2 := by
    rw [← r3] at hu
    have h6 : (2 : ℝ) < √6 := by rw [Real.lt_sqrt (by norm_num)]; norm_num
    exact lt_of_pow_lt_pow_left₀ 3 (by linarith) hu
  have hq : r ^ 2 + 4 * r - 2 < 0 := by
    have h66 : √6 ^ 2 = 6 := Real.sq_sqrt (by norm_num)
    nlinarith [Real.sqrt_nonneg 6]
  have e : toPlane 0 yc = (((r / 2 - RA : ℝ) : ℂ) + ((√3 / 2 * r : ℝ) : ℂ) * I) /
      (((-1 - RA * r / 4 - RA * √3 * r / 4 : ℝ) : ℂ) + ((1 + RA * r / 4 - RA * √3 * r / 4 : ℝ) : ℂ) * I) := by
    unfold toPlane
    simp only
    rw [hz4, series_real, if_pos (by exact_mod_cast hp.ne'), hr]
    unfold CC CB
    congr 1
    · push_cast; ring
    · push_cast
      linear_combination (RA * (√3 * r) / 4 : ℂ) * Complex.I_sq
  have s3 := sqrt3
  have s3p : (1.7 : ℝ) < √3 := by rw [Real.lt_sqrt (by norm_num)]; norm_num
  have rp := RA_pos
  have ra : RA = √3 - 1 := rfl
  have hD : 0 < (-1 - RA * r / 4 - RA * √3 * r / 4) ^ 2 + (1 + RA * r / 4 - RA * √3 * r / 4) ^ 2 := by
    have : 0 < (1 + RA * r / 4 + RA * √3 * r / 4) := by positivity
    have h2 : 0 < (1 + RA * r / 4 + RA * √3 * r / 4) ^ 2 := by positivity
    nlinarith [sq_nonneg (1 + RA * r / 4 - RA * √3 * r / 4)]
  rw [e, toSphere_div _ _ _ _ hD]
  set Q := (-1 - RA * r / 4 - RA * √3 * r / 4) ^ 2 + (1 + RA * r / 4 - RA * √3 * r / 4) ^ 2 + (r / 2 - RA) ^ 2 + (√3 / 2 * r) ^ 2 with hQ
  have hQp : 0 < Q := by rw [hQ]; positivity
  refine ⟨RA * (2 - 4 * r - r ^ 2) / Q, RA * (2 + 2 * r - r ^ 2) / Q, ?_, ?_, ?_⟩
  · exact div_pos (mul_pos rp (by linarith)) hQp
  · exact div_pos (mul_pos rp (by nlinarith)) hQp
  · congr 1
    · congr 1
      rw [ra]
      linear_combination (r * (√3 - 1) / 2 + r + (-r + r ^ 2 / 4 - r ^ 2 * √3 / 4)) * s3
    · congr 1
      rw [ra]
      linear_combination (r * (√3 - 1) / 2 + r + (-√3 * r - √3 * r ^ 2 / 4 + r + r ^ 2 / 4)) * s3
    · congr 1
      rw [ra]
      linear_combination (-1 + r ^ 2 * (-√3 / 4 + (√3 ^ 2 + 3) / 8)) * s3

/-- On the diagonal of the face. -/
theorem diag_plane' (c : ℝ) (h0 : 0 ≤ c) (h1 : c ≤ 1) : (toSphere (toPlane c c)).x = (toSphere (toPlane c c)).y ∧ 0 < (toSphere (toPlane c c)).z := by
  have hz4 : (((c : ℂ) + I * c) / 2) ^ (4 : ℂ) = ((-(c ^ 4 / 4) : ℝ) : ℂ) := by
    rw [show (4 : ℂ) = ((4 : ℕ) : ℂ) by norm_num, Complex.cpow_natCast]
    have h2 : (((c : ℂ) + I * c) / 2) ^ 2 = ((c ^ 2 / 2 : ℝ) : ℂ) * I := by
      push_cast
      linear_combination ((c : ℂ) ^ 2 / 4) * Complex.I_sq
    rw [show (((c : ℂ) + I * c) / 2) ^ 4 = ((((c : ℂ) + I * c) / 2) ^ 2) ^ 2 by ring, h2, mul_pow, Complex.I_sq]
    push_cast
    ring
  have main : ∃ v : ℝ, 0 ≤ v ∧ v < 1 ∧ toPlane c c = (((v - RA : ℝ) : ℂ) + ((0 : ℝ) : ℂ) * I) / (((-(1 + RA * v / 2) : ℝ) : ℂ) + ((1 + RA * v / 2 : ℝ) : ℂ) * I) := by
    rcases h0.eq_or_lt with rfl | hc
    · refine ⟨0, le_refl _, one_pos, ?_⟩
      unfold toPlane
      simp only
      rw [hz4, series_real]
      have : rser coeffs (-(0 ^ 4 / 4)) = 0 := by
        obtain ⟨k, _, hk⟩ := rser_sign (-(0 ^ 4 / 4)) (by norm_num)
        rw [hk]; norm_num
      rw [this]
      unfold CB
      simp
    · have t0 : 0 < c ^ 4 / 4 := by positivity
      have t1 : c ^ 4 ≤ 1 := pow_le_one₀ hc.le h1
      obtain ⟨k, hk, hk2, hs⟩ := rser_sign' (-(c ^ 4 / 4)) (by rw [abs_neg, abs_of_pos t0]; linarith)
      have hp : 0 < k * (c ^ 4 / 4) := by positivity
      obtain ⟨r, r0, r3, hr⟩ := root_neg _ hp
      refine ⟨r, r0.le, ?_, ?_⟩
      · by_contra h
        have : (1 : ℝ) ≤ r ^ 3 := one_le_pow₀ (not_lt.1 h)
        rw [r3] at this
        nlinarith
      unfold toPlane
      simp only
      rw [hz4, series_real, hs, if_pos (by
        have : k * -(c ^ 4 / 4) ≠ 0 := by nlinarith
        exact_mod_cast this)]
      rw [show ((k * -(c ^ 4 / 4) : ℝ) : ℂ) = -((k * (c ^ 4 / 4) : ℝ) : ℂ) by push_cast; ring, hr]
      unfold CC CB
      congr 1
      · push_cast; ring
      · push_cast; ring
  obtain ⟨v, hv, hv1, e⟩ := main
  have rp := RA_pos
  have hd : 0 < 1 + RA * v / 2 := by positivity
  rw [e, toSphere_div _ _ _ _ (by positivity)]
  simp only
  have r1 : RA < 1 := by
    have : √3 < 2 := by rw [Real.sqrt_lt' (by norm_num)]; norm_num
    unfold RA; linarith
  constructor
  · congr 1
    ring
  · apply div_pos
    · have : (v - RA) ^ 2 < 1 := by nlinarith
      have : 1 ≤ (1 + RA * v / 2) ^ 2 := one_le_pow₀ (by nlinarith [mul_nonneg rp.le hv])
      nlinarith
    · positivity

theorem diag_plane (c : ℝ) (h0 : 0 ≤ c) (h1 : c ≤ 1) : (toSphere (toPlane c c)).x = (toSphere (toPlane c c)).y := (diag_plane' c h0 h1).1

/-- The corner of the face. -/
theorem corner_plane : toSphere (toPlane 0 0) = ⟨1 / √3, 1 / √3, 1 / √3⟩ := by
  have e : toPlane 0 0 = (((-RA : ℝ) : ℂ) + ((0 : ℝ) : ℂ) * I) / (((-1 : ℝ) : ℂ) + ((1 : ℝ) : ℂ) * I) := by
    have hz4 : ((((0 : ℝ) : ℂ) + I * ((0 : ℝ) : ℂ)) / 2) ^ (4 : ℂ) = ((0 : ℝ) : ℂ) := by
      rw [show (4 : ℂ) = ((4 : ℕ) : ℂ) by norm_num, Complex.cpow_natCast]
      simp
    have : rser coeffs 0 = 0 := by
      obtain ⟨k, _, hk⟩ := rser_sign 0 (by norm_num)
      rw [hk]; norm_num
    unfold toPlane
    simp only
    rw [hz4, series_real, this]
    unfold CB
    simp
  have s3 := sqrt3
  have s0 : 0 < √3 := by positivity
  have rp := RA_pos
  have ra : RA = √3 - 1 := rfl
  have hq : (-1 : ℝ) ^ 2 + 1 ^ 2 + (-RA) ^ 2 + 0 ^ 2 = 2 * √3 * RA := by rw [ra]; linear_combination (-1) * s3
  rw [e, toSphere_div _ _ _ _ (by norm_num), hq, Point.mk.injEq]
  refine ⟨?_, ?_, ?_⟩
  · field_simp
    ring
  · field_simp
    ring
  · have : (-1 : ℝ) ^ 2 + 1 ^ 2 - (-RA) ^ 2 - 0 ^ 2 = 2 * RA := by rw [ra]; linear_combination (-1) * s3
    rw [this]
    field_simp

/-! ### The whole face -/

/-- Exchange of the coordinates. -/
theorem map_swap (lx ly : ℝ) (h1 : |lx| ≤ 1) : mapXyz ly lx = ⟨(mapXyz lx ly).y, (mapXyz lx ly).x, (mapXyz lx ly).z⟩ := by
  rcases lt_trichotomy |lx| |ly| with h | h | h
  · unfold mapXyz fold unfold
    simp only [if_pos h, if_neg (not_lt.2 h.le)]
  · have d := diag_plane (1 - |lx|) (by linarith) (by linarith [abs_nonneg lx])
    unfold mapXyz fold unfold
    simp only [h, lt_irrefl, if_false]
    rw [← h, d]
  · unfold mapXyz fold unfold
    simp only [if_pos h, if_neg (not_lt.2 h.le)]

/-- Change of sign. -/
theorem map_neg_x (lx ly : ℝ) : mapXyz (-lx) ly = ⟨-(mapXyz lx ly).x, (mapXyz lx ly).y, (mapXyz lx ly).z⟩ := by
  unfold mapXyz fold unfold
  simp only [abs_neg]
  rcases lt_trichotomy lx 0 with h | h | h
  · simp only [h, h.ne, neg_lt_zero, neg_eq_zero, not_lt.2 h.le, if_true, if_false, neg_neg]
  · subst h
    simp
  · simp only [h, h.ne', neg_lt_zero, neg_eq_zero, not_lt.2 h.le, if_true, if_false]

theorem map_neg_y (lx ly : ℝ) : mapXyz lx (-ly) = ⟨(mapXyz lx ly).x, -(mapXyz lx ly).y, (mapXyz lx ly).z⟩ := by
  unfold mapXyz fold unfold
  simp only [abs_neg]
  rcases lt_trichotomy ly 0 with h | h | h
  · simp only [h, h.ne, neg_lt_zero, neg_eq_zero, not_lt.2 h.le, if_true, if_false, neg_neg]
  · subst h
    simp
  · simp only [h, h.ne', neg_lt_zero, neg_eq_zero, not_lt.2 h.le, if_true, if_false]

/-- The southern and the western side of the face. -/
theorem map_side (l : ℝ) (h0 : -1 < l) (h1 : l ≤ 0) : ∃ x z, 0 < z ∧ (l < 0 ∧ x < 0 ∨ l = 0 ∧ x = 0) ∧ mapXyz l (-1) = ⟨x, -z, z⟩ ∧ mapXyz (-1) l = ⟨-z, x, z⟩ := by
  have ha : |l| < |(-1 : ℝ)| := by rw [abs_neg, abs_one, abs_of_nonpos h1]; linarith
  obtain ⟨y, z, hy, hz, e⟩ := side_plane (1 - |l|) (by rw [abs_neg, abs_one] at ha; linarith) (by linarith [abs_nonneg l])
  have e' : toSphere (toPlane (1 - |(-1 : ℝ)|) (1 - |l|)) = ⟨z, y, z⟩ := by
    rw [abs_neg, abs_one, sub_self]; exact e
  have key : mapXyz l (-1) = ⟨if l = 0 then 0 else -y, -z, z⟩ := by
    unfold mapXyz fold unfold
    simp only [if_pos ha, e']
    rcases h1.eq_or_lt with rfl | hl
    · norm_num
    · simp only [if_pos hl, if_neg hl.ne]
      norm_num
  have h1' : |(-1 : ℝ)| ≤ 1 := by norm_num
  refine ⟨if l = 0 then 0 else -y, z, hz, ?_, key, ?_⟩
  · rcases h1.eq_or_lt with rfl | hl
    · right; simp
    · left; rw [if_neg hl.ne]; exact ⟨hl, by linarith⟩
  · rw [map_swap l (-1) (by rw [abs_neg, abs_one] at ha; linarith), key]

theorem map_corner : mapXyz (-1) (-1) = ⟨-(1 / √3), -(1 / √3), 1 / √3⟩ := by
  have e : toSphere (toPlane (1 - |(-1 : ℝ)|) (1 - |(-1 : ℝ)|)) = ⟨1 / √3, 1 / √3, 1 / √3⟩ := by
    rw [abs_neg, abs_one, sub_self]; exact corner_plane
  unfold mapXyz fold unfold
  simp only [lt_irrefl, if_false, e]
  norm_num

/-- The centre of the face. -/
theorem map_center : ∃ z, 0 < z ∧ mapXyz 0 0 = ⟨0, 0, z⟩ := by
  refine ⟨_, (diag_plane' 1 zero_le_one le_rfl).2, ?_⟩
  unfold mapXyz fold unfold
  simp

/-! ### Loops -/

theorem forPure_congr {σ : Type} {f g : Nat → σ → σ} (h : ∀ k s, f k s = g k s) : ∀ n s0 st, forPure f s0 n st = forPure g s0 n st := by
  have : f = g := by funext k s; exact h k s
  intro n s0 st
  rw [this]

/-- What the loops which make the latitudes symmetric do. -/
theorem symLoop_eq (h : Nat) (s : Arr × Arr) (j i : Nat) (hj : j < h) (hi : i < h) :
    (symLoop h s).1 j i = s.1 (max j i) (min j i) ∧ (symLoop h s).2 j i = if π ≤ s.2 j i then s.2 j i - 2 * π else s.2 j i := by
  let Inv (J K : Nat) (st : Arr × Arr) : Prop := ∀ j i, j < h → i < h →
    (st.1 j i = if j < J ∨ (j = J ∧ i < K) then s.1 (max j i) (min j i) else s.1 j i) ∧
    (st.2 j i = if j < J ∨ (j = J ∧ i < K) then (if π ≤ s.2 j i then s.2 j i - 2 * π else s.2 j i) else s.2 j i)
  have inner : ∀ J st, J < h → Inv J 0 st → Inv J (0 + h) (forPure (fun i s => symBody J i s) 0 h st) := by
    intro J st hJ h0
    apply forPure_inv (fun K st => Inv J K st) h 0 st h0
    intro K st _ hK hI j i hj hi
    have hK' : K < h := by omega
    obtain ⟨a1, a2⟩ := hI j i hj hi
    obtain ⟨b1, b2⟩ := hI J K hJ hK'
    obtain ⟨c1, _⟩ := hI K J hK' hJ
    rw [if_neg (by omega)] at b1 b2
    unfold symBody set
    simp only
    by_cases e : j = J ∧ i = K
    · obtain ⟨rfl, rfl⟩ := e
      have hd : j < j ∨ (j = j ∧ i < i + 1) := by omega
      have hh : j = j ∧ i = i := ⟨rfl, rfl⟩
      constructor
      · rw [if_pos hh, if_pos hd]
        by_cases hij : i < j
        · rw [if_pos hij, b1, c1, if_pos (Or.inl hij)]
          rw [show max j i = j by omega, show min j i = i by omega, show max i j = j by omega, show min i j = i by omega]
          ring
        · rw [if_neg hij, c1, if_neg (show ¬(i < j ∨ (i = j ∧ j < i)) by omega), show max j i = i by omega, show min j i = j by omega]
      · rw [if_pos hd, b2]
        by_cases hp : π ≤ s.2 j i
        · rw [if_pos hp, if_pos hp, if_pos hh]
        · rw [if_neg hp, if_neg hp]
          exact b2
    · constructor
      · rw [if_neg e, a1]
        by_cases hd : j < J ∨ (j = J ∧ i < K)
        · rw [if_pos hd, if_pos (by omega)]
        · rw [if_neg hd, if_neg (by omega)]
      · have : (if π ≤ st.2 J K then (fun j' i' => if j' = J ∧ i' = K then st.2 J K - 2 * π else st.2 j' i') else st.2) j i = st.2 j i := by
          by_cases hp : π ≤ st.2 J K
          · rw [if_pos hp]; simp only [if_neg e]
          · rw [if_neg hp]
        rw [this, a2]
        by_cases hd : j < J ∨ (j = J ∧ i < K)
        · rw [if_pos hd, if_pos (show j < J ∨ (j = J ∧ i < K + 1) by omega)]
        · rw [if_neg hd, if_neg (show ¬(j < J ∨ (j = J ∧ i < K + 1)) by omega)]
  have outer : Inv (0 + h) 0 (symLoop h s) := by
    unfold symLoop
    apply forPure_inv (fun J st => Inv J 0 st) h 0 s
    · intro j i _ _
      rw [if_neg (by omega), if_neg (by omega)]
      exact ⟨rfl, rfl⟩
    · intro J st _ hJ hI j i hj hi
      obtain ⟨a1, a2⟩ := inner J st (by omega) hI j i hj hi
      rw [a1, a2]
      by_cases hd : j < J + 1 ∨ (j = J + 1 ∧ i < 0)
      · rw [if_pos hd, if_pos hd, if_pos (by omega), if_pos (by omega)]
        exact ⟨rfl, rfl⟩
      · rw [if_neg hd, if_neg hd, if_neg (by omega), if_neg (by omega)]
        exact ⟨rfl, rfl⟩
  obtain ⟨a1, a2⟩ := outer j i hj hi
  rw [if_pos (by omega)] at a1 a2
  exact ⟨a1, a2⟩

/-! ### Values of the arrays -/

theorem half_eq {n k : Nat} (hnk : k = n / 2) : half n = k + 1 := by unfold half; omega

theorem coord_zero (n : Nat) : coord n 0 = -1 := by simp [coord]

theorem coord_half (n i : Nat) (h0 : 0 < i) (hi : 2 * i = n) : coord n i = 0 := by
  subst hi
  unfold coord
  have : (i : ℝ) ≠ 0 := by exact_mod_cast h0.ne'
  push_cast
  field_simp
  norm_num

theorem coord_neg (n i : Nat) (hi : 2 * i < n) : coord n i < 0 := by
  unfold coord
  have h1 : 2 * (i : ℝ) < n := by exact_mod_cast hi
  have h0 : (0 : ℝ) < n := by
    have : (0 : ℝ) ≤ i := Nat.cast_nonneg i
    linarith
  have : 2 * (i : ℝ) / n < 1 := by rw [div_lt_one h0]; exact h1
  linarith

theorem coord_gt (n i : Nat) (hn : 0 < n) (hi : 0 < i) : -1 < coord n i := by
  unfold coord
  have h1 : (0 : ℝ) < i := by exact_mod_cast hi
  have h0 : (0 : ℝ) < n := by exact_mod_cast hn
  have : 0 < 2 * (i : ℝ) / n := by positivity
  linarith

theorem rotate_quarter (p : Point) : rotateX (π / 2) p = ⟨p.x, -p.z, p.y⟩ := by
  unfold rotateX
  simp

/-- Longitude of the points of the southern side, as a point of the polar face, of the western side, and as a point of the equatorial face. -/
theorem side_lon (n i : Nat) (h0 : 0 < i) (hi : 2 * i ≤ n) : ∃ l : ℝ, (2 * i = n → l = -π / 2) ∧ lonOf (pts n 0 i) = l ∧ lonOf (turned n 0 i) = l ∧
    (if π ≤ lonOf (pts n i 0) then lonOf (pts n i 0) - 2 * π else lonOf (pts n i 0)) = -(3 / 2) * π - l ∧ -π < l ∧ l ≤ -π / 2 := by
  have pp := Real.pi_pos
  have hle : coord n i ≤ 0 := by
    rcases hi.eq_or_lt with h | h
    · rw [coord_half _ i h0 h]
    · exact (coord_neg _ i h).le
  obtain ⟨x, z, hz, hx, e1, e2⟩ := map_side (coord n i) (coord_gt _ _ (by omega) h0) hle
  unfold turned
  have p1 : pts n 0 i = ⟨x, -z, z⟩ := by unfold pts; rw [coord_zero, e1]
  have p2 : pts n i 0 = ⟨-z, x, z⟩ := by unfold pts; rw [coord_zero, e2]
  rw [p1, p2, rotate_quarter]
  simp only
  rcases hx with ⟨hl, hx⟩ | ⟨hl, hx⟩
  · refine ⟨arctan (-z / x) - π, ?_, ?_, ?_, ?_, ?_, ?_⟩
    · intro h; rw [coord_half _ i h0 h] at hl; exact absurd hl (lt_irrefl _)
    · unfold lonOf
      simp only [hx, hx.ne, hx.le, not_le.2 (neg_neg_of_pos hz), neg_lt_zero.2 hz, and_true, if_true, if_false, and_false]
    · unfold lonOf
      simp only [hx, hx.ne, hx.le, not_le.2 (neg_neg_of_pos hz), neg_lt_zero.2 hz, and_true, if_true, if_false, and_false]
    · have e : lonOf ⟨-z, x, z⟩ = arctan (x / -z) - π := by
        unfold lonOf
        simp only [hx, hx.ne, not_le.2 hx, neg_lt_zero.2 hz, (neg_lt_zero.2 hz).ne, (neg_lt_zero.2 hz).le, and_true, and_false, if_true, if_false]
      have hpos : 0 < -z / x := div_pos_of_neg_of_neg (neg_lt_zero.2 hz) hx
      have hi : arctan (x / -z) = π / 2 - arctan (-z / x) := by
        rw [← Real.arctan_inv_of_pos hpos, inv_div]
      have h2 := Real.arctan_lt_pi_div_two (x / -z)
      rw [e, if_neg (by linarith), hi]
      ring
    · have hpos : 0 < -z / x := div_pos_of_neg_of_neg (neg_lt_zero.2 hz) hx
      have := Real.arctan_pos.2 hpos
      linarith
    · have := Real.arctan_lt_pi_div_two (-z / x)
      linarith
  · subst hx
    refine ⟨-π / 2, fun _ => rfl, ?_, ?_, ?_, ?_, ?_⟩
    · unfold lonOf
      simp only [not_le.2 (neg_neg_of_pos hz), neg_lt_zero.2 hz, and_true, le_refl, if_true, if_false, and_false]
      ring
    · unfold lonOf
      simp only [not_le.2 (neg_neg_of_pos hz), neg_lt_zero.2 hz, and_true, le_refl, if_true, if_false, and_false]
      ring
    · have e : lonOf ⟨-z, 0, z⟩ = π := by
        unfold lonOf
        simp [hz, hz.ne']
      rw [e, if_pos (le_refl _)]
      ring
    · linarith
    · linarith

theorem rows_low {n h : Nat} {f : ℝ → ℝ} {a : Arr} {j i : Nat} (hj : j < h) : mirrorRows n h f a j i = a j i := by
  unfold mirrorRows; rw [if_neg (by omega)]

theorem rows_high {n h : Nat} {f : ℝ → ℝ} {a : Arr} {j i : Nat} (hj : h ≤ j) : mirrorRows n h f a j i = f (a (n - j) i) := by
  unfold mirrorRows; rw [if_pos hj]

theorem cols_low {n h : Nat} {f : ℝ → ℝ} {a : Arr} {j i : Nat} (hi : i < h) : mirrorCols n h f a j i = a j i := by
  unfold mirrorCols; rw [if_neg (by omega)]

theorem cols_high {n h : Nat} {f : ℝ → ℝ} {a : Arr} {j i : Nat} (hj : j < h) (hi : h ≤ i) : mirrorCols n h f a j i = f (a j (n - i)) := by
  unfold mirrorCols; rw [if_pos ⟨hj, hi⟩]

theorem fill_in {h : Nat} {q u : Arr} {j i : Nat} (hj : j < h) (hi : i < h) : fill h q u j i = q j i := by
  unfold fill; rw [if_pos ⟨hj, hi⟩]

/-- A mirrored array. -/
theorem rows_mirror {n k : Nat} (hnk : k = n / 2) {f : ℝ → ℝ} {a : Arr} {j i : Nat} (hj : 2 * j < n) : mirrorRows n (k + 1) f a (n - j) i = f (mirrorRows n (k + 1) f a j i) := by
  rw [rows_high (by omega), rows_low (by omega), show n - (n - j) = j by omega]

theorem cols_mirror {n k : Nat} (hnk : k = n / 2) {f : ℝ → ℝ} {a : Arr} {j i : Nat} (hj : j ≤ k) (hi : 2 * i < n) :
    mirrorCols n (k + 1) f a j (n - i) = f (mirrorCols n (k + 1) f a j i) := by
  rw [cols_high (by omega) (by omega), cols_low (by omega), show n - (n - i) = i by omega]

section
variable (n k : Nat) (hnk : k = n / 2) (u : Arr)
include hnk

theorem latP_quadrant (j i : Nat) (hj : j ≤ k) (hi : i ≤ k) : latP n u j i = latOf (pts n (max j i) (min j i)) := by
  unfold latP polarQuadrant
  rw [half_eq hnk, rows_low (by omega), cols_low (by omega), (symLoop_eq (k + 1) _ j i (by omega) (by omega)).1]
  simp only
  rw [fill_in (show max j i < k + 1 by omega) (show min j i < k + 1 by omega)]

theorem latP_col (j i : Nat) (hj : j ≤ k) (hi : i ≤ n) : latP n u j (n - i) = latP n u j i := by
  have c : ∀ i, 2 * i < n → latP n u j (n - i) = latP n u j i := by
    intro i hi
    unfold latP
    rw [half_eq hnk, rows_low (by omega), rows_low (by omega), cols_mirror hnk hj hi, id]
  rcases lt_trichotomy (2 * i) n with h | h | h
  · exact c i h
  · rw [show n - i = i by omega]
  · have := c (n - i) (by omega)
    rw [show n - (n - i) = i by omega] at this
    exact this.symm

theorem latP_row (j i : Nat) (hj : j ≤ n) : latP n u (n - j) i = latP n u j i := by
  have c : ∀ j, 2 * j < n → latP n u (n - j) i = latP n u j i := by
    intro j hj
    unfold latP
    rw [half_eq hnk, rows_mirror hnk hj, id]
  rcases lt_trichotomy (2 * j) n with h | h | h
  · exact c j h
  · rw [show n - j = j by omega]
  · have := c (n - j) (by omega)
    rw [show n - (n - j) = j by omega] at this
    exact this.symm

theorem latP_sym (j i : Nat) (hj : j ≤ n) (hi : i ≤ n) : latP n u j i = latP n u i j := by
  have q : ∀ j i, j ≤ k → i ≤ k → latP n u j i = latP n u i j := by
    intro j i hj hi
    rw [latP_quadrant n k hnk u j i hj hi, latP_quadrant n k hnk u i j hi hj, max_comm, min_comm]
  have c : ∀ j i, j ≤ k → i ≤ n → latP n u j i = latP n u i j := by
    intro j i hj hi
    by_cases h : i ≤ k
    · exact q j i hj h
    · rw [← latP_col n k hnk u j i hj hi, ← latP_row n k hnk u i j hi]
      exact q j _ hj (by omega)
  by_cases h : j ≤ k
  · exact c j i h hi
  · by_cases h2 : i ≤ k
    · exact (c i j h2 hj).symm
    · rw [← latP_row n k hnk u j i hj, ← latP_row n k hnk u i j hi, c _ i (by omega) hi, c _ j (by omega) hj, ← latP_row n k hnk u i _ hi, ← latP_row n k hnk u j _ hj]
      exact q _ _ (by omega) (by omega)

theorem latP_col' (j i : Nat) (hj : j ≤ n) (hi : i ≤ n) : latP n u j (n - i) = latP n u j i := by
  rw [latP_sym n k hnk u j _ hj (by omega), latP_row n k hnk u i j hi, latP_sym n k hnk u i j hi hj]

theorem lonP_quadrant (j i : Nat) (hj : j ≤ k) (hi : i ≤ k) : lonP n u j i =
    if i = j then -3 / 4 * π else ((polarQuadrant n u).2 j i - 3 / 2 * π - (polarQuadrant n u).2 i j) * 0.5 := by
  unfold lonP
  rw [half_eq hnk, rows_low (by omega), cols_low (by omega)]
  unfold lonStep
  rw [if_pos (by omega)]

theorem lonP_sym (j i : Nat) (hj : j ≤ k) (hi : i ≤ k) : lonP n u j i = -(3 / 2) * π - lonP n u i j := by
  rw [lonP_quadrant n k hnk u j i hj hi, lonP_quadrant n k hnk u i j hi hj]
  by_cases h : i = j
  · rw [if_pos h, if_pos h.symm]; ring
  · rw [if_neg h, if_neg (Ne.symm h)]; ring

theorem lonP_col (j i : Nat) (hj : j ≤ k) (hi : 2 * i < n) : lonP n u j (n - i) = -π - lonP n u j i := by
  unfold lonP
  rw [half_eq hnk, rows_low (by omega), rows_low (by omega), cols_mirror hnk hj hi]

theorem lonP_row (j i : Nat) (hj : 2 * j < n) : lonP n u (n - j) i = -lonP n u j i := by
  unfold lonP
  rw [half_eq hnk, rows_mirror hnk hj]

theorem lonE_west (j : Nat) (hj : j ≤ n) : lonE n u j 0 = -3 / 4 * π := by
  unfold lonE
  rw [half_eq hnk]
  by_cases h : k + 1 ≤ j
  · rw [rows_high h, cols_low (by omega), if_pos (by omega), id]
  · rw [rows_low (by omega), cols_low (by omega), if_pos (by omega)]

theorem lonE_col (j i : Nat) (hj : j ≤ n) (hi : 2 * i < n) : lonE n u j (n - i) = -π - lonE n u j i := by
  unfold lonE
  rw [half_eq hnk]
  by_cases h : k + 1 ≤ j
  · rw [rows_high h, rows_high h, cols_mirror hnk (by omega) hi]
    rfl
  · rw [rows_low (by omega), rows_low (by omega), cols_mirror hnk (by omega) hi]

theorem lonE_row (j i : Nat) (hj : j ≤ n) : lonE n u (n - j) i = lonE n u j i := by
  have c : ∀ j, 2 * j < n → lonE n u (n - j) i = lonE n u j i := by
    intro j hj
    unfold lonE
    rw [half_eq hnk]
    rw [rows_mirror hnk hj, id]
  rcases lt_trichotomy (2 * j) n with h | h | h
  · exact c j h
  · rw [show n - j = j by omega]
  · have := c (n - j) (by omega)
    rw [show n - (n - j) = j by omega] at this
    exact this.symm

/-- The two faces have the same longitudes on their common side. -/
theorem lon_side (hk : 0 < n) (i : Nat) (hi : i ≤ k) : lonE n u 0 i = lonP n u 0 i ∧ (2 * i = n → lonP n u 0 i = -π / 2) ∧
    -π < lonP n u 0 i ∧ lonP n u 0 i ≤ -π / 2 := by
  have pp := Real.pi_pos
  rcases Nat.eq_zero_or_pos i with rfl | h0
  · rw [lonE_west n k hnk u 0 (by omega), lonP_quadrant n k hnk u 0 0 (by omega) (by omega), if_pos rfl]
    exact ⟨rfl, fun h => by omega, by linarith, by linarith⟩
  · obtain ⟨l, hl, e1, e2, e3, l1, l2⟩ := side_lon n i h0 (by omega)
    have eP : lonP n u 0 i = l := by
      have q := fun j i (hj : j < k + 1) (hi : i < k + 1) => (symLoop_eq (k + 1) (fill (k + 1) (fun j i => latOf (pts n j i)) u, fill (k + 1) (fun j i => lonOf (pts n j i)) u) j i hj hi).2
      rw [lonP_quadrant n k hnk u 0 i (by omega) hi, if_neg (by omega)]
      unfold polarQuadrant
      rw [half_eq hnk, q 0 i (by omega) (by omega), q i 0 (by omega) (by omega)]
      simp only
      rw [fill_in (show 0 < k + 1 by omega) (show i < k + 1 by omega), fill_in (show i < k + 1 by omega) (show 0 < k + 1 by omega), e3, e1, if_neg (by linarith)]
      ring
    refine ⟨?_, fun h => ?_, ?_, ?_⟩
    · rw [eP, ← e2]
      unfold lonE
      rw [half_eq hnk]
      rw [rows_low (by omega), cols_low (by omega), if_neg (by omega), fill_in (by omega) (by omega)]
    · rw [eP]; exact hl h
    · rw [eP]; exact l1
    · rw [eP]; exact l2

theorem lonP_side_col (hk : 0 < n) (i : Nat) (hi : i ≤ n) : lonP n u 0 (n - i) = -π - lonP n u 0 i := by
  rcases lt_trichotomy (2 * i) n with h | h | h
  · exact lonP_col n k hnk u 0 i (by omega) h
  · rw [show n - i = i by omega, (lon_side n k hnk u hk i (by omega)).2.1 h]; ring
  · have := lonP_col n k hnk u 0 (n - i) (by omega) (by omega)
    rw [show n - (n - i) = i by omega] at this
    rw [this]; ring

/-- All points of the southern side. -/
theorem lon_south (hk : 0 < n) (i : Nat) (hi : i ≤ n) : lonE n u 0 i = lonP n u 0 i := by
  by_cases h : i ≤ k
  · exact (lon_side n k hnk u hk i h).1
  · have e1 := lonE_col n k hnk u 0 (n - i) (by omega) (by omega)
    have e2 := lonP_col n k hnk u 0 (n - i) (by omega) (by omega)
    rw [show n - (n - i) = i by omega] at e1 e2
    rw [e1, e2, (lon_side n k hnk u hk (n - i) (by omega)).1]

/-- Columns of the polar face on its western side. -/
theorem lonP_west (hk : 0 < n) (j : Nat) (hj : j ≤ n) : lonP n u j 0 = -(3 / 2) * π - lonP n u 0 j ∨
    lonP n u j 0 = π / 2 - lonP n u 0 j := by
  by_cases h : j ≤ k
  · left; exact lonP_sym n k hnk u j 0 h (by omega)
  · right
    have e := lonP_row n k hnk u (n - j) 0 (by omega)
    rw [show n - (n - j) = j by omega] at e
    rw [e, lonP_sym n k hnk u _ 0 (by omega) (by omega), lonP_side_col n k hnk u hk j hj]
    ring

theorem lonP_east (hk : 0 < n) (j : Nat) (hj : j ≤ n) : lonP n u j n = π / 2 + lonP n u 0 j := by
  have c : ∀ j, j ≤ k → lonP n u j n = π / 2 + lonP n u 0 j := by
    intro j hj
    have e := lonP_col n k hnk u j 0 hj hk
    rw [Nat.sub_zero] at e
    rw [e, lonP_sym n k hnk u j 0 hj (by omega)]
    ring
  by_cases h : j ≤ k
  · exact c j h
  · have e := lonP_row n k hnk u (n - j) n (by omega)
    rw [show n - (n - j) = j by omega] at e
    rw [e, c _ (by omega), lonP_side_col n k hnk u hk j hj]
    ring

theorem lonP_north (hk : 0 < n) (i : Nat) : lonP n u n i = -lonP n u 0 i := by
  have := lonP_row n k hnk u 0 i hk
  rwa [Nat.sub_zero] at this

theorem latE_south (i : Nat) (hi : i ≤ n) : latE n u 0 i = -latP n u 0 i := by
  have q : ∀ i, i ≤ k → latE n u 0 i = -latP n u 0 i := by
    intro i hi
    unfold latE
    rw [half_eq hnk]
    rw [rows_low (by omega), cols_low (by omega), if_pos (by omega), if_pos rfl]
  by_cases h : i ≤ k
  · exact q i h
  · have e : latE n u 0 i = latE n u 0 (n - i) := by
      unfold latE
      rw [half_eq hnk]
      rw [rows_low (by omega), rows_low (by omega), cols_high (by omega) (by omega), cols_low (by omega), id]
    rw [e, q _ (by omega), latP_col n k hnk u 0 i (by omega) hi]

theorem latE_col (hk : 0 < n) (j : Nat) (hj : j ≤ n) : latE n u j n = latE n u j 0 := by
  unfold latE
  rw [half_eq hnk]
  by_cases h : k + 1 ≤ j
  · rw [rows_high h, rows_high h]
    congr 1
    have := cols_mirror hnk (f := id) (a := fun j i => if i < k + 1 then if j = 0 then -latP n u 0 i else
      if j = k + 1 - 1 then 0 else fill (k + 1) (fun j i => latOf (turned n j i)) u j i else fill (k + 1) (fun j i => latOf (turned n j i)) u j i)
      (show n - j ≤ k by omega) (i := 0) (by omega)
    rwa [Nat.sub_zero] at this
  · rw [rows_low (by omega), rows_low (by omega)]
    have := cols_mirror hnk (f := id) (a := fun j i => if i < k + 1 then if j = 0 then -latP n u 0 i else
      if j = k + 1 - 1 then 0 else fill (k + 1) (fun j i => latOf (turned n j i)) u j i else fill (k + 1) (fun j i => latOf (turned n j i)) u j i)
      (show j ≤ k by omega) (i := 0) (by omega)
    rwa [Nat.sub_zero] at this

theorem latE_mid (hk : 2 ≤ n) (i : Nat) (hi : i ≤ n) : latE n u k i = 0 := by
  unfold latE
  rw [half_eq hnk]
  rw [rows_low (by omega)]
  by_cases h : k + 1 ≤ i
  · rw [cols_high (by omega) h, if_pos (by omega), if_neg (by omega), if_pos (by omega), id]
  · rw [cols_low (by omega), if_pos (by omega), if_neg (by omega), if_pos (by omega)]

theorem latE_row (hk : 0 < n) (j i : Nat) (hj : j ≤ n) (hi : i ≤ n) : latE n u (n - j) i = -latE n u j i := by
  have c : ∀ j, 2 * j < n → latE n u (n - j) i = -latE n u j i := by
    intro j hj
    unfold latE
    rw [half_eq hnk]
    rw [rows_mirror hnk hj]
  rcases lt_trichotomy (2 * j) n with h | h | h
  · exact c j h
  · rw [show n - j = j by omega, show j = k by omega, latE_mid n k hnk u (by omega) i hi]; simp
  · have := c (n - j) (by omega)
    rw [show n - (n - j) = j by omega] at this
    rw [this]; ring

omit hnk in
/-- What is outside the quadrants does not matter. -/
theorem mirror_congr {h : Nat} (hh : n < 2 * h) {f g : ℝ → ℝ} {a b : Arr} (e : ∀ j i, j < h → i < h → a j i = b j i) (j i : Nat) (hj : j ≤ n) (hi : i ≤ n) :
    mirrorRows n h f (mirrorCols n h g a) j i = mirrorRows n h f (mirrorCols n h g b) j i := by
  have c : ∀ j, j < h → mirrorCols n h g a j i = mirrorCols n h g b j i := by
    intro j hj
    by_cases c : i < h
    · rw [cols_low c, cols_low c, e j i hj c]
    · rw [cols_high hj (by omega), cols_high hj (by omega), e j (n - i) hj (by omega)]
  by_cases c' : j < h
  · rw [rows_low c', rows_low c', c j c']
  · rw [rows_high (by omega), rows_high (by omega), c (n - j) (by omega)]

theorem latP_indep (u' : Arr) (j i : Nat) (hj : j ≤ n) (hi : i ≤ n) : latP n u j i = latP n u' j i := by
  unfold latP polarQuadrant
  rw [half_eq hnk]
  refine mirror_congr n (by omega) (fun j i hj hi => ?_) j i hj hi
  rw [(symLoop_eq (k + 1) _ j i hj hi).1, (symLoop_eq (k + 1) _ j i hj hi).1]
  simp only
  rw [fill_in (show max j i < k + 1 by omega) (show min j i < k + 1 by omega), fill_in (show max j i < k + 1 by omega) (show min j i < k + 1 by omega)]

theorem lonP_indep (u' : Arr) (j i : Nat) (hj : j ≤ n) (hi : i ≤ n) : lonP n u j i = lonP n u' j i := by
  have q : ∀ j i, j < k + 1 → i < k + 1 → (polarQuadrant n u).2 j i = (polarQuadrant n u').2 j i := by
    intro j i hj hi
    unfold polarQuadrant
    rw [half_eq hnk, (symLoop_eq (k + 1) _ j i hj hi).2, (symLoop_eq (k + 1) _ j i hj hi).2]
    simp only
    rw [fill_in hj hi, fill_in hj hi]
  unfold lonP
  rw [half_eq hnk]
  refine mirror_congr n (by omega) (fun j i hj hi => ?_) j i hj hi
  unfold lonStep
  rw [q j i hj hi, q i j hi hj]

theorem lonE_indep (u' : Arr) (j i : Nat) (hj : j ≤ n) (hi : i ≤ n) : lonE n u j i = lonE n u' j i := by
  unfold lonE
  rw [half_eq hnk]
  refine mirror_congr n (by omega) (fun j i hj hi => ?_) j i hj hi
  rw [fill_in hj hi, fill_in hj hi]

theorem latE_indep (u' : Arr) (j i : Nat) (hj : j ≤ n) (hi : i ≤ n) : latE n u j i = latE n u' j i := by
  unfold latE
  rw [half_eq hnk]
  refine mirror_congr n (by omega) (fun j i hj hi => ?_) j i hj hi
  rw [fill_in hj hi, fill_in hj hi, latP_indep n k hnk u u' 0 i (by omega) (by omega)]

end

end Verif.ConformalGrid
