import Verif.Model.BilinearSearch
import Verif.Spec.BilinearSearch
import Verif.Lemmas.Bilinear
import Mathlib.Tactic.LinearCombination
/-
The test for a sector in terms of the sides of great circles.
-/
namespace Verif.BilSearch

open Verif.Vec3 Verif.Bilinear Verif.Spec.Bil Real

/-- Cosines of three directions in a plane: if the angles from the third to the first two are not larger than the angle between
these, and that is below 120 degrees, the third is between them. -/
theorem cone_of_cos {a b c : ℝ} (g : 1 + 2 * a * b * c = a ^ 2 + b ^ 2 + c ^ 2) (ha : a ≤ 1) (hc : -(1 / 2) < c) (hc1 : c < 1)
    (h1 : c ≤ a) (h2 : c ≤ b) : 0 ≤ b - c * a := by
  by_contra hn
  have hn : b - c * a < 0 := not_le.1 hn
  have g2 : (b - c * a) ^ 2 = (1 - a ^ 2) * (1 - c ^ 2) := by linear_combination -g
  have hb : c * (1 - a) ≤ b - c * a := by linarith
  have ha1 : a < 1 := by
    rcases lt_or_eq_of_le ha with h | h
    · exact h
    · rw [h] at hb hn; linarith
  have hcneg : c < 0 := by
    by_contra h
    have := mul_nonneg (not_lt.1 h) (by linarith : 0 ≤ 1 - a)
    linarith
  have hsq : (b - c * a) ^ 2 ≤ (c * (1 - a)) ^ 2 := by
    have : 0 ≤ (b - c * a - c * (1 - a)) := by linarith
    nlinarith
  rw [g2] at hsq
  have h3 : (1 + a) * (1 - c ^ 2) ≤ c ^ 2 * (1 - a) := by
    have hp : 0 < 1 - a := by linarith
    have : (1 - a) * ((1 + a) * (1 - c ^ 2)) ≤ (1 - a) * (c ^ 2 * (1 - a)) := by linarith
    exact le_of_mul_le_mul_left this hp
  nlinarith

theorem cos_of_cone {a b c : ℝ} (g : 1 + 2 * a * b * c = a ^ 2 + b ^ 2 + c ^ 2) (hc : -1 < c) (hc1 : c < 1)
    (h1 : 0 ≤ b - c * a) (h2 : 0 ≤ a - c * b) : c ≤ a := by
  by_contra hn
  have hn : a < c := not_le.1 hn
  have hd : 0 < 1 - c ^ 2 := by nlinarith
  have g2 : (b - c * a) ^ 2 = (1 - a ^ 2) * (1 - c ^ 2) := by linear_combination -g
  have hw : c * (b - c * a) ≤ a * (1 - c ^ 2) := by linarith
  rcases le_or_gt 0 c with h | h
  · have h0 : 0 ≤ c * (b - c * a) := mul_nonneg h h1
    have ha0 : 0 ≤ a := by
      by_contra hh
      have := mul_neg_of_neg_of_pos (not_le.1 hh) hd
      linarith
    have : (c * (b - c * a)) ^ 2 ≤ (a * (1 - c ^ 2)) ^ 2 := by
      apply pow_le_pow_left₀ h0 hw
    have e : c ^ 2 * (1 - a ^ 2) * (1 - c ^ 2) ≤ a ^ 2 * (1 - c ^ 2) * (1 - c ^ 2) := by
      have e1 : (c * (b - c * a)) ^ 2 = c ^ 2 * (1 - a ^ 2) * (1 - c ^ 2) := by rw [mul_pow, g2]; ring
      have e2 : (a * (1 - c ^ 2)) ^ 2 = a ^ 2 * (1 - c ^ 2) * (1 - c ^ 2) := by ring
      linarith
    have := le_of_mul_le_mul_right e hd
    nlinarith
  · have h0 : 0 ≤ -(a * (1 - c ^ 2)) := by
      have := mul_neg_of_neg_of_pos (lt_trans hn h) hd
      linarith
    have : (-(a * (1 - c ^ 2))) ^ 2 ≤ (-(c * (b - c * a))) ^ 2 := by
      apply pow_le_pow_left₀ h0; linarith
    have e : a ^ 2 * (1 - c ^ 2) * (1 - c ^ 2) ≤ c ^ 2 * (1 - a ^ 2) * (1 - c ^ 2) := by
      have e1 : (-(c * (b - c * a))) ^ 2 = c ^ 2 * (1 - a ^ 2) * (1 - c ^ 2) := by rw [neg_sq, mul_pow, g2]; ring
      have e2 : (-(a * (1 - c ^ 2))) ^ 2 = a ^ 2 * (1 - c ^ 2) * (1 - c ^ 2) := by ring
      linarith
    have := le_of_mul_le_mul_right e hd
    nlinarith

/-- The comparison of angles is the comparison of their cosines. -/
theorem angleOf_le {eps a c : ℝ} (he : 0 ≤ eps) (he2 : eps ≤ 1 / 2) (ha : |a| ≤ 1) (hc : -(1 / 2) < c) (hc1 : c ≤ 1 - eps) :
    angleOf eps a ≤ angleOf eps c ↔ c ≤ a := by
  have ha' := abs_le.1 ha
  have ec : angleOf eps c = arccos c := by
    have n1 : ¬ |c - 1| < eps := by rw [abs_lt]; push Not; intro h; linarith
    have n2 : ¬ |c + 1| < eps := by rw [abs_lt]; push Not; intro h; linarith
    have n3 : ¬ (c > 1 ∨ c < -1) := by push Not; constructor <;> linarith
    unfold angleOf
    simp only [if_neg n1, if_neg n2, if_neg n3]
  rw [ec]
  unfold angleOf
  by_cases h1 : |a - 1| < eps
  · have := abs_lt.1 h1
    have n2 : ¬ |(1 : ℝ) + 1| < eps := by rw [abs_lt]; push Not; intro h; linarith
    have n3 : ¬ ((1 : ℝ) > 1 ∨ (1 : ℝ) < -1) := by norm_num
    simp only [if_pos h1, if_neg n2, if_neg n3]
    rw [arccos_one]
    exact ⟨fun _ => by linarith, fun _ => arccos_nonneg c⟩
  · by_cases h2 : |a + 1| < eps
    · have := abs_lt.1 h2
      have n3 : ¬ ((-1 : ℝ) > 1 ∨ (-1 : ℝ) < -1) := by norm_num
      simp only [if_neg h1, if_pos h2, if_neg n3]
      rw [arccos_neg_one]
      constructor
      · intro h
        have : arccos c = π := le_antisymm (arccos_le_pi c) h
        rw [arccos_eq_pi] at this
        linarith
      · intro h; linarith
    · have n3 : ¬ (a > 1 ∨ a < -1) := by push Not; constructor <;> linarith
      simp only [if_neg h1, if_neg h2, if_neg n3]
      exact strictAntiOn_arccos.le_iff_ge ⟨ha'.1, ha'.2⟩ ⟨by linarith, by linarith⟩

theorem cross_expand (v a b p : V ℝ) :
    dot3 (cross v a) (cross v a) * dot3 (cross v b) (cross v p) - dot3 (cross v a) (cross v b) * dot3 (cross v a) (cross v p)
      = dot3 v v * (det v a p * det v a b) := by
  simp [dot3, cross, det]
  ring

theorem cross_expand' (v a b p : V ℝ) :
    dot3 (cross v b) (cross v b) * dot3 (cross v a) (cross v p) - dot3 (cross v a) (cross v b) * dot3 (cross v b) (cross v p)
      = dot3 v v * (det v p b * det v a b) := by
  simp [dot3, cross, det]
  ring

/-- For a corner below 120 degrees the test says that the point is between the two sides. -/
theorem inSector_iff {eps : ℝ} (he : 0 < eps) (he2 : eps ≤ 1 / 2) {v a b : V ℝ} (h : Corner eps v a b) (p : V ℝ) :
    inSector eps v a b p ↔ 0 ≤ det v a p ∧ 0 ≤ det v p b := by
  obtain ⟨hD, hc, hc1⟩ := h
  have hvv0 := dot3_self_nonneg v
  have hvv : 0 < dot3 v v := by
    rcases lt_or_eq_of_le hvv0 with h | h
    · exact h
    · exfalso
      have e : v 0 = 0 ∧ v 1 = 0 ∧ v 2 = 0 := by
        unfold dot3 at h
        refine ⟨?_, ?_, ?_⟩ <;> nlinarith [mul_self_nonneg (v 0), mul_self_nonneg (v 1), mul_self_nonneg (v 2)]
      unfold det at hD
      rw [e.1, e.2.1, e.2.2] at hD
      simp at hD
  have gab := gram v a b
  have gap := gram v a p
  have gbp := gram v b p
  have e1 := cross_expand v a b p
  have e2 := cross_expand' v a b p
  have hbp : det v b p = -det v p b := by unfold det; ring
  rw [hbp] at gbp
  have hcos : cosAt v a b = dot3 (cross v a) (cross v b) /
      √(dot3 (cross v a) (cross v a) * dot3 (cross v b) (cross v b)) := by
    unfold cosAt
    rw [area_eq, area_eq, Real.sqrt_mul (dot3_self_nonneg _)]
    simp [dot3, cross]
  have hP := dot3_self_nonneg (cross v a)
  have hQ := dot3_self_nonneg (cross v b)
  have hR := dot3_self_nonneg (cross v p)
  rw [hcos] at hc hc1
  unfold inSector
  rw [max_le_iff, sphericalAngle_eq, sphericalAngle_eq, sphericalAngle_eq]
  generalize dot3 (cross v a) (cross v a) = P at *
  generalize dot3 (cross v b) (cross v b) = Q at *
  generalize dot3 (cross v p) (cross v p) = R at *
  generalize dot3 (cross v a) (cross v b) = PQ at *
  generalize dot3 (cross v a) (cross v p) = PR at *
  generalize dot3 (cross v b) (cross v p) = QR at *
  generalize det v a p = X at *
  generalize det v p b = Y at *
  generalize det v a b = D at *
  generalize dot3 v v = w at *
  have hPQ : 0 < P * Q := by
    have := mul_pos hvv (pow_pos hD 2)
    nlinarith [sq_nonneg PQ]
  have hP : 0 < P := lt_of_le_of_ne hP fun e => by rw [← e] at hPQ; simp at hPQ
  have hQ : 0 < Q := lt_of_le_of_ne hQ fun e => by rw [← e] at hPQ; simp at hPQ
  rw [if_neg (not_le.2 hPQ)]
  rcases lt_or_eq_of_le hR with hR | hR
  · rw [if_neg (not_le.2 (mul_pos hP hR)), if_neg (not_le.2 (mul_pos hQ hR))]
    have b1 : |PR / √(P * R)| ≤ 1 := abs_div_sqrt_le_one (by
      have := mul_nonneg hvv.le (sq_nonneg X); linarith)
    have b2 : |QR / √(Q * R)| ≤ 1 := abs_div_sqrt_le_one (by
      have := mul_nonneg hvv.le (sq_nonneg (-Y)); linarith)
    rw [angleOf_le he.le he2 b1 hc hc1, angleOf_le he.le he2 b2 hc hc1]
    rw [Real.sqrt_mul hP.le] at b1 hc hc1 ⊢
    rw [Real.sqrt_mul hQ.le] at b2 ⊢
    rw [Real.sqrt_mul hP.le]
    have sp := Real.sq_sqrt hP.le
    have sq' := Real.sq_sqrt hQ.le
    have sr := Real.sq_sqrt hR.le
    have pp := Real.sqrt_pos.2 hP
    have pq := Real.sqrt_pos.2 hQ
    have pr := Real.sqrt_pos.2 hR
    generalize √P = lp at *
    generalize √Q = lq at *
    generalize √R = lr at *
    have G : 1 + 2 * (PR / (lp * lr)) * (QR / (lq * lr)) * (PQ / (lp * lq)) =
        (PR / (lp * lr)) ^ 2 + (QR / (lq * lr)) ^ 2 + (PQ / (lp * lq)) ^ 2 := by
      have k : P * QR ^ 2 - 2 * QR * PQ * PR = P * R * Q - R * PQ ^ 2 - PR ^ 2 * Q := by
        have hk : P * (P * QR ^ 2 - 2 * QR * PQ * PR) = P * (P * R * Q - R * PQ ^ 2 - PR ^ 2 * Q) := by
          have t1 : (P * QR - PQ * PR) ^ 2 = (w * (X * D)) ^ 2 := by rw [e1]
          have t2 : (P * R - PR ^ 2) * (P * Q - PQ ^ 2) = (w * X ^ 2) * (w * D ^ 2) := by rw [gap, gab]
          linear_combination t1 - t2
        exact mul_left_cancel₀ hP.ne' hk
      rw [← sp, ← sq', ← sr] at k
      field_simp
      linear_combination -k
    have i1 : QR / (lq * lr) - PQ / (lp * lq) * (PR / (lp * lr)) = w * (X * D) / (lp ^ 2 * lq * lr) := by
      rw [← e1, ← sp]
      field_simp
    have i2 : PR / (lp * lr) - PQ / (lp * lq) * (QR / (lq * lr)) = w * (Y * D) / (lq ^ 2 * lp * lr) := by
      rw [← e2, ← sq']
      field_simp
    have s1 : 0 ≤ QR / (lq * lr) - PQ / (lp * lq) * (PR / (lp * lr)) ↔ 0 ≤ X := by
      rw [i1]
      have : 0 < lp ^ 2 * lq * lr := by positivity
      rw [le_div_iff₀ this, zero_mul, mul_nonneg_iff_of_pos_left hvv, mul_nonneg_iff_of_pos_right hD]
    have s2 : 0 ≤ PR / (lp * lr) - PQ / (lp * lq) * (QR / (lq * lr)) ↔ 0 ≤ Y := by
      rw [i2]
      have : 0 < lq ^ 2 * lp * lr := by positivity
      rw [le_div_iff₀ this, zero_mul, mul_nonneg_iff_of_pos_left hvv, mul_nonneg_iff_of_pos_right hD]
    rw [← s1, ← s2]
    have G' : 1 + 2 * (QR / (lq * lr)) * (PR / (lp * lr)) * (PQ / (lp * lq)) =
        (QR / (lq * lr)) ^ 2 + (PR / (lp * lr)) ^ 2 + (PQ / (lp * lq)) ^ 2 := by linear_combination G
    constructor
    · rintro ⟨h1, h2⟩
      exact ⟨cone_of_cos G (abs_le.1 b1).2 hc (by linarith) h1 h2, cone_of_cos G' (abs_le.1 b2).2 hc (by linarith) h2 h1⟩
    · rintro ⟨h1, h2⟩
      exact ⟨cos_of_cone G (by linarith) (by linarith) h1 h2, cos_of_cone G' (by linarith) (by linarith) h2 h1⟩
  · have x0 : X = 0 := by
      rw [← hR] at gap
      have : w * X ^ 2 ≤ 0 := by nlinarith [sq_nonneg PR]
      have := nonpos_of_mul_nonpos_right this hvv
      exact pow_eq_zero_iff (two_ne_zero) |>.1 (le_antisymm this (sq_nonneg X))
    have y0 : Y = 0 := by
      rw [← hR] at gbp
      have : w * Y ^ 2 ≤ 0 := by nlinarith [sq_nonneg QR]
      have := nonpos_of_mul_nonpos_right this hvv
      exact pow_eq_zero_iff (two_ne_zero) |>.1 (le_antisymm this (sq_nonneg Y))
    rw [← hR, x0, y0]
    simp only [mul_zero, le_refl, if_true, and_self, iff_true]
    exact (angleOf_range _ _).1

end Verif.BilSearch
