import Verif.Model.GreatCircleArea
import Verif.Spec.GreatCircleArea
import Verif.Lemmas.Bilinear
import Mathlib.Analysis.InnerProductSpace.PiL2
import Mathlib.Geometry.Euclidean.Angle.Unoriented.TriangleInequality
/-
Lemmas for areas on the sphere: angles of the program as angles between vectors.
-/
namespace Verif.GcArea
open Verif.Vec3 Verif.Bilinear Verif.Spec.GcArea InnerProductGeometry

noncomputable section

/-- A vector of the program as an element of Euclidean space. -/
def E (v : V ℝ) : EuclideanSpace ℝ (Fin 3) := WithLp.toLp 2 v

theorem inner_E (u v : V ℝ) : inner ℝ (E u) (E v) = dot3 u v := by
  simp [E, PiLp.inner_apply, Fin.sum_univ_three, dot3]
  ring

theorem norm_E (u : V ℝ) : ‖E u‖ = √(dot3 u u) := by
  rw [← inner_E, real_inner_self_eq_norm_sq, Real.sqrt_sq (norm_nonneg _)]

theorem E_ne (u : V ℝ) : E u ≠ 0 ↔ dot3 u u ≠ 0 := by
  rw [← inner_E, Ne, Ne, inner_self_eq_zero]

theorem dot3_self_nonneg (u : V ℝ) : 0 ≤ dot3 u u := by
  rw [← inner_E]; exact real_inner_self_nonneg

theorem E_smul (r : ℝ) (u : V ℝ) : E (r • u) = r • E u := rfl
theorem E_add (u v : V ℝ) : E (u + v) = E u + E v := rfl
theorem E_neg (u : V ℝ) : E (-u) = -E u := rfl
theorem E_inj {u v : V ℝ} (h : E u = E v) : u = v := (WithLp.toLp_injective 2) h

/-- The angle at `p` between the great circles to `a` and `b`. -/
def ang (p a b : V ℝ) : ℝ := angle (E (cross p a)) (E (cross p b))

theorem angleOf_zero {t : ℝ} (h : |t| ≤ 1) : angleOf 0 t = Real.arccos t := by
  have := abs_le.1 h
  unfold angleOf
  have hn : ∀ x : ℝ, ¬ |x| < 0 := fun x => not_lt.2 (abs_nonneg x)
  simp only [hn, if_false]
  rw [if_neg (by push Not; exact ⟨this.2, this.1⟩)]

theorem cos_le (u v : V ℝ) : |dot3 u v / √(dot3 u u * dot3 v v)| ≤ 1 := by
  rw [Real.sqrt_mul (dot3_self_nonneg u), ← norm_E, ← norm_E, ← inner_E]
  exact abs_real_inner_div_norm_mul_norm_le_one _ _

/-- Without tolerance `spherical_angle` is the angle between the planes. -/
theorem exact_angle {p a b : V ℝ} (ha : E (cross p a) ≠ 0) (hb : E (cross p b) ≠ 0) : sphericalAngle 0 p a b = ang p a b := by
  rw [sphericalAngle_eq, if_neg, angleOf_zero (cos_le _ _)]
  · unfold ang angle
    rw [inner_E, norm_E, norm_E, Real.sqrt_mul (dot3_self_nonneg _)]
  · have h1 := lt_of_le_of_ne (dot3_self_nonneg (cross p a)) (Ne.symm ((E_ne _).1 ha))
    have h2 := lt_of_le_of_ne (dot3_self_nonneg (cross p b)) (Ne.symm ((E_ne _).1 hb))
    exact not_le.2 (mul_pos h1 h2)

theorem angleOf_tolerance {eps t : ℝ} (h0 : 0 ≤ eps) (h1 : eps ≤ 1) (ht : |t| ≤ 1) : |angleOf eps t - angleOf 0 t| ≤ Real.arccos (1 - eps) := by
  have hb := abs_le.1 ht
  rw [angleOf_zero ht]
  by_cases ha : |t - 1| < eps
  · have e : angleOf eps t = 0 := by
      unfold angleOf
      simp only [if_pos ha]
      have h2 : ¬ |(1 : ℝ) + 1| < eps := by rw [not_lt, abs_of_pos (by norm_num)]; linarith
      simp only [if_neg h2]
      rw [if_neg (by norm_num), Real.arccos_one]
    have := abs_lt.1 ha
    rw [e, zero_sub, abs_neg, abs_of_nonneg (Real.arccos_nonneg _)]
    exact Real.arccos_le_arccos (by linarith)
  · by_cases hc : |t + 1| < eps
    · have e : angleOf eps t = Real.pi := by
        unfold angleOf
        simp only [if_neg ha, if_pos hc]
        rw [if_neg (by norm_num), Real.arccos_neg_one]
      have := abs_lt.1 hc
      have e2 : Real.pi - Real.arccos t = Real.arccos (-t) := by rw [Real.arccos_neg]
      rw [e, e2, abs_of_nonneg (Real.arccos_nonneg _)]
      exact Real.arccos_le_arccos (by linarith)
    · have e : angleOf eps t = Real.arccos t := by
        unfold angleOf
        simp only [if_neg ha, if_neg hc]
        rw [if_neg (by push Not; exact ⟨hb.2, hb.1⟩)]
      rw [e, sub_self, abs_zero]
      exact Real.arccos_nonneg _

theorem angle_tolerance {eps : ℝ} (h0 : 0 ≤ eps) (h1 : eps ≤ 1) (p a b : V ℝ) :
    |sphericalAngle eps p a b - sphericalAngle 0 p a b| ≤ Real.arccos (1 - eps) := by
  rw [sphericalAngle_eq, sphericalAngle_eq]
  split
  · simp [Real.arccos_nonneg]
  · exact angleOf_tolerance h0 h1 (cos_le _ _)

theorem cross_of_det {p a c : V ℝ} (h : det p a c ≠ 0) : E (cross p a) ≠ 0 ∧ E (cross p c) ≠ 0 := by
  refine ⟨fun h0 => h ?_, fun h0 => h ?_⟩
  · have h1 : cross p a = 0 := by simpa [E] using h0
    have e : det p a c = dot3 (cross p a) c := by simp [det, dot3, cross]; ring
    rw [e, h1]; simp [dot3]
  · have h1 : cross p c = 0 := by simpa [E] using h0
    have e : det p a c = -dot3 (cross p c) a := by simp [det, dot3, cross]; ring
    rw [e, h1]; simp [dot3]

/-- Directions at `p`: a linear relation. -/
theorem direction (p a b c : V ℝ) : det p a c • cross p b = det p b c • cross p a + det p a b • cross p c := by
  funext k
  fin_cases k <;> simp [det, cross] <;> ring

theorem cross_neg_swap (p q : V ℝ) : cross p q = -cross q p := by
  funext k
  fin_cases k <;> simp [cross] <;> ring

/-- `b` lies between `a` and `c`, seen from `p`. -/
theorem ang_add {s : ℝ} {p a b c : V ℝ} (h1 : 0 < s * det p a c) (h2 : 0 ≤ s * det p b c) (h3 : 0 ≤ s * det p a b) (hb : E (cross p b) ≠ 0) :
    ang p a c = ang p a b + ang p b c := by
  unfold ang
  refine angle_eq_angle_add_add_angle_add_of_mem_span hb ?_
  rw [Submodule.mem_span_pair]
  refine ⟨Real.toNNReal (s * det p b c / (s * det p a c)), Real.toNNReal (s * det p a b / (s * det p a c)), ?_⟩
  rw [NNReal.smul_def, NNReal.smul_def, Real.coe_toNNReal _ (div_nonneg h2 h1.le), Real.coe_toNNReal _ (div_nonneg h3 h1.le)]
  rw [← E_smul, ← E_smul, ← E_add]
  congr 1
  have hd := direction p a b c
  have hs : s ≠ 0 := by rintro rfl; simp at h1
  have hn : det p a c ≠ 0 := by intro h; rw [h] at h1; simp at h1
  rw [mul_div_mul_left _ _ hs, mul_div_mul_left _ _ hs]
  have : cross p b = (det p a c)⁻¹ • (det p a c • cross p b) := by rw [smul_smul, inv_mul_cancel₀ hn, one_smul]
  rw [this, hd, smul_add, smul_smul, smul_smul, div_eq_inv_mul, div_eq_inv_mul]

theorem ang_comm (p a b : V ℝ) : ang p a b = ang p b a := by unfold ang; exact angle_comm _ _

/-- The three angles between three directions are at most a full turn. -/
theorem three_angles (x y z : EuclideanSpace ℝ (Fin 3)) : angle x y + angle y z + angle z x ≤ 2 * Real.pi := by
  have h := angle_le_angle_add_angle x (-z) y
  rw [angle_neg_right, angle_neg_left] at h
  rw [angle_comm y z, angle_comm z x]
  linarith

/-- The angles of a triangle as angles of the normals of its sides. -/
theorem normals (a b c : V ℝ) :
    ang a b c + ang b c a + ang c a b = 3 * Real.pi - (angle (E (cross a b)) (E (cross b c)) + angle (E (cross b c)) (E (cross c a)) + angle (E (cross c a)) (E (cross a b))) := by
  unfold ang
  rw [cross_neg_swap a c, cross_neg_swap b a, cross_neg_swap c b, E_neg, E_neg, E_neg, angle_neg_right, angle_neg_right, angle_neg_right,
    angle_comm (E (cross a b)) (E (cross c a)), angle_comm (E (cross b c)) (E (cross a b)), angle_comm (E (cross c a)) (E (cross b c))]
  ring

/-- The angles of a triangle are more than two right angles. -/
theorem triangle_ge (a b c : V ℝ) : Real.pi ≤ ang a b c + ang b c a + ang c a b := by
  rw [normals]
  have := three_angles (E (cross a b)) (E (cross b c)) (E (cross c a))
  linarith

theorem dot_cross (a b c : V ℝ) : dot3 a (cross b c) = det a b c := by simp [det, dot3, cross]
theorem det_rot (a b c : V ℝ) : det b c a = det a b c := by simp [det]; ring

theorem triangle_gt {a b c : V ℝ} (h : det a b c ≠ 0) : Real.pi < ang a b c + ang b c a + ang c a b := by
  refine lt_of_le_of_ne (triangle_ge a b c) fun he => ?_
  rw [normals] at he
  have hz : E (cross c a) ≠ 0 := (cross_of_det (p := c) (a := a) (c := b) (by rw [det_rot b c a, det_rot a b c]; exact h)).1
  have hz' : -E (cross c a) ≠ 0 := neg_ne_zero.2 hz
  have h1 : angle (E (cross a b)) (E (cross b c)) = angle (E (cross a b)) (-E (cross c a)) + angle (-E (cross c a)) (E (cross b c)) := by
    rw [angle_neg_right, angle_neg_left, angle_comm (E (cross a b)) (E (cross c a)), angle_comm (E (cross c a)) (E (cross b c))]
    linarith
  rcases (angle_eq_angle_add_angle_iff hz').1 h1 with hp | hm
  · obtain ⟨_, r, _, hr⟩ := angle_eq_pi_iff.1 hp
    have hr' : cross b c = r • cross a b := by
      have : E (cross b c) = E (r • cross a b) := hr
      exact E_inj this
    apply h
    rw [← dot_cross, hr']
    simp [dot3, cross]; ring
  · rw [Submodule.mem_span_pair] at hm
    obtain ⟨u, v, hm⟩ := hm
    have hm' : (u : ℝ) • cross a b + (v : ℝ) • cross b c = -cross c a := by
      have : E ((u : ℝ) • cross a b + (v : ℝ) • cross b c) = E (-cross c a) := hm
      exact E_inj this
    apply h
    have e : dot3 b (-cross c a) = 0 := by
      rw [← hm']; simp [dot3, cross]; ring
    have e2 : dot3 b (-cross c a) = -det a b c := by simp [dot3, cross, det]; ring
    linarith

end

end Verif.GcArea
