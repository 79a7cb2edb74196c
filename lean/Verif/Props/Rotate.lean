import Verif.Model.Vec3
import Verif.Spec.Vec3
import Mathlib.Tactic.LinearCombination
import Mathlib.Tactic.FinCases
import Mathlib.Tactic.NormNum
/-
C35: the rotation of polygons near a pole.
-/
namespace Verif.Vec3
open Verif.Spec

theorem half_sqrt : Real.sqrt (1 / 2) * Real.sqrt (1 / 2) = 1 / 2 := Real.mul_self_sqrt (by norm_num)

/-- C35. The matrix keeps inner products and the orientation: it is a rotation. -/
theorem C35_isometry (p q r : V ℝ) :
    inner3 (rotatePoint rotation p) (rotatePoint rotation q) = inner3 p q ∧
    dist2 (rotatePoint rotation p) (rotatePoint rotation q) = dist2 p q ∧
    volume3 (rotatePoint rotation p) (rotatePoint rotation q) (rotatePoint rotation r) = volume3 p q r := by
  have h := half_sqrt
  refine ⟨?_, ?_, ?_⟩
  · simp [inner3, rotatePoint, rotation]
    simp at h
    linear_combination (2 * p 0 * q 0 + (p 2 - p 1) * (q 2 - q 1)) * h
  · simp [dist2, inner3, rotatePoint, rotation]
    simp at h
    linear_combination (2 * (p 0 - q 0) ^ 2 + ((p 2 - q 2) - (p 1 - q 1)) ^ 2) * h
  · simp [volume3, rotatePoint, rotation]
    simp at h
    linear_combination (2 * (p 0 * (q 1 * r 2 - q 2 * r 1) - p 1 * (q 0 * r 2 - q 2 * r 0) +
      p 2 * (q 0 * r 1 - q 1 * r 0))) * h

/-- C35. The axis is the direction (0, 1, 1), and a vector across it is turned by a right angle, not by 45 degrees as
the comment in the source says. -/
theorem C35_right_angle (v : V ℝ) : (rotatePoint rotation ![0, 1, 1] = ![0, 1, 1]) ∧
    (inner3 v ![0, 1, 1] = 0 → inner3 (rotatePoint rotation v) v = 0) := by
  constructor
  · funext i
    fin_cases i <;> simp [rotatePoint, rotation] <;> norm_num
  · intro h
    simp [inner3] at h
    have e : v 2 = -v 1 := by linarith
    simp [inner3, rotatePoint, rotation, e]
    ring

/-! ### Longitude and latitude -/

theorem norm_sphere {v : V ℝ} (h : OnSphere v) : Real.sqrt (v 0 * v 0 + v 1 * v 1 + v 2 * v 2) = 1 := by
  unfold OnSphere inner3 at h
  rw [h, Real.sqrt_one]

theorem sphere_z {v : V ℝ} (h : OnSphere v) : -1 ≤ v 2 ∧ v 2 ≤ 1 := by
  unfold OnSphere inner3 at h
  constructor <;> nlinarith [mul_self_nonneg (v 0), mul_self_nonneg (v 1)]

theorem toLonLat_sphere (eps : ℝ) {v : V ℝ} (h : OnSphere v) : toLonLat eps v =
    let lon := if |v 0| + |v 1| < eps then 0 else atan2 (v 1) (v 0)
    (if lon < 0 then 2 * Real.pi + lon else lon, Real.arcsin (v 2)) := by
  unfold toLonLat
  simp only [norm_sphere h, div_one]

theorem cos_arcsin_sphere {v : V ℝ} (h : OnSphere v) : Real.cos (Real.arcsin (v 2)) = Real.sqrt (v 0 ^ 2 + v 1 ^ 2) := by
  rw [Real.cos_arcsin]
  congr 1
  unfold OnSphere inner3 at h
  linarith

theorem atan2_cos {x y : ℝ} (h : (⟨x, y⟩ : ℂ) ≠ 0) : Real.sqrt (x ^ 2 + y ^ 2) * Real.cos (atan2 y x) = x ∧
    Real.sqrt (x ^ 2 + y ^ 2) * Real.sin (atan2 y x) = y := by
  have hn : ‖(⟨x, y⟩ : ℂ)‖ = Real.sqrt (x ^ 2 + y ^ 2) := by
    rw [Complex.norm_def, Complex.normSq_mk]; congr 1; ring
  have h0 : Real.sqrt (x ^ 2 + y ^ 2) ≠ 0 := by rw [← hn]; exact norm_ne_zero_iff.2 h
  unfold atan2
  rw [Complex.cos_arg h, Complex.sin_arg, hn]
  constructor <;> field_simp

/-- C35. Away from the poles `xyz2latlon` is exact: the point with the longitude and latitude that it returns is the
given one. The longitude is in `[0, 2π)`, the latitude in `[-π/2, π/2]`. -/
theorem C35_lonlat (eps : ℝ) (heps : 0 < eps) (v : V ℝ) (hv : OnSphere v) (hp : eps ≤ |v 0| + |v 1|) :
    spherePoint (toLonLat eps v) = v ∧ 0 ≤ (toLonLat eps v).1 ∧ (toLonLat eps v).1 < 2 * Real.pi ∧
      |(toLonLat eps v).2| ≤ Real.pi / 2 := by
  have hne : (⟨v 0, v 1⟩ : ℂ) ≠ 0 := by
    intro e
    have e0 : v 0 = 0 := by simpa using congrArg Complex.re e
    have e1 : v 1 = 0 := by simpa using congrArg Complex.im e
    rw [e0, e1] at hp; simp at hp; linarith
  obtain ⟨hc, hs⟩ := atan2_cos hne
  have hr1 : -Real.pi < atan2 (v 1) (v 0) := Complex.neg_pi_lt_arg _
  have hr2 : atan2 (v 1) (v 0) ≤ Real.pi := Complex.arg_le_pi _
  have hpi := Real.pi_pos
  rw [toLonLat_sphere eps hv]
  dsimp only
  rw [if_neg (not_lt.2 hp)]
  refine ⟨?_, ?_, ?_, ?_⟩
  · have hz : Real.sin (Real.arcsin (v 2)) = v 2 := Real.sin_arcsin (sphere_z hv).1 (sphere_z hv).2
    have hcos : Real.cos (if atan2 (v 1) (v 0) < 0 then 2 * Real.pi + atan2 (v 1) (v 0) else atan2 (v 1) (v 0)) =
        Real.cos (atan2 (v 1) (v 0)) := by
      split
      · rw [add_comm, Real.cos_add_two_pi]
      · rfl
    have hsin : Real.sin (if atan2 (v 1) (v 0) < 0 then 2 * Real.pi + atan2 (v 1) (v 0) else atan2 (v 1) (v 0)) =
        Real.sin (atan2 (v 1) (v 0)) := by
      split
      · rw [add_comm, Real.sin_add_two_pi]
      · rfl
    unfold spherePoint
    dsimp only
    rw [hcos, hsin, hz, cos_arcsin_sphere hv, hc, hs]
    funext i
    fin_cases i <;> rfl
  · split <;> linarith
  · split <;> linarith
  · exact abs_le.2 ⟨Real.neg_pi_div_two_le_arcsin _, Real.arcsin_le_pi_div_two _⟩

/-- C35. Within `eps` of a pole the longitude is set to zero; the point returned is less than `2 eps` away. -/
theorem C35_lonlat_pole (eps : ℝ) (v : V ℝ) (hv : OnSphere v) (hp : |v 0| + |v 1| < eps) :
    dist2 (spherePoint (toLonLat eps v)) v < (2 * eps) ^ 2 := by
  rw [toLonLat_sphere eps hv]
  dsimp only
  rw [if_pos hp]
  have hz : Real.sin (Real.arcsin (v 2)) = v 2 := Real.sin_arcsin (sphere_z hv).1 (sphere_z hv).2
  have hr0 : 0 ≤ Real.sqrt (v 0 ^ 2 + v 1 ^ 2) := Real.sqrt_nonneg _
  have hr : Real.sqrt (v 0 ^ 2 + v 1 ^ 2) ≤ |v 0| + |v 1| := by
    rw [Real.sqrt_le_left (by positivity)]
    nlinarith [sq_abs (v 0), sq_abs (v 1), abs_nonneg (v 0), abs_nonneg (v 1),
      mul_nonneg (abs_nonneg (v 0)) (abs_nonneg (v 1))]
  have hc := cos_arcsin_sphere hv
  simp only [lt_irrefl, if_false, spherePoint, Real.cos_zero, Real.sin_zero, hz, hc, dist2, inner3]
  simp
  set r := Real.sqrt (v 0 ^ 2 + v 1 ^ 2)
  have h0 := abs_nonneg (v 0)
  have h1 := abs_nonneg (v 1)
  have e0 := neg_abs_le (v 0)
  have e1 := sq_abs (v 1)
  have e2 := sq_abs (v 0)
  nlinarith [mul_nonneg hr0 h0]

/-- The rotated points, before they are given as longitude and latitude. -/
theorem onSphere_rotate {v : V ℝ} (h : OnSphere v) : OnSphere (rotatePoint rotation v) := by
  unfold OnSphere; rw [(C35_isometry v v v).1]; exact h

theorem toXyz_eq (p : ℝ × ℝ) : toXyz p.1 p.2 = spherePoint p := rfl

theorem onSphere_point (p : ℝ × ℝ) : OnSphere (spherePoint p) := by
  have h1 := Real.sin_sq_add_cos_sq p.1
  have h2 := Real.sin_sq_add_cos_sq p.2
  simp [OnSphere, inner3, spherePoint]
  linear_combination Real.cos p.2 ^ 2 * h1 + h2

/-- C35. `rotate_poly`: the vertices of the result are the vertices of the polygon moved by one rotation of the
sphere, so all distances between them are as before; no vertex may come to lie within `eps` of a pole. -/
theorem C35_poly (eps : ℝ) (heps : 0 < eps) (l : List (ℝ × ℝ))
    (h : ∀ p ∈ l, eps ≤ |rotatePoint rotation (spherePoint p) 0| + |rotatePoint rotation (spherePoint p) 1|) :
    (rotatePoly eps l).length = l.length ∧
    List.Forall₂ (fun p p' => spherePoint p' = rotatePoint rotation (spherePoint p)) l (rotatePoly eps l) ∧
    ∀ (i j : Nat) (p q p' q' : ℝ × ℝ), l[i]? = some p → l[j]? = some q → (rotatePoly eps l)[i]? = some p' →
      (rotatePoly eps l)[j]? = some q' →
      dist2 (spherePoint p') (spherePoint q') = dist2 (spherePoint p) (spherePoint q) := by
  have pt : ∀ p ∈ l, spherePoint (toLonLat eps (rotatePoint rotation (toXyz p.1 p.2))) =
      rotatePoint rotation (spherePoint p) := fun p hp =>
    (C35_lonlat eps heps _ (onSphere_rotate (onSphere_point p)) (h p hp)).1
  refine ⟨by simp [rotatePoly], ?_, ?_⟩
  · unfold rotatePoly
    rw [List.forall₂_map_right_iff, List.forall₂_same]
    exact fun p hp => pt p hp
  · intro i j p q p' q' hi hj hi' hj'
    unfold rotatePoly at hi' hj'
    rw [List.getElem?_map, hi] at hi'
    rw [List.getElem?_map, hj] at hj'
    simp only [Option.map_some, Option.some.injEq] at hi' hj'
    subst hi' hj'
    rw [pt p (List.mem_of_getElem? hi), pt q (List.mem_of_getElem? hj)]
    exact (C35_isometry _ _ (spherePoint p)).2.1

/-- C35. A polygon near a pole is moved away from both poles: if all vertices are within distance `d` of the north or
the south pole, the sine of every new latitude is at most `1/2 + d`. -/
theorem C35_away (eps d s : ℝ) (hs : s = 1 ∨ s = -1) (hd : 0 ≤ d) (l : List (ℝ × ℝ))
    (h : ∀ p ∈ l, dist2 (spherePoint p) ![0, 0, s] ≤ d ^ 2) :
    ∀ p' ∈ rotatePoly eps l, |Real.sin p'.2| ≤ 1 / 2 + d := by
  intro p' hp'
  unfold rotatePoly at hp'
  rw [List.mem_map] at hp'
  obtain ⟨p, hp, rfl⟩ := hp'
  have hsph := onSphere_rotate (onSphere_point p)
  rw [toXyz_eq, toLonLat_sphere eps hsph]
  dsimp only
  rw [Real.sin_arcsin (sphere_z hsph).1 (sphere_z hsph).2]
  have h1 := h p hp
  rw [← (C35_isometry (spherePoint p) ![0, 0, s] 0).2.1] at h1
  set w := rotatePoint rotation (spherePoint p)
  have hz : rotatePoint rotation ![0, 0, s] 2 = s / 2 := by simp [rotatePoint, rotation]; ring
  have h2 : (w 2 - s / 2) ^ 2 ≤ d ^ 2 := by
    refine le_trans ?_ h1
    simp only [dist2, inner3, Pi.sub_apply, hz]
    nlinarith [mul_self_nonneg (w 0 - rotatePoint rotation ![0, 0, s] 0),
      mul_self_nonneg (w 1 - rotatePoint rotation ![0, 0, s] 1)]
  have h3 := abs_le.1 (abs_le_of_sq_le_sq h2 hd)
  rw [abs_le]
  rcases hs with rfl | rfl <;> constructor <;> linarith

/-- The north pole itself goes to 30 degrees north. -/
example : ∀ p' ∈ rotatePoly (1 / 1000) [(0, Real.pi / 2)], |Real.sin p'.2| ≤ 1 / 2 + 0 :=
  C35_away _ 0 1 (Or.inl rfl) (le_refl 0) _ (by
    intro p hp
    rw [List.mem_singleton] at hp
    subst hp
    simp [dist2, inner3, spherePoint])

/-- A point on the equator that the hypotheses of `C35_poly` admit. -/
example : (1 / 1000 : ℝ) ≤ |rotatePoint rotation (spherePoint (Real.pi / 2, 0)) 0| +
    |rotatePoint rotation (spherePoint (Real.pi / 2, 0)) 1| := by
  have : rotatePoint rotation (spherePoint (Real.pi / 2, 0)) 1 = 1 / 2 := by
    simp [rotatePoint, rotation, spherePoint]
  rw [this]
  have := abs_nonneg (rotatePoint rotation (spherePoint (Real.pi / 2, 0)) 0)
  rw [abs_of_pos (by norm_num : (0 : ℝ) < 1 / 2)]
  linarith

end Verif.Vec3
