import Verif.Model.Bilinear
import Verif.Spec.Bilinear
import Mathlib.Tactic.Linarith
import Mathlib.Tactic.Ring
import Mathlib.Tactic.FieldSimp
import Mathlib.Tactic.Positivity
/-
Lemmas for the weights of bilinear interpolation.
-/
namespace Verif.Bilinear

open Verif.Vec3 Verif.Spec.Bil Real

/-- The angle with a given cosine, after rounding to -1 and 1. -/
noncomputable def angleOf (eps t : ℝ) : ℝ :=
  let ddd := if |t - 1| < eps then 1 else t
  let ddd := if |ddd + 1| < eps then -1 else ddd
  if ddd > 1 ∨ ddd < -1 then (if ddd < 0 then Real.pi else 0) else Real.arccos ddd

noncomputable def dot3 (a b : V ℝ) : ℝ := a 0 * b 0 + a 1 * b 1 + a 2 * b 2

theorem sphericalAngle_eq (eps : ℝ) (a b p : V ℝ) :
    sphericalAngle eps a b p
      = if dot3 (cross a b) (cross a b) * dot3 (cross a p) (cross a p) ≤ 0 then 0
        else angleOf eps (dot3 (cross a b) (cross a p)
          / √(dot3 (cross a b) (cross a b) * dot3 (cross a p) (cross a p))) := rfl

theorem angleOf_range (eps t : ℝ) : 0 ≤ angleOf eps t ∧ angleOf eps t ≤ π := by
  unfold angleOf
  dsimp only
  generalize (if |(if |t - 1| < eps then 1 else t) + 1| < eps then -1 else (if |t - 1| < eps then 1 else t)) = x
  split
  · split
    · exact ⟨pi_pos.le, le_refl _⟩
    · exact ⟨le_refl _, pi_pos.le⟩
  · exact ⟨arccos_nonneg _, arccos_le_pi _⟩

theorem sin_angleOf {eps t : ℝ} (ht : |t| ≤ 1) :
    sin (angleOf eps t) = √(1 - t ^ 2) ∨ (sin (angleOf eps t) = 0 ∧ √(1 - t ^ 2) ≤ √(2 * eps)) := by
  have h1 := abs_le.1 ht
  have key : ∀ x : ℝ, -1 ≤ x → x ≤ 1 → sin (if x > 1 ∨ x < -1 then (if x < 0 then π else 0) else arccos x) = √(1 - x ^ 2) := by
    intro x ha hb
    rw [if_neg (by push Not; exact ⟨hb, ha⟩), sin_arccos]
  have hone : ∀ x : ℝ, x = 1 ∨ x = -1 → √(1 - x ^ 2) = 0 := by
    rintro x (rfl | rfl) <;> norm_num
  unfold angleOf
  dsimp only
  by_cases ha : |t - 1| < eps
  · simp only [if_pos ha]
    have hb : 1 - t ^ 2 ≤ 2 * eps := by
      have := abs_lt.1 ha
      nlinarith
    right
    refine ⟨?_, sqrt_le_sqrt hb⟩
    split
    · rw [key _ (by norm_num) (by norm_num), hone _ (Or.inr rfl)]
    · rw [key _ (by norm_num) (by norm_num), hone _ (Or.inl rfl)]
  · simp only [if_neg ha]
    by_cases hb : |t + 1| < eps
    · simp only [if_pos hb]
      right
      refine ⟨?_, sqrt_le_sqrt ?_⟩
      · rw [key _ (by norm_num) (by norm_num), hone _ (Or.inr rfl)]
      · have := abs_lt.1 hb
        nlinarith
    · simp only [if_neg hb]
      left
      exact key t h1.1 h1.2

theorem greatCircle_range (a p : V ℝ) : 0 ≤ greatCircle a p ∧ greatCircle a p ≤ π :=
  ⟨arccos_nonneg _, arccos_le_pi _⟩

theorem sphericalAngle_range (eps : ℝ) (a b p : V ℝ) : 0 ≤ sphericalAngle eps a b p ∧ sphericalAngle eps a b p ≤ π := by
  rw [sphericalAngle_eq]
  split
  · exact ⟨le_refl _, pi_pos.le⟩
  · exact angleOf_range _ _

theorem sinProd_range (eps : ℝ) (a b p : V ℝ) :
    0 ≤ sin (greatCircle a p) * sin (sphericalAngle eps a b p)
    ∧ sin (greatCircle a p) * sin (sphericalAngle eps a b p) ≤ 1 := by
  have h1 := greatCircle_range a p
  have h2 := sphericalAngle_range eps a b p
  have s1 := sin_nonneg_of_nonneg_of_le_pi h1.1 h1.2
  have s2 := sin_nonneg_of_nonneg_of_le_pi h2.1 h2.2
  exact ⟨mul_nonneg s1 s2, mul_le_one₀ (sin_le_one _) s2 (sin_le_one _)⟩

theorem distToSide_nonneg (eps : ℝ) (a b p : V ℝ) : 0 ≤ distToSide eps a b p :=
  arcsin_nonneg.2 (sinProd_range eps a b p).1

theorem dot3_self_nonneg (a : V ℝ) : 0 ≤ dot3 a a := by
  unfold dot3
  nlinarith [mul_self_nonneg (a 0), mul_self_nonneg (a 1), mul_self_nonneg (a 2)]

theorem len_eq (a : V ℝ) : len a = √(dot3 a a) := by
  unfold len dot3
  congr 1
  ring

theorem area_eq (a b : V ℝ) : area a b = √(dot3 (cross a b) (cross a b)) := by
  unfold area dot3
  congr 1
  simp [cross]
  ring

theorem lagrange (a b : V ℝ) :
    dot3 (cross a b) (cross a b) = dot3 a a * dot3 b b - dot3 a b ^ 2 := by
  simp [dot3, cross]
  ring

theorem gram (a b p : V ℝ) :
    dot3 (cross a b) (cross a b) * dot3 (cross a p) (cross a p) - dot3 (cross a b) (cross a p) ^ 2
      = dot3 a a * det a b p ^ 2 := by
  simp [dot3, cross, det]
  ring

theorem abs_div_sqrt_le_one {x y : ℝ} (h : x ^ 2 ≤ y) : |x / √y| ≤ 1 := by
  have hy : 0 ≤ y := le_trans (sq_nonneg x) h
  rw [abs_div, abs_of_nonneg (sqrt_nonneg y)]
  apply div_le_one_of_le₀ _ (sqrt_nonneg y)
  exact abs_le_sqrt h

theorem sin_greatCircle {a p : V ℝ} (ha : 0 < dot3 a a) (hp : 0 < dot3 p p) :
    sin (greatCircle a p) = √(dot3 (cross a p) (cross a p) / (dot3 a a * dot3 p p)) := by
  have hcs : dot3 a p ^ 2 ≤ dot3 a a * dot3 p p := by
    have := dot3_self_nonneg (cross a p)
    rw [lagrange] at this
    linarith
  have h1 := abs_div_sqrt_le_one hcs
  have h2 : greatCircle a p = arccos (dot3 a p / √(dot3 a a * dot3 p p)) := by
    show arccos (if dot3 a p / √(dot3 a a * dot3 p p) < 0 then -|min 1 (|dot3 a p / √(dot3 a a * dot3 p p)|)|
      else |min 1 (|dot3 a p / √(dot3 a a * dot3 p p)|)|) = _
    rw [min_eq_right h1, abs_abs]
    congr 1
    split
    · rename_i h
      rw [abs_of_neg h, neg_neg]
    · rename_i h
      rw [abs_of_nonneg (not_lt.1 h)]
  have hpos : 0 < dot3 a a * dot3 p p := mul_pos ha hp
  rw [h2, sin_arccos]
  congr 1
  rw [div_pow, sq_sqrt hpos.le, lagrange]
  field_simp

theorem sinProd_eq (eps : ℝ) {a b p : V ℝ} (hab : 0 < area a b) (ha : 0 < len a) (hp : 0 < len p) :
    sin (greatCircle a p) * sin (sphericalAngle eps a b p) = sineToLine a b p
    ∨ (sin (greatCircle a p) * sin (sphericalAngle eps a b p) = 0 ∧ sineToLine a b p ≤ √(2 * eps)) := by
  rw [len_eq] at ha hp
  rw [area_eq] at hab
  have ha' := sqrt_pos.1 ha
  have hp' := sqrt_pos.1 hp
  have hab' := sqrt_pos.1 hab
  have hs : sineToLine a b p = |det a b p| / (√(dot3 (cross a b) (cross a b)) * √(dot3 p p)) := by
    unfold sineToLine
    rw [area_eq, len_eq]
  rw [sphericalAngle_eq]
  have hq := dot3_self_nonneg (cross a p)
  have hg := gram a b p
  split
  · rename_i h
    have hq0 : dot3 (cross a p) (cross a p) = 0 := by
      by_contra hne
      have : 0 < dot3 (cross a p) (cross a p) := lt_of_le_of_ne hq (Ne.symm hne)
      have := mul_pos hab' this
      linarith
    have hdet : det a b p = 0 := by
      rw [hq0] at hg
      have h1 : 0 ≤ dot3 a a * det a b p ^ 2 := by positivity
      have h2 : dot3 a a * det a b p ^ 2 = 0 := by
        have := sq_nonneg (dot3 (cross a b) (cross a p))
        linarith
      rcases mul_eq_zero.1 h2 with h3 | h3
      · exact absurd h3 ha'.ne'
      · exact pow_eq_zero_iff (two_ne_zero) |>.1 h3
    left
    rw [hs, hdet]
    simp
  · rename_i h
    have hpq : 0 < dot3 (cross a b) (cross a b) * dot3 (cross a p) (cross a p) := not_le.1 h
    have hq' : 0 < dot3 (cross a p) (cross a p) := by
      rcases hq.lt_or_eq with h1 | h1
      · exact h1
      · rw [← h1] at hpq
        simp at hpq
    have hcs : dot3 (cross a b) (cross a p) ^ 2 ≤ dot3 (cross a b) (cross a b) * dot3 (cross a p) (cross a p) := by
      have : 0 ≤ dot3 a a * det a b p ^ 2 := by positivity
      linarith
    have hgc := sin_greatCircle ha' hp'
    have hsq : 1 - (dot3 (cross a b) (cross a p) / √(dot3 (cross a b) (cross a b) * dot3 (cross a p) (cross a p))) ^ 2
        = dot3 a a * det a b p ^ 2 / (dot3 (cross a b) (cross a b) * dot3 (cross a p) (cross a p)) := by
      rw [div_pow, sq_sqrt hpq.le, ← hg]
      field_simp
    have hprod : sin (greatCircle a p) * √(1 - (dot3 (cross a b) (cross a p)
        / √(dot3 (cross a b) (cross a b) * dot3 (cross a p) (cross a p))) ^ 2) = sineToLine a b p := by
      rw [hsq, hgc, ← sqrt_mul (by positivity), hs, ← sqrt_mul hab'.le]
      have : dot3 (cross a p) (cross a p) / (dot3 a a * dot3 p p)
          * (dot3 a a * det a b p ^ 2 / (dot3 (cross a b) (cross a b) * dot3 (cross a p) (cross a p)))
          = det a b p ^ 2 / (dot3 (cross a b) (cross a b) * dot3 p p) := by
        field_simp
      rw [this, sqrt_div (sq_nonneg _), sqrt_sq_eq_abs]
    rcases sin_angleOf (eps := eps) (abs_div_sqrt_le_one hcs) with h1 | ⟨h1, h2⟩
    · left
      rw [h1]
      exact hprod
    · right
      rw [h1]
      refine ⟨mul_zero _, ?_⟩
      rw [← hprod]
      have h3 := greatCircle_range a p
      have s1 := sin_nonneg_of_nonneg_of_le_pi h3.1 h3.2
      calc _ ≤ 1 * _ := mul_le_mul_of_nonneg_right (sin_le_one _) (sqrt_nonneg _)
        _ ≤ _ := by rw [one_mul]; exact h2

theorem distToSide_eq (eps : ℝ) {a b p : V ℝ} (hab : 0 < area a b) (ha : 0 < len a) (hp : 0 < len p) :
    distToSide eps a b p = arcsin (sineToLine a b p)
    ∨ (distToSide eps a b p = 0 ∧ sineToLine a b p ≤ √(2 * eps)) := by
  rcases sinProd_eq eps hab ha hp with h | ⟨h, h2⟩
  · left
    unfold distToSide
    rw [h]
  · right
    unfold distToSide
    rw [h]
    exact ⟨arcsin_zero, h2⟩

theorem distToSide_pos {eps : ℝ} {a b p : V ℝ} (h : OffLine eps a b p) : 0 < distToSide eps a b p := by
  obtain ⟨hab, ha, hp, hs⟩ := h
  rcases distToSide_eq eps hab ha hp with h | ⟨_, h2⟩
  · rw [h, arcsin_pos]
    exact lt_of_le_of_lt (sqrt_nonneg _) hs
  · linarith

theorem cross_self (a : V ℝ) : dot3 (cross a a) (cross a a) = 0 := by
  simp [cross, dot3]
  ring_nf

theorem distToSide_left (eps : ℝ) (a b : V ℝ) : distToSide eps a b a = 0 := by
  have : sphericalAngle eps a b a = 0 := by
    rw [sphericalAngle_eq, if_pos]
    rw [cross_self]
    simp
  unfold distToSide
  rw [this]
  simp

theorem distToSide_right (eps : ℝ) {a b : V ℝ} : distToSide eps a b b = 0 := by
  unfold distToSide
  rw [sphericalAngle_eq]
  split
  · simp
  · rename_i h
    have h0 := dot3_self_nonneg (cross a b)
    have hne : dot3 (cross a b) (cross a b) ≠ 0 := by
      intro h1
      rw [h1] at h
      simp at h
    have h2 : |dot3 (cross a b) (cross a b) / √(dot3 (cross a b) (cross a b) * dot3 (cross a b) (cross a b))| ≤ 1 := by
      apply abs_div_sqrt_le_one
      rw [sq]
    have h3 : √(1 - (dot3 (cross a b) (cross a b) / √(dot3 (cross a b) (cross a b) * dot3 (cross a b) (cross a b))) ^ 2) = 0 := by
      rw [sqrt_mul_self h0, div_self hne]
      norm_num
    rcases sin_angleOf (eps := eps) h2 with h4 | ⟨h4, _⟩
    · rw [h4, h3]
      simp
    · rw [h4]
      simp

theorem raw_inner (eps : ℝ) {nx ny : Nat} (g : Nat → Nat → V ℝ) {ic jc : Nat}
    (h1 : ¬(ic = nx ∧ jc = ny)) (h2 : ¬(ic = 0 ∧ jc = ny)) (h3 : ¬(jc = 0 ∧ ic = nx)) (p : V ℝ) :
    rawWeights eps nx ny g ic jc p
      = ![distToSide eps (g ic (jc + 1)) (g (ic + 1) (jc + 1)) p * distToSide eps (g (ic + 1) (jc + 1)) (g (ic + 1) jc) p,
        distToSide eps (g (ic + 1) (jc + 1)) (g (ic + 1) jc) p * distToSide eps (g (ic + 1) jc) (g ic jc) p,
        distToSide eps (g (ic + 1) jc) (g ic jc) p * distToSide eps (g ic jc) (g ic (jc + 1)) p,
        distToSide eps (g ic jc) (g ic (jc + 1)) p * distToSide eps (g ic (jc + 1)) (g (ic + 1) (jc + 1)) p] := by
  unfold rawWeights
  rw [if_neg h1, if_neg h2, if_neg h3]

theorem raw_ne (eps : ℝ) (nx ny : Nat) (g : Nat → Nat → V ℝ) (p : V ℝ) :
    rawWeights eps nx ny g nx ny p
      = ![distToSide eps (g (nx + 1) ny) (g nx (ny + 1)) p, distToSide eps (g (nx + 1) ny) (g nx ny) p, 0,
        distToSide eps (g nx ny) (g nx (ny + 1)) p] := by
  unfold rawWeights
  rw [if_pos ⟨rfl, rfl⟩]

theorem raw_nw (eps : ℝ) {nx : Nat} (ny : Nat) (g : Nat → Nat → V ℝ) (p : V ℝ) (hx : 0 < nx) :
    rawWeights eps nx ny g 0 ny p
      = ![distToSide eps (g 1 (ny + 1)) (g 1 ny) p, 0, distToSide eps (g 1 ny) (g 0 ny) p,
        distToSide eps (g 1 (ny + 1)) (g 0 ny) p] := by
  unfold rawWeights
  rw [if_neg (by omega), if_pos ⟨rfl, rfl⟩]

theorem raw_se (eps : ℝ) {nx ny : Nat} (g : Nat → Nat → V ℝ) (p : V ℝ) (hx : 0 < nx) (hy : 0 < ny) :
    rawWeights eps nx ny g nx 0 p
      = ![distToSide eps (g nx 1) (g (nx + 1) 1) p, distToSide eps (g nx 0) (g (nx + 1) 1) p,
        distToSide eps (g nx 0) (g nx 1) p, 0] := by
  unfold rawWeights
  rw [if_neg (by omega), if_neg (by omega), if_pos ⟨rfl, rfl⟩]

end Verif.Bilinear
