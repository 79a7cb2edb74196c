import Verif.Model.PolarArea
import Mathlib.Analysis.SpecialFunctions.Trigonometric.Inverse
import Mathlib.Analysis.Real.Pi.Bounds
import Mathlib.Tactic.Linarith
import Mathlib.Tactic.NormNum
import Mathlib.Tactic.IntervalCases
/-
C162: areas with the rotation of polygons at the poles.
-/
namespace Verif
open Vec3

namespace Spec.PolarArea
/-- A vertex is less than the threshold from a pole. -/
def Polar (threshold : ℝ) (l : List (ℝ × ℝ)) : Prop := ∃ p ∈ l, Real.pi / 2 - threshold < |p.2|
/-- The ends of a side, from one vertex to the next, are half a turn apart. -/
def HalfTurn (small : ℝ) (l : List (ℝ × ℝ)) : Prop :=
  ∃ i < l.length, |(|(l.getD ((i + 1) % l.length) 0).1 - (l.getD i 0).1|) - Real.pi| < small
end Spec.PolarArea
open Spec.PolarArea

private theorem near_iff (t : ℝ) (l : List (ℝ × ℝ)) : isNearPole t (l.map Prod.snd) ↔ Polar t l := by
  constructor
  · rintro ⟨y, hy, h⟩
    obtain ⟨p, hp, rfl⟩ := List.mem_map.1 hy
    exact ⟨p, hp, by linarith⟩
  · rintro ⟨p, hp, h⟩
    exact ⟨p.2, List.mem_map_of_mem hp, by linarith⟩

private theorem half_abs (small d : ℝ) (hs : small < 3) : (|d + Real.pi| < small ∨ |d - Real.pi| < small) ↔ |(|d|) - Real.pi| < small := by
  have := Real.pi_gt_three
  rcases le_total 0 d with h | h
  · rw [abs_of_nonneg h]
    refine ⟨fun q => q.elim (fun q => ?_) id, .inr⟩
    have := (abs_lt.1 q).2
    linarith
  · rw [abs_of_nonpos h, show -d - Real.pi = -(d + Real.pi) by ring, abs_neg]
    refine ⟨fun q => q.elim id (fun q => ?_), .inl⟩
    have := (abs_lt.1 q).1
    linarith

private theorem getD_fst (l : List (ℝ × ℝ)) (i : Nat) : (l.map Prod.fst).getD i 0 = (l.getD i 0).1 := by
  rw [List.getD_eq_getElem?_getD, List.getD_eq_getElem?_getD, List.getElem?_map]
  cases l[i]? <;> rfl

private theorem prev_next (n i : Nat) (h : i < n) : ((i + 1) % n + n - 1) % n = i ∧ ((i + n - 1) % n + 1) % n = i := by
  constructor
  · by_cases c : i + 1 = n
    · rw [c, Nat.mod_self, Nat.zero_add, Nat.mod_eq_of_lt (by omega)]; omega
    · rw [Nat.mod_eq_of_lt (show i + 1 < n by omega), show i + 1 + n - 1 = i + n by omega, Nat.add_mod_right, Nat.mod_eq_of_lt h]
  · by_cases c : i = 0
    · subst c
      rw [Nat.zero_add, Nat.mod_eq_of_lt (show n - 1 < n by omega), show n - 1 + 1 = n by omega, Nat.mod_self]
    · rw [show i + n - 1 = (i - 1) + n by omega, Nat.add_mod_right, Nat.mod_eq_of_lt (show i - 1 < n by omega), show i - 1 + 1 = i by omega, Nat.mod_eq_of_lt h]

private theorem crosses_iff (small : ℝ) (hs : small < 3) (l : List (ℝ × ℝ)) : PolarArea.crossesPole small (l.map Prod.fst) ↔ HalfTurn small l := by
  unfold PolarArea.crossesPole HalfTurn
  rw [List.length_map]
  constructor
  · rintro ⟨i, hi, h⟩
    refine ⟨(i + l.length - 1) % l.length, Nat.mod_lt _ (by omega), ?_⟩
    rw [(prev_next _ i hi).2, ← getD_fst, ← getD_fst]
    exact (half_abs small _ hs).1 h
  · rintro ⟨i, hi, h⟩
    refine ⟨(i + 1) % l.length, Nat.mod_lt _ (by omega), ?_⟩
    rw [(prev_next _ i hi).1, getD_fst, getD_fst]
    exact (half_abs small _ hs).2 h

/-- A polygon away from the poles, without a side of half a turn, has the same area with and without the option. -/
theorem C162_away_partial (small radius t eps10 : ℝ) (hs : small < 3) (l : List (ℝ × ℝ)) (hp : ¬Polar t l) (hh : ¬HalfTurn small l) (flag : Bool) :
    PolarArea.polyArea flag small radius t eps10 l = some (PolyArea.polyArea Real.sin Real.pi small radius l) := by
  unfold PolarArea.polyArea
  cases flag with
  | false => exact if_pos rfl
  | true => rw [if_neg (by decide), if_neg (fun q => hh ((crosses_iff small hs l).1 q.1)), if_neg (fun q => hp ((near_iff t l).1 q))]

private theorem rotated_z (lon lat : ℝ) : (rotatePoint rotation (toXyz lon lat)) 2 = -Real.sqrt (1 / 2) * (Real.cos lat * Real.cos lon) + 1 / 2 * (Real.cos lat * Real.sin lon) + 1 / 2 * Real.sin lat := by
  simp [rotatePoint, rotation, toXyz]

private theorem sqrt_half : Real.sqrt (1 / 2) * Real.sqrt (1 / 2) = 1 / 2 := Real.mul_self_sqrt (by norm_num)

private theorem rotated_norm (lon lat : ℝ) : let v := rotatePoint rotation (toXyz lon lat); v 0 * v 0 + v 1 * v 1 + v 2 * v 2 = 1 := by
  have h1 := Real.sin_sq_add_cos_sq lon
  have h2 := Real.sin_sq_add_cos_sq lat
  have e : ∀ (r x y z : ℝ), r * r = 1 / 2 → (0 * x + -r * y + r * z) * (0 * x + -r * y + r * z) + (r * x + 1 / 2 * y + 1 / 2 * z) * (r * x + 1 / 2 * y + 1 / 2 * z) +
      (-r * x + 1 / 2 * y + 1 / 2 * z) * (-r * x + 1 / 2 * y + 1 / 2 * z) = x * x + y * y + z * z := by
    intro r x y z hr
    have : (0 * x + -r * y + r * z) * (0 * x + -r * y + r * z) + (r * x + 1 / 2 * y + 1 / 2 * z) * (r * x + 1 / 2 * y + 1 / 2 * z) +
      (-r * x + 1 / 2 * y + 1 / 2 * z) * (-r * x + 1 / 2 * y + 1 / 2 * z) = (r * r) * (y * y - 2 * y * z + z * z) + 2 * (r * r) * (x * x) + 1 / 2 * (y * y + 2 * y * z + z * z) := by ring
    rw [this, hr]; ring
  show (0 * (Real.cos lat * Real.cos lon) + -Real.sqrt (1 / 2) * (Real.cos lat * Real.sin lon) + Real.sqrt (1 / 2) * Real.sin lat) * _ + _ * _ + _ * _ = 1
  refine (e _ _ _ _ sqrt_half).trans ?_
  nlinarith [h1, h2]

private theorem rotated_lat (eps10 lon lat : ℝ) : (toLonLat eps10 (rotatePoint rotation (toXyz lon lat))).2 = Real.arcsin ((rotatePoint rotation (toXyz lon lat)) 2) := by
  unfold toLonLat
  simp only
  rw [rotated_norm, Real.sqrt_one, div_one]

/-- |z| after the rotation is at most the cosine of the latitude less 30 degrees. -/
private theorem rotated_bound (lon lat : ℝ) (hl : |lat| ≤ Real.pi / 2) : |(rotatePoint rotation (toXyz lon lat)) 2| ≤ Real.cos (|lat| - Real.pi / 6) := by
  have hc : 0 ≤ Real.cos lat := Real.cos_nonneg_of_mem_Icc ⟨by linarith [(abs_le.1 hl).1], (abs_le.1 hl).2⟩
  have hc' : Real.cos (|lat|) = Real.cos lat := Real.cos_abs lat
  rw [rotated_z, Real.cos_sub, Real.cos_pi_div_six, Real.sin_pi_div_six, hc']
  have hk : |-Real.sqrt (1 / 2) * Real.cos lon + 1 / 2 * Real.sin lon| ≤ Real.sqrt 3 / 2 := by
    refine abs_le_of_sq_le_sq ?_ (by positivity)
    have h3 : Real.sqrt 3 * Real.sqrt 3 = 3 := Real.mul_self_sqrt (by norm_num)
    have h1 := Real.sin_sq_add_cos_sq lon
    have e : 3 / 4 - (-Real.sqrt (1 / 2) * Real.cos lon + 1 / 2 * Real.sin lon) ^ 2 = (1 / 2 * Real.cos lon + Real.sqrt (1 / 2) * Real.sin lon) ^ 2 := by
      have : (-Real.sqrt (1 / 2) * Real.cos lon + 1 / 2 * Real.sin lon) ^ 2 + (1 / 2 * Real.cos lon + Real.sqrt (1 / 2) * Real.sin lon) ^ 2 =
          (Real.sqrt (1 / 2) * Real.sqrt (1 / 2) + 1 / 4) * (Real.sin lon ^ 2 + Real.cos lon ^ 2) := by ring
      rw [sqrt_half, h1] at this
      linarith
    have := sq_nonneg (1 / 2 * Real.cos lon + Real.sqrt (1 / 2) * Real.sin lon)
    nlinarith
  have hs0 : 0 ≤ Real.sin (|lat|) := Real.sin_nonneg_of_nonneg_of_le_pi (abs_nonneg _) (by linarith [Real.pi_pos])
  have hsin : |Real.sin lat| = Real.sin (|lat|) := by
    rcases abs_choice lat with h | h
    · rw [h] at hs0 ⊢; exact abs_of_nonneg hs0
    · rw [h] at hs0 ⊢; rw [Real.sin_neg] at hs0 ⊢; exact abs_of_nonpos (by linarith)
  rw [show -Real.sqrt (1 / 2) * (Real.cos lat * Real.cos lon) + 1 / 2 * (Real.cos lat * Real.sin lon) + 1 / 2 * Real.sin lat =
    Real.cos lat * (-Real.sqrt (1 / 2) * Real.cos lon + 1 / 2 * Real.sin lon) + 1 / 2 * Real.sin lat by ring]
  refine (abs_add_le _ _).trans ?_
  rw [abs_mul, abs_mul, abs_of_nonneg hc, hsin, abs_of_pos (by norm_num : (0 : ℝ) < 1 / 2)]
  have := mul_le_mul_of_nonneg_left hk hc
  linarith

private theorem rotated_away (eps10 t lon lat : ℝ) (hl : |lat| ≤ Real.pi / 2) (h : Real.pi / 6 + t ≤ |lat|) (ht : 0 ≤ t) :
    |(toLonLat eps10 (rotatePoint rotation (toXyz lon lat))).2| ≤ Real.pi / 2 - t := by
  have hp := Real.pi_pos
  rw [rotated_lat]
  have hb := rotated_bound lon lat hl
  have e : Real.arcsin (Real.cos (|lat| - Real.pi / 6)) = Real.pi / 2 - (|lat| - Real.pi / 6) := by
    rw [← Real.sin_pi_div_two_sub]
    exact Real.arcsin_sin (by linarith) (by linarith)
  have h1 := Real.monotone_arcsin (abs_le.1 hb).2
  have h2 := Real.monotone_arcsin (abs_le.1 hb).1
  rw [Real.arcsin_neg] at h2
  rw [e] at h1 h2
  exact abs_le.2 ⟨by linarith, by linarith⟩

/-- A polygon at a pole of at most 8 vertices, all more than 30 degrees and the threshold from the equator, has the area that is computed for its image under the rotation (which C35 shows to be one of the
sphere), and the image is away from the poles. -/
theorem C162_polar_partial (small radius t eps10 : ℝ) (ht : 0 ≤ t) (l : List (ℝ × ℝ)) (hp : Polar t l) (h8 : l.length ≤ 8) (hl : ∀ p ∈ l, Real.pi / 6 + t ≤ |p.2| ∧ |p.2| ≤ Real.pi / 2) :
    ¬Polar t (rotatePoly eps10 l) ∧ PolarArea.polyArea true small radius t eps10 l = some (PolyArea.polyArea Real.sin Real.pi small radius (rotatePoly eps10 l)) := by
  have hr : ¬Polar t (rotatePoly eps10 l) := by
    rintro ⟨q, hq, h⟩
    obtain ⟨p, hpl, rfl⟩ := List.mem_map.1 hq
    have := rotated_away eps10 t p.1 p.2 (hl p hpl).2 (hl p hpl).1 ht
    linarith
  refine ⟨hr, ?_⟩
  unfold PolarArea.polyArea
  rw [if_neg (by decide), if_neg (fun q => q.2 ((near_iff t l).2 hp)), if_pos ((near_iff t l).2 hp), if_neg (by omega), if_neg (fun q => hr ((near_iff t _).1 q))]

/-- With the option the program ends at a cell away from the poles that is half a turn wide; without it the cell has an area. -/
theorem C162_half_wrong (small radius t eps10 : ℝ) (hs : small < 3) (l : List (ℝ × ℝ)) (hp : ¬Polar t l) (hh : HalfTurn small l) :
    PolarArea.polyArea true small radius t eps10 l = none ∧ ∃ a, PolarArea.polyArea false small radius t eps10 l = some a := by
  unfold PolarArea.polyArea
  refine ⟨?_, _, if_pos rfl⟩
  rw [if_neg (by decide), if_pos ⟨(crosses_iff small hs l).2 hh, fun q => hp ((near_iff t l).1 q)⟩]

/-- With the option the program ends at a polygon at a pole with more than 8 vertices; without it the polygon has an area. -/
theorem C162_many_wrong (small radius t eps10 : ℝ) (l : List (ℝ × ℝ)) (hp : Polar t l) (h8 : 8 < l.length) :
    PolarArea.polyArea true small radius t eps10 l = none ∧ ∃ a, PolarArea.polyArea false small radius t eps10 l = some a := by
  unfold PolarArea.polyArea
  refine ⟨?_, _, if_pos rfl⟩
  rw [if_neg (by decide), if_neg (fun q => q.2 ((near_iff t l).2 hp)), if_pos ((near_iff t l).2 hp), if_pos h8]

private theorem to_pole (lon : ℝ) (hc : Real.cos lon = -(2 * Real.sqrt (1 / 2) / Real.sqrt 3)) (hs : Real.sin lon = 1 / Real.sqrt 3) : (rotatePoint rotation (toXyz lon (Real.pi / 6))) 2 = 1 := by
  have h30 : Real.sqrt 3 ≠ 0 := by positivity
  rw [rotated_z, Real.cos_pi_div_six, Real.sin_pi_div_six, hc, hs]
  have e : -Real.sqrt (1 / 2) * (Real.sqrt 3 / 2 * -(2 * Real.sqrt (1 / 2) / Real.sqrt 3)) = Real.sqrt (1 / 2) * Real.sqrt (1 / 2) := by field_simp
  have e2 : 1 / 2 * (Real.sqrt 3 / 2 * (1 / Real.sqrt 3)) = 1 / 4 := by field_simp; norm_num
  rw [e, e2, sqrt_half]; norm_num

/-- With the option the program ends at a polygon at a pole that has also the vertex at 30 degrees north that is rotated to the pole (longitude about 144.7 degrees); without it the polygon has an area. -/
theorem C162_far_wrong (small radius t eps10 lon : ℝ) (ht : 0 < t) (hc : Real.cos lon = -(2 * Real.sqrt (1 / 2) / Real.sqrt 3)) (hs : Real.sin lon = 1 / Real.sqrt 3) (l : List (ℝ × ℝ)) (hp : Polar t l)
    (hl : (lon, Real.pi / 6) ∈ l) : PolarArea.polyArea true small radius t eps10 l = none ∧ ∃ a, PolarArea.polyArea false small radius t eps10 l = some a := by
  have hr : Polar t (rotatePoly eps10 l) := by
    refine ⟨_, List.mem_map_of_mem hl, ?_⟩
    simp only
    rw [rotated_lat, to_pole lon hc hs, Real.arcsin_one, abs_of_pos (by linarith [Real.pi_pos])]
    linarith
  unfold PolarArea.polyArea
  refine ⟨?_, _, if_pos rfl⟩
  rw [if_neg (by decide), if_neg (fun q => q.2 ((near_iff t l).2 hp)), if_pos ((near_iff t l).2 hp)]
  by_cases c : 8 < l.length
  · rw [if_pos c]
  · rw [if_neg c, if_pos ((near_iff t _).2 hr)]

/-- There is such a longitude. -/
example : ∃ lon : ℝ, Real.cos lon = -(2 * Real.sqrt (1 / 2) / Real.sqrt 3) ∧ Real.sin lon = 1 / Real.sqrt 3 := by
  have h3 : Real.sqrt 3 * Real.sqrt 3 = 3 := Real.mul_self_sqrt (by norm_num)
  have h30 : 0 < Real.sqrt 3 := by positivity
  have h1 : 1 ≤ Real.sqrt 3 := by nlinarith
  have hle : 1 / Real.sqrt 3 ≤ 1 := by rw [div_le_one h30]; exact h1
  refine ⟨Real.pi - Real.arcsin (1 / Real.sqrt 3), ?_, ?_⟩
  · rw [Real.cos_pi_sub, Real.cos_arcsin]
    congr 1
    rw [Real.sqrt_eq_iff_mul_self_eq_of_pos (by positivity)]
    have e : 2 * Real.sqrt (1 / 2) / Real.sqrt 3 * (2 * Real.sqrt (1 / 2) / Real.sqrt 3) = 4 * (Real.sqrt (1 / 2) * Real.sqrt (1 / 2)) / (Real.sqrt 3 * Real.sqrt 3) := by field_simp; norm_num
    have e2 : (1 / Real.sqrt 3) ^ 2 = 1 / (Real.sqrt 3 * Real.sqrt 3) := by field_simp
    rw [e, e2, sqrt_half, h3]; norm_num
  · rw [Real.sin_pi_sub]
    exact Real.sin_arcsin (by have : 0 < 1 / Real.sqrt 3 := by positivity
                              linarith) hle

/-- A cell of one radian at the equator. -/
example (radius eps10 : ℝ) : PolarArea.polyArea true (1 / 10 ^ 10) radius (174533 / 10 ^ 7) eps10 [(0, 0), (1, 0), (1, 1), (0, 1)] = some (PolyArea.polyArea Real.sin Real.pi (1 / 10 ^ 10) radius [(0, 0), (1, 0), (1, 1), (0, 1)]) := by
  have h3 := Real.pi_gt_three
  refine C162_away_partial _ radius _ eps10 (by norm_num) _ ?_ ?_ true
  · rintro ⟨p, hp, h⟩
    simp at hp
    rcases hp with rfl | rfl | rfl | rfl <;> norm_num at h <;> linarith
  · rintro ⟨i, hi, h⟩
    have hi' : i < 4 := hi
    have := (abs_lt.1 h).1
    interval_cases i <;> norm_num at this <;> linarith

/-- A triangle at the pole. -/
example (radius eps10 : ℝ) : PolarArea.polyArea true (1 / 10 ^ 10) radius (174533 / 10 ^ 7) eps10 [(0, Real.pi / 2), (0, Real.pi / 2 - 1 / 10), (1, Real.pi / 2 - 1 / 10)] =
    some (PolyArea.polyArea Real.sin Real.pi (1 / 10 ^ 10) radius (rotatePoly eps10 [(0, Real.pi / 2), (0, Real.pi / 2 - 1 / 10), (1, Real.pi / 2 - 1 / 10)])) := by
  have h3 := Real.pi_gt_three
  refine (C162_polar_partial _ radius _ eps10 (by norm_num) _ ⟨_, List.mem_cons_self, ?_⟩ (by simp) ?_).2
  · show _ < |Real.pi / 2|
    rw [abs_of_pos (by linarith)]; norm_num
  · intro p hp
    simp at hp
    rcases hp with rfl | rfl | rfl
    · simp only; rw [abs_of_pos (by linarith)]; constructor <;> linarith
    · simp only; rw [abs_of_pos (by norm_num; linarith)]; constructor <;> norm_num <;> linarith
    · simp only; rw [abs_of_pos (by norm_num; linarith)]; constructor <;> norm_num <;> linarith

/-- Half of the tropics. -/
example (radius eps10 : ℝ) : PolarArea.polyArea true (1 / 10 ^ 10) radius (174533 / 10 ^ 7) eps10 [(0, 0), (Real.pi, 0), (Real.pi, 1 / 2), (0, 1 / 2)] = none := by
  have h3 := Real.pi_gt_three
  refine (C162_half_wrong _ radius _ eps10 (by norm_num) _ ?_ ⟨0, by simp, ?_⟩).1
  · rintro ⟨p, hp, h⟩
    simp at hp
    rcases hp with rfl | rfl | rfl | rfl <;> norm_num at h <;> first | linarith | (rw [abs_of_pos (by norm_num)] at h; linarith)
  · show |(|Real.pi - 0|) - Real.pi| < _
    rw [sub_zero, abs_of_pos Real.pi_pos]; norm_num

end Verif
