import Verif.Model.CubeGrid
import Verif.Props.Rotate
import Mathlib.Tactic.Linarith
import Mathlib.Tactic.FieldSimp
import Mathlib.Tactic.Positivity
import Mathlib.Tactic.Ring
/-
C84: stretching of a cubed sphere grid.
-/
namespace Verif.CubeGrid

open Verif.Vec3 Verif.Spec

/-! ### Stretching -/

/-- The fraction whose arcsine is the new latitude -/
noncomputable def stretchSin (c s : ℝ) : ℝ := ((1 - c * c) + (1 + c * c) * s) / ((1 + c * c) + (1 - c * c) * s)

theorem stretch_den {c s : ℝ} (hc : 0 < c) (h1 : -1 ≤ s) (h2 : s ≤ 1) : 0 < (1 + c * c) + (1 - c * c) * s := by
  have h : (1 + c * c) + (1 - c * c) * s = (1 + s) + c * c * (1 - s) := by ring
  rw [h]
  rcases eq_or_lt_of_le h1 with h3 | h3
  · rw [← h3]; nlinarith [mul_pos hc hc]
  · nlinarith [mul_pos hc hc, mul_nonneg (mul_pos hc hc).le (sub_nonneg.2 h2)]

theorem stretchSin_range {c s : ℝ} (hc : 0 < c) (h1 : -1 ≤ s) (h2 : s ≤ 1) :
    -1 ≤ stretchSin c s ∧ stretchSin c s ≤ 1 := by
  have hd := stretch_den hc h1 h2
  unfold stretchSin
  constructor
  · rw [le_div_iff₀ hd]; nlinarith
  · rw [div_le_one hd]; nlinarith [mul_nonneg (mul_pos hc hc).le (sub_nonneg.2 h2)]

theorem one_sub_stretch {c s : ℝ} (hc : 0 < c) (h1 : -1 ≤ s) (h2 : s ≤ 1) :
    1 - stretchSin c s = 2 * (c * c) * (1 - s) / ((1 + c * c) + (1 - c * c) * s) := by
  have hd := (stretch_den hc h1 h2).ne'
  unfold stretchSin
  rw [eq_div_iff hd, sub_mul, div_mul_cancel₀ _ hd]
  ring

theorem one_add_stretch {c s : ℝ} (hc : 0 < c) (h1 : -1 ≤ s) (h2 : s ≤ 1) :
    1 + stretchSin c s = 2 * (1 + s) / ((1 + c * c) + (1 - c * c) * s) := by
  have hd := (stretch_den hc h1 h2).ne'
  unfold stretchSin
  rw [eq_div_iff hd, add_mul, div_mul_cancel₀ _ hd]
  ring

theorem stretchLat_sin {eps7 c lat : ℝ} (hc : 0 < c) (he : eps7 < |1 - c * c|) :
    Real.sin (stretchLat eps7 c lat) = stretchSin c (Real.sin lat) := by
  have hr := stretchSin_range hc (Real.neg_one_le_sin lat) (Real.sin_le_one lat)
  unfold stretchLat
  dsimp only
  rw [if_pos he]
  exact Real.sin_arcsin hr.1 hr.2

theorem stretchLat_range (eps7 c lat : ℝ) (h : |lat| ≤ Real.pi / 2) : |stretchLat eps7 c lat| ≤ Real.pi / 2 := by
  unfold stretchLat
  dsimp only
  split_ifs
  · exact abs_le.2 ⟨Real.neg_pi_div_two_le_arcsin _, Real.arcsin_le_pi_div_two _⟩
  · exact h

theorem tan_half {x : ℝ} (h1 : -(Real.pi / 2) < x) (h2 : x ≤ Real.pi / 2) :
    Real.tan (Real.pi / 4 - x / 2) = Real.sqrt ((1 - Real.sin x) / (1 + Real.sin x)) := by
  have hpi := Real.pi_pos
  have hc : 0 < Real.cos (Real.pi / 4 - x / 2) := Real.cos_pos_of_mem_Ioo ⟨by linarith, by linarith⟩
  have hs : 0 ≤ Real.sin (Real.pi / 4 - x / 2) := Real.sin_nonneg_of_nonneg_of_le_pi (by linarith) (by linarith)
  have e : Real.cos (2 * (Real.pi / 4 - x / 2)) = Real.sin x := by
    rw [show 2 * (Real.pi / 4 - x / 2) = Real.pi / 2 - x by ring, Real.cos_pi_div_two_sub]
  have e1 : 1 - Real.sin x = 2 * Real.sin (Real.pi / 4 - x / 2) ^ 2 := by
    rw [← e, Real.cos_two_mul]; nlinarith [Real.sin_sq_add_cos_sq (Real.pi / 4 - x / 2)]
  have e2 : 1 + Real.sin x = 2 * Real.cos (Real.pi / 4 - x / 2) ^ 2 := by
    rw [← e, Real.cos_two_mul]; ring
  rw [e1, e2, Real.tan_eq_sin_div_cos]
  symm
  rw [Real.sqrt_eq_iff_mul_self_eq (by positivity) (by positivity)]
  field_simp

/-- Stretching by the factor `c` multiplies the distance from the north pole in the stereographic projection by `c` and keeps
the longitude. -/
theorem C84_stereographic (eps7 c lat : ℝ) (hc : 0 < c) (he : eps7 < |1 - c * c|) (h1 : -(Real.pi / 2) < lat)
    (h2 : lat ≤ Real.pi / 2) :
    Real.tan (Real.pi / 4 - stretchLat eps7 c lat / 2) = c * Real.tan (Real.pi / 4 - lat / 2) := by
  have hs := stretchLat_sin (lat := lat) hc he
  have hl := Real.neg_one_le_sin lat
  have hu := Real.sin_le_one lat
  have hl' : -1 < Real.sin lat := by
    have e : Real.sin (-(Real.pi / 2)) = -1 := by rw [Real.sin_neg, Real.sin_pi_div_two]
    rw [← e]
    exact Real.strictMonoOn_sin ⟨by linarith [Real.pi_pos], by linarith [Real.pi_pos]⟩ ⟨h1.le, h2⟩ h1
  have hd := stretch_den hc hl hu
  have ha := one_add_stretch hc hl hu
  have hr := abs_le.1 (stretchLat_range eps7 c lat (abs_le.2 ⟨h1.le, h2⟩))
  have hlo : -(Real.pi / 2) < stretchLat eps7 c lat := by
    rcases eq_or_lt_of_le hr.1 with h | h
    · exfalso
      have h3 : Real.sin (stretchLat eps7 c lat) = -1 := by rw [← h, Real.sin_neg, Real.sin_pi_div_two]
      rw [hs] at h3
      rw [h3] at ha
      have : 0 < 2 * (1 + Real.sin lat) / ((1 + c * c) + (1 - c * c) * Real.sin lat) := by
        apply div_pos _ hd; linarith
      linarith
    · exact h
  rw [tan_half hlo hr.2, tan_half h1 h2, hs, one_sub_stretch hc hl hu, ha]
  have h0 : 0 < 1 + Real.sin lat := by linarith
  generalize (1 + c * c) + (1 - c * c) * Real.sin lat = D at hd
  rw [show 2 * (c * c) * (1 - Real.sin lat) / D / (2 * (1 + Real.sin lat) / D)
      = (c * c) * ((1 - Real.sin lat) / (1 + Real.sin lat)) by field_simp,
    Real.sqrt_mul (mul_pos hc hc).le, Real.sqrt_mul_self hc.le]

/-- Both poles stay where they are. -/
theorem C84_poles (eps7 c : ℝ) (hc : 0 < c) :
    stretchLat eps7 c (Real.pi / 2) = Real.pi / 2 ∧ stretchLat eps7 c (-(Real.pi / 2)) = -(Real.pi / 2) := by
  have h1 := stretch_den hc (by norm_num : (-1 : ℝ) ≤ 1) le_rfl
  have h2 := stretch_den hc le_rfl (by norm_num : (-1 : ℝ) ≤ 1)
  unfold stretchLat
  dsimp only
  constructor
  · split_ifs
    · rw [Real.sin_pi_div_two, show (1 - c * c + (1 + c * c) * 1) / (1 + c * c + (1 - c * c) * 1) = 1 by
        rw [div_eq_one_iff_eq h1.ne']; ring, Real.arcsin_one]
    · rfl
  · split_ifs
    · rw [Real.sin_neg, Real.sin_pi_div_two, show (1 - c * c + (1 + c * c) * -1) / (1 + c * c + (1 - c * c) * -1) = -1 by
        rw [div_eq_iff h2.ne']; ring, Real.arcsin_neg, Real.arcsin_one]
    · rfl

/-- Stretching keeps the order of latitudes: no two rows of points are exchanged or fall together. -/
theorem C84_order (eps7 c lat lat' : ℝ) (hc : 0 < c) (h1 : -(Real.pi / 2) ≤ lat) (h : lat < lat')
    (h2 : lat' ≤ Real.pi / 2) : stretchLat eps7 c lat < stretchLat eps7 c lat' := by
  have hpi := Real.pi_pos
  have hs : Real.sin lat < Real.sin lat' :=
    Real.strictMonoOn_sin ⟨by linarith, by linarith⟩ ⟨by linarith, by linarith⟩ h
  by_cases he : eps7 < |1 - c * c|
  · have a := Real.neg_one_le_sin lat
    have a' := Real.neg_one_le_sin lat'
    have b := Real.sin_le_one lat
    have b' := Real.sin_le_one lat'
    have r := stretchSin_range hc a b
    have r' := stretchSin_range hc a' b'
    have key : stretchSin c (Real.sin lat) < stretchSin c (Real.sin lat') := by
      unfold stretchSin
      rw [div_lt_div_iff₀ (stretch_den hc a b) (stretch_den hc a' b')]
      nlinarith [mul_pos (mul_pos hc hc) (sub_pos.2 hs)]
    unfold stretchLat
    dsimp only
    rw [if_pos he, if_pos he]
    exact Real.strictMonoOn_arcsin ⟨r.1, r.2⟩ ⟨r'.1, r'.2⟩ key
  · unfold stretchLat
    dsimp only
    rw [if_neg he, if_neg he]
    exact h

/-- Stretching by `c` and then by `d` is stretching by `c * d`, if no factor is so close to 1 that it is ignored. -/
theorem C84_compose (eps7 c d lat : ℝ) (hc : 0 < c) (hd : 0 < d) (h1 : eps7 < |1 - c * c|) (h2 : eps7 < |1 - d * d|)
    (h3 : eps7 < |1 - c * d * (c * d)|) :
    stretchLat eps7 d (stretchLat eps7 c lat) = stretchLat eps7 (c * d) lat := by
  have a := Real.neg_one_le_sin lat
  have b := Real.sin_le_one lat
  have hs := stretchLat_sin (lat := lat) hc h1
  have r := stretchSin_range hc a b
  have e1 := (stretch_den hc a b).ne'
  have e2 := (stretch_den (mul_pos hc hd) a b).ne'
  have e3 := (stretch_den hd r.1 r.2).ne'
  have e : stretchSin d (stretchSin c (Real.sin lat)) = stretchSin (c * d) (Real.sin lat) := by
    have p1 := one_sub_stretch hd r.1 r.2
    rw [one_sub_stretch hc a b] at p1
    have p2 := one_sub_stretch (mul_pos hc hd) a b
    have hden : (1 + d * d) + (1 - d * d) * stretchSin c (Real.sin lat)
        = 2 * ((1 + c * d * (c * d)) + (1 - c * d * (c * d)) * Real.sin lat)
          / ((1 + c * c) + (1 - c * c) * Real.sin lat) := by
      unfold stretchSin
      rw [eq_div_iff e1, add_mul, mul_assoc (1 - d * d), div_mul_cancel₀ _ e1]
      ring
    rw [hden] at p1
    have : 1 - stretchSin d (stretchSin c (Real.sin lat)) = 1 - stretchSin (c * d) (Real.sin lat) := by
      rw [p1, p2]
      generalize (1 + c * c) + (1 - c * c) * Real.sin lat = D at e1
      generalize (1 + c * d * (c * d)) + (1 - c * d * (c * d)) * Real.sin lat = E at e2
      field_simp
    linarith
  conv_lhs => unfold stretchLat
  conv_rhs => unfold stretchLat
  dsimp only
  rw [if_pos h2, if_pos h3]
  have hs' : Real.sin (if |1 - c * c| > eps7 then Real.arcsin ((1 - c * c + (1 + c * c) * Real.sin lat)
      / (1 + c * c + (1 - c * c) * Real.sin lat)) else lat) = stretchSin c (Real.sin lat) := hs
  rw [hs']
  exact congrArg Real.arcsin e

/-- Twice factor 2 is factor 4 at every latitude. -/
example (lat : ℝ) : stretchLat (1 / 10) 2 (stretchLat (1 / 10) 2 lat) = stretchLat (1 / 10) (2 * 2) lat :=
  C84_compose _ 2 2 lat (by norm_num) (by norm_num) (by norm_num) (by norm_num) (by norm_num)

/-- Factor 3 at the equator -/
example : Real.tan (Real.pi / 4 - stretchLat (1 / 10) 3 0 / 2) = 3 := by
  rw [C84_stereographic _ 3 0 (by norm_num) (by norm_num) (by linarith [Real.pi_pos]) (by linarith [Real.pi_pos])]
  simp

/-! ### Rotation -/

/-- The rotation as a linear map -/
noncomputable def turn (lonP latP : ℝ) (v : V ℝ) : V ℝ :=
  let x := Real.sin latP * v 0 - Real.cos latP * v 2
  let y := -v 1
  ![x * Real.cos lonP - y * Real.sin lonP, x * Real.sin lonP + y * Real.cos lonP,
    -(Real.cos latP * v 0) - Real.sin latP * v 2]

theorem turn_inner (lonP latP : ℝ) (u v : V ℝ) : inner3 (turn lonP latP u) (turn lonP latP v) = inner3 u v := by
  have h1 := Real.sin_sq_add_cos_sq lonP
  have h2 := Real.sin_sq_add_cos_sq latP
  simp [inner3, turn]
  linear_combination ((Real.sin latP * u 0 - Real.cos latP * u 2) * (Real.sin latP * v 0 - Real.cos latP * v 2)
    + u 1 * v 1) * h1 + (u 0 * v 0 + u 2 * v 2) * h2

theorem turn_volume (lonP latP : ℝ) (u v w : V ℝ) :
    volume3 (turn lonP latP u) (turn lonP latP v) (turn lonP latP w) = volume3 u v w := by
  have h1 := Real.sin_sq_add_cos_sq lonP
  have h2 := Real.sin_sq_add_cos_sq latP
  simp [volume3, turn]
  set d := u 0 * (v 1 * w 2 - v 2 * w 1) - u 1 * (v 0 * w 2 - v 2 * w 0) + u 2 * (v 0 * w 1 - v 1 * w 0) with hd
  linear_combination ((Real.sin latP ^ 2 + Real.cos latP ^ 2) * d) * h1 + d * h2 +
    (1 - (Real.sin latP ^ 2 + Real.cos latP ^ 2) * (Real.sin lonP ^ 2 + Real.cos lonP ^ 2)) * hd

theorem turn_south (lonP latP : ℝ) : turn lonP latP ![0, 0, -1] = spherePoint (lonP, latP) := by
  funext i
  fin_cases i <;> simp [turn, spherePoint]

/-- Third component after the rotation -/
theorem turn_z (lonP latP lon lat : ℝ) : turn lonP latP (spherePoint (lon, lat)) 2
    = -(Real.sin latP * Real.sin lat + Real.cos latP * Real.cos lat * Real.cos lon) := by
  simp [turn, spherePoint]; ring

theorem spherePoint_wrap (l lat : ℝ) :
    spherePoint (if l < 0 then l + 2 * Real.pi else if l ≥ 2 * Real.pi then l - 2 * Real.pi else l, lat)
      = spherePoint (l, lat) := by
  split_ifs
  · simp [spherePoint, Real.cos_add_two_pi, Real.sin_add_two_pi]
  · simp [spherePoint, Real.cos_sub_two_pi, Real.sin_sub_two_pi]
  · rfl

theorem rotate_far (eps7 lonP latP lon lat : ℝ) (he : 0 < eps7)
    (h : ¬ 1 - |turn lonP latP (spherePoint (lon, lat)) 2| < eps7) :
    spherePoint (rotate eps7 lonP latP lon lat) = turn lonP latP (spherePoint (lon, lat)) := by
  have hz := turn_z lonP latP lon lat
  rw [hz] at h
  have hon : OnSphere (turn lonP latP (spherePoint (lon, lat))) := by
    unfold OnSphere; rw [turn_inner]; exact onSphere_point _
  have hs1 := Real.sin_sq_add_cos_sq lonP
  have hs2 := Real.sin_sq_add_cos_sq latP
  have hs3 := Real.sin_sq_add_cos_sq lon
  have hs4 := Real.sin_sq_add_cos_sq lat
  unfold rotate
  dsimp only
  rw [if_neg h, spherePoint_wrap]
  set so := -(Real.sin latP * Real.sin lat + Real.cos latP * Real.cos lat * Real.cos lon) with hso
  set x := -Real.sin lat * Real.cos latP + Real.cos lat * Real.sin latP * Real.cos lon with hx
  set y := -Real.cos lat * Real.sin lon with hy
  have habs : |so| < 1 := by linarith
  have hb := abs_lt.1 habs
  have hxy : x ^ 2 + y ^ 2 = 1 - so ^ 2 := by
    rw [hx, hy, hso]
    linear_combination (Real.sin lat ^ 2 + Real.cos lat ^ 2 * Real.cos lon ^ 2) * hs2 + Real.cos lat ^ 2 * hs3 + hs4
  have hpos : 0 < x ^ 2 + y ^ 2 := by rw [hxy]; nlinarith
  have hne : (⟨x, y⟩ : ℂ) ≠ 0 := by
    intro e
    have e0 : x = 0 := by simpa using congrArg Complex.re e
    have e1 : y = 0 := by simpa using congrArg Complex.im e
    rw [e0, e1] at hpos; norm_num at hpos
  obtain ⟨hc, hsn⟩ := atan2_cos hne
  rw [hxy, ← Real.cos_arcsin] at hc hsn
  have hsa : Real.sin (Real.arcsin so) = so := Real.sin_arcsin hb.1.le hb.2.le
  funext i
  fin_cases i
  · simp [spherePoint, turn, Real.cos_add]
    linear_combination Real.cos lonP * hc - Real.sin lonP * hsn + Real.cos lonP * hx - Real.sin lonP * hy
  · simp [spherePoint, turn, Real.sin_add]
    linear_combination Real.sin lonP * hc + Real.cos lonP * hsn + Real.sin lonP * hx + Real.cos lonP * hy
  · simp [spherePoint, turn, hsa]
    rw [hso]; ring

theorem rotate_near (eps7 lonP latP lon lat : ℝ)
    (h : 1 - |turn lonP latP (spherePoint (lon, lat)) 2| < eps7) :
    dist2 (spherePoint (rotate eps7 lonP latP lon lat)) (turn lonP latP (spherePoint (lon, lat))) < 2 * eps7 := by
  have hz := turn_z lonP latP lon lat
  have hon : inner3 (turn lonP latP (spherePoint (lon, lat))) (turn lonP latP (spherePoint (lon, lat))) = 1 := by
    rw [turn_inner]; exact onSphere_point _
  unfold rotate
  dsimp only
  rw [← hz, if_pos h]
  generalize turn lonP latP (spherePoint (lon, lat)) = w at h hon
  unfold inner3 at hon
  split_ifs with hneg
  · rw [abs_of_neg hneg] at h
    simp [dist2, inner3, spherePoint]
    nlinarith
  · rw [abs_of_nonneg (not_lt.1 hneg)] at h
    simp [dist2, inner3, spherePoint]
    nlinarith

/-- The rotation of `direct_transform` and `cube_transform` is one rotation of the sphere. It sends the south pole to the target
point. Points within the threshold of a pole are put on the pole, which moves them by less than `√(2·eps7)`. -/
theorem C84_rotation (eps7 lonP latP : ℝ) (he : 0 < eps7) :
    ∃ R : V ℝ → V ℝ, (∀ u v, inner3 (R u) (R v) = inner3 u v) ∧ (∀ u v w, volume3 (R u) (R v) (R w) = volume3 u v w) ∧
      R ![0, 0, -1] = spherePoint (lonP, latP) ∧
      ∀ lon lat, (eps7 ≤ 1 - |R (spherePoint (lon, lat)) 2| →
          spherePoint (rotate eps7 lonP latP lon lat) = R (spherePoint (lon, lat))) ∧
        dist2 (spherePoint (rotate eps7 lonP latP lon lat)) (R (spherePoint (lon, lat))) < 2 * eps7 := by
  refine ⟨turn lonP latP, turn_inner lonP latP, turn_volume lonP latP, turn_south lonP latP, fun lon lat => ⟨?_, ?_⟩⟩
  · intro h; exact rotate_far _ _ _ _ _ he (not_lt.2 h)
  · by_cases h : 1 - |turn lonP latP (spherePoint (lon, lat)) 2| < eps7
    · exact rotate_near _ _ _ _ _ h
    · rw [rotate_far _ _ _ _ _ he h]
      simp [dist2, inner3]
      linarith

/-- Every result is a longitude in `[0, 2π)` and a latitude in `[-π/2, π/2]`. -/
theorem C84_range (eps7 c lonP latP : ℝ) (p : LonLat) (h0 : 0 ≤ lonP) (h1 : lonP < 2 * Real.pi) :
    (0 ≤ (direct eps7 c lonP latP p).1 ∧ (direct eps7 c lonP latP p).1 < 2 * Real.pi ∧
      |(direct eps7 c lonP latP p).2| ≤ Real.pi / 2) ∧
    0 ≤ (cubeTransform eps7 c lonP latP p).1 ∧ (cubeTransform eps7 c lonP latP p).1 < 2 * Real.pi ∧
      |(cubeTransform eps7 c lonP latP p).2| ≤ Real.pi / 2 := by
  have hpi := Real.pi_pos
  have key : ∀ lon lat, 0 ≤ (rotate eps7 lonP latP lon lat).1 ∧ (rotate eps7 lonP latP lon lat).1 < 2 * Real.pi ∧
      |(rotate eps7 lonP latP lon lat).2| ≤ Real.pi / 2 := by
    intro lon lat
    unfold rotate
    dsimp only
    split_ifs
    all_goals
      dsimp only
    · exact ⟨le_rfl, by linarith, by rw [abs_neg, abs_of_pos (by linarith)]⟩
    · exact ⟨le_rfl, by linarith, by rw [abs_of_pos (by linarith)]⟩
    all_goals
      have ha := Complex.neg_pi_lt_arg (⟨-Real.sin lat * Real.cos latP + Real.cos lat * Real.sin latP * Real.cos lon,
        -Real.cos lat * Real.sin lon⟩ : ℂ)
      have hb := Complex.arg_le_pi (⟨-Real.sin lat * Real.cos latP + Real.cos lat * Real.sin latP * Real.cos lon,
        -Real.cos lat * Real.sin lon⟩ : ℂ)
      unfold atan2 at *
      refine ⟨by linarith, by linarith, abs_le.2 ⟨Real.neg_pi_div_two_le_arcsin _, Real.arcsin_le_pi_div_two _⟩⟩
  exact ⟨key _ _, key _ _⟩

/-- The south pole, which is where the grid is finest for a factor above 1, goes to the target point. -/
theorem C84_target (eps7 c lonP latP lon : ℝ) (he : 0 < eps7) (hc : 0 < c) (h : eps7 ≤ 1 - |Real.sin latP|) :
    spherePoint (direct eps7 c lonP latP (lon, -(Real.pi / 2))) = spherePoint (lonP, latP) ∧
    spherePoint (cubeTransform eps7 c lonP latP (lon, -(Real.pi / 2))) = spherePoint (lonP, latP) := by
  have hp : ∀ l : ℝ, spherePoint (l, -(Real.pi / 2)) = ![0, 0, -1] := by
    intro l; funext i; fin_cases i <;> simp [spherePoint]
  have key : ∀ l : ℝ, spherePoint (rotate eps7 lonP latP l (-(Real.pi / 2))) = spherePoint (lonP, latP) := by
    intro l
    rw [rotate_far _ _ _ _ _ he, hp, turn_south]
    rw [hp, turn_south, not_lt]
    simpa [spherePoint] using h
  unfold direct cubeTransform
  dsimp only
  rw [(C84_poles eps7 c hc).2]
  exact ⟨key _, key _⟩

/-- With a factor of 1 the distances of all points stay, up to the threshold at the poles. -/
theorem C84_no_stretching (eps7 lonP latP : ℝ) (he : 0 < eps7) (p q : LonLat)
    (hp : eps7 ≤ 1 - |Real.sin (direct eps7 1 lonP latP p).2|)
    (hq : eps7 ≤ 1 - |Real.sin (direct eps7 1 lonP latP q).2|) :
    dist2 (spherePoint (direct eps7 1 lonP latP p)) (spherePoint (direct eps7 1 lonP latP q))
      = dist2 (spherePoint p) (spherePoint q) := by
  have h1 : ∀ lat, stretchLat eps7 1 lat = lat := by
    intro lat; unfold stretchLat; dsimp only; rw [if_neg]; simp [he.le]
  have far : ∀ p : LonLat, eps7 ≤ 1 - |Real.sin (direct eps7 1 lonP latP p).2| →
      spherePoint (direct eps7 1 lonP latP p) = turn lonP latP (spherePoint p) := by
    intro p hp
    unfold direct at hp ⊢
    rw [h1] at hp ⊢
    refine rotate_far _ _ _ _ _ he ?_
    intro hn
    unfold rotate at hp
    dsimp only at hp
    rw [← turn_z lonP, if_pos hn] at hp
    split_ifs at hp <;> simp at hp <;> linarith
  rw [far p hp, far q hq]
  have e : turn lonP latP (spherePoint p) - turn lonP latP (spherePoint q) = turn lonP latP (spherePoint p - spherePoint q) := by
    funext i
    fin_cases i <;> simp [turn] <;> ring
  unfold dist2
  rw [e, turn_inner]

/-- A grid for the target point 90° E, 30° N with factor 3 -/
example : spherePoint (direct (1 / 10) 3 (Real.pi / 2) (Real.pi / 6) (1, -(Real.pi / 2)))
    = spherePoint (Real.pi / 2, Real.pi / 6) :=
  (C84_target _ 3 _ _ 1 (by norm_num) (by norm_num) (by rw [Real.sin_pi_div_six]; norm_num)).1

end Verif.CubeGrid
