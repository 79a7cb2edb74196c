import Verif.Model.VaporTable
import Mathlib.Analysis.SpecialFunctions.Pow.Continuity
import Mathlib.Topology.Order.Lattice
import Mathlib.Tactic.Linarith
import Mathlib.Tactic.FieldSimp
/-
C155: moisture conversions of plevel.
-/
noncomputable section
namespace Verif
open VaporTable Plevel Real

namespace Spec.VaporTable
/-- The formulas of Goff and Gratch: common logarithm of the pressure over water relative to that at the boiling point `ts`, and over ice relative to that at the freezing point `t0`. -/
def goffGratchWater (ts t : ℝ) : ℝ :=
  7.90298 * (1 - ts / t) + 5.02808 * logb 10 (ts / t) - 1.3816e-7 * ((10 : ℝ) ^ (11.344 * (1 - t / ts)) - 1) + 8.1328e-3 * ((10 : ℝ) ^ (3.49149 * (1 - ts / t)) - 1)
def goffGratchIce (t0 t : ℝ) : ℝ := 9.09718 * (1 - t0 / t) - 3.56654 * logb 10 (t0 / t) + 0.876793 * (1 - t / t0)
/-- A difference quotient. -/
def slope (f : ℝ → ℝ) (t h : ℝ) : ℝ := (f (t + h) - f (t - h)) / (2 * h)
end Spec.VaporTable
open Spec.VaporTable

/-- The pressures over water and ice are those of Goff and Gratch, 101324.6 Pa at 373.16 K and 610.71 Pa at 273.16 K. -/
theorem C155_goff_gratch (t : ℝ) :
    logb 10 (water t) = goffGratchWater 373.16 t + logb 10 101324.6 ∧ logb 10 (ice t) = goffGratchIce 273.16 t + logb 10 610.71 ∧ water 373.16 = 101324.6 ∧ ice 273.16 = 610.71 := by
  have eb : tbasw = 373.16 := by unfold tbasw tbasi; norm_num
  have hw : ∀ t : ℝ, water t = (10 : ℝ) ^ (goffGratchWater 373.16 t + logb 10 101324.6) := by
    intro t
    unfold water goffGratchWater log10 esbasw
    rw [eb]
    congr 1
    rw [show (1 - t / (373.16 : ℝ)) * 11.344 = 11.344 * (1 - t / 373.16) by ring, show ((373.16 : ℝ) / t - 1) * (-3.49149) = 3.49149 * (1 - 373.16 / t) by ring]
    norm_num
    ring
  have hi : ∀ t : ℝ, ice t = (10 : ℝ) ^ (goffGratchIce 273.16 t + logb 10 610.71) := by
    intro t
    unfold ice goffGratchIce log10 esbasi tbasi
    congr 1
    ring
  refine ⟨by rw [hw, logb_rpow (by norm_num) (by norm_num)], by rw [hi, logb_rpow (by norm_num) (by norm_num)], ?_, ?_⟩
  · rw [hw]
    unfold goffGratchWater
    rw [div_self (by norm_num), logb_one, sub_self, mul_zero, mul_zero, mul_zero, mul_zero, rpow_zero, sub_self, mul_zero, mul_zero, add_zero, sub_zero, add_zero, zero_add,
      rpow_logb (by norm_num) (by norm_num) (by norm_num)]
  · rw [hi]
    unfold goffGratchIce
    rw [div_self (by norm_num), logb_one, sub_self, mul_zero, mul_zero, mul_zero, sub_zero, add_zero, zero_add, rpow_logb (by norm_num) (by norm_num) (by norm_num)]

private theorem ice_pos (t : ℝ) : 0 < ice t := rpow_pos_of_pos (by norm_num) _
private theorem water_pos (t : ℝ) : 0 < water t := rpow_pos_of_pos (by norm_num) _

/-- Over ice up to -20 degrees, over water from 0 degrees, between them a weighted mean of both, with weights that change linearly from one to the other. -/
theorem C155_blend (t : ℝ) :
    (t ≤ tbasi - 20 → computeEs t = ice t) ∧ (tbasi ≤ t → computeEs t = water t) ∧
    (tbasi - 20 < t → t < tbasi → ∃ w, 0 < w ∧ w < 1 ∧ computeEs t = w * ice t + (1 - w) * water t ∧ w * (tbasi - 20) + (1 - w) * tbasi = t) := by
  unfold computeEs
  refine ⟨fun h => ?_, fun h => ?_, fun h1 h2 => ⟨(tbasi - t) / 20, by linarith, by linarith, ?_, by ring⟩⟩
  · simp only
    rw [if_pos (show t ≤ -20 + tbasi by linarith), if_pos (show t < tbasi by linarith)]
  · simp only
    rw [if_neg (show ¬t ≤ -20 + tbasi by linarith), if_pos h, if_pos (show -20 + tbasi < t by linarith)]
  · simp only
    rw [if_neg (show ¬t ≤ -20 + tbasi by linarith), if_neg (show ¬tbasi ≤ t by linarith), if_pos h2, if_pos (show -20 + tbasi < t by linarith)]
    ring

/-- It is positive. -/
theorem C155_positive (t : ℝ) : 0 < computeEs t := by
  obtain ⟨h1, h2, h3⟩ := C155_blend t
  by_cases a : t ≤ tbasi - 20
  · rw [h1 a]; exact ice_pos t
  · by_cases b : tbasi ≤ t
    · rw [h2 b]; exact water_pos t
    · obtain ⟨w, w0, w1, e, _⟩ := h3 (not_le.1 a) (not_le.1 b)
      rw [e]
      exact add_pos (mul_pos w0 (ice_pos t)) (mul_pos (by linarith) (water_pos t))

private theorem blend_eq (t : ℝ) : computeEs t = max 0 (min 1 ((tbasi - t) / 20)) * ice t + (1 - max 0 (min 1 ((tbasi - t) / 20))) * water t := by
  obtain ⟨h1, h2, h3⟩ := C155_blend t
  by_cases a : t ≤ tbasi - 20
  · rw [h1 a, min_eq_left (by linarith), max_eq_right (by norm_num)]; ring
  · by_cases b : tbasi ≤ t
    · rw [h2 b, min_eq_right (by linarith), max_eq_left (by linarith)]; ring
    · obtain ⟨w, w0, w1, e, q⟩ := h3 (not_le.1 a) (not_le.1 b)
      have : (tbasi - t) / 20 = w := by linarith
      rw [this, min_eq_right w1.le, max_eq_right w0.le, e]

/-- It has no jumps. -/
theorem C155_continuous : ContinuousOn computeEs (Set.Ioi 0) := by
  have hb : tbasi ≠ 0 := by unfold tbasi; norm_num
  have hw : tbasw ≠ 0 := by unfold tbasw tbasi; norm_num
  have di : ContinuousOn (fun t : ℝ => tbasi / t) (Set.Ioi 0) := continuousOn_const.div continuousOn_id fun x hx => ne_of_gt hx
  have dw : ContinuousOn (fun t : ℝ => tbasw / t) (Set.Ioi 0) := continuousOn_const.div continuousOn_id fun x hx => ne_of_gt hx
  have li : ContinuousOn (fun t : ℝ => log10 (tbasi / t)) (Set.Ioi 0) :=
    (di.log fun x hx => div_ne_zero hb (ne_of_gt hx)).div_const _
  have lw : ContinuousOn (fun t : ℝ => log10 (tbasw / t)) (Set.Ioi 0) :=
    (dw.log fun x hx => div_ne_zero hw (ne_of_gt hx)).div_const _
  have pw : ∀ f : ℝ → ℝ, ContinuousOn f (Set.Ioi 0) → ContinuousOn (fun t => (10 : ℝ) ^ f t) (Set.Ioi 0) := fun f hf =>
    continuousOn_const.rpow hf fun _ _ => .inl (by norm_num)
  have ci : ContinuousOn ice (Set.Ioi 0) := by
    refine pw _ ?_
    exact (((continuousOn_const.mul (di.sub continuousOn_const)).sub (continuousOn_const.mul li)).add
      (continuousOn_const.mul (continuousOn_const.sub (continuousOn_id.div_const _)))).add continuousOn_const
  have cw : ContinuousOn water (Set.Ioi 0) := by
    refine pw _ ?_
    exact ((((continuousOn_const.mul (dw.sub continuousOn_const)).add (continuousOn_const.mul lw)).sub
      (continuousOn_const.mul ((pw _ ((continuousOn_const.sub (continuousOn_id.div_const _)).mul continuousOn_const)).sub continuousOn_const))).add
      (continuousOn_const.mul ((pw _ ((dw.sub continuousOn_const).mul continuousOn_const)).sub continuousOn_const))).add continuousOn_const
  have cm : ContinuousOn (fun t : ℝ => max 0 (min 1 ((tbasi - t) / 20))) (Set.Ioi 0) :=
    (by fun_prop : Continuous fun t : ℝ => max 0 (min 1 ((tbasi - t) / 20))).continuousOn
  exact ((cm.mul ci).add ((continuousOn_const.sub cm).mul cw)).congr fun t _ => blend_eq t

private theorem lookup_at {temp : ℝ} {i : Int} (h0 : 0 ≤ i) (h1 : i ≤ 2600) (ht : truncate (dtinv * (temp - tmin + teps)) = i) :
    lookup temp = .value (table (i + 1) + (temp - tmin - dtres * (i : ℝ)) * (dtable (i + 1) + (temp - tmin - dtres * (i : ℝ)) * d2table (i + 1))) := by
  unfold lookup
  simp only
  rw [ht, if_neg (by unfold nsize; omega), if_neg (by unfold nlim nsize; omega)]

private theorem lookup_out {temp : ℝ} {i : Int} (h : i < 0 ∨ 2600 < i) (ht : truncate (dtinv * (temp - tmin + teps)) = i) : lookup temp = .outside := by
  unfold lookup
  simp only
  rw [ht, if_pos (by unfold nsize; omega)]

/-- From the first to the last temperature of the table (113.16 to 373.16) and a twentieth of a degree beyond, the nearest entry is used, with the first and second derivative of the table. -/
theorem C155_nearest (temp : ℝ) (h0 : tmin - 1 / 20 ≤ temp) (h1 : temp < tmin + 260 + 1 / 20) :
    ∃ i : Nat, i ≤ 2600 ∧ |temp - (tmin + i / 10)| ≤ 1 / 20 ∧ ∃ d d2, lookup temp = .value (computeEs (tmin + i / 10) + (temp - (tmin + i / 10)) * (d + (temp - (tmin + i / 10)) * d2)) ∧
      d = slope computeEs (tmin + i / 10) (1 / 100) ∧ (0 < i → i < 2600 → d2 = slope (fun t => slope computeEs t (1 / 100)) (tmin + i / 10) (1 / 10) / 2) := by
  have hx : 0 ≤ dtinv * (temp - tmin + teps) := by unfold dtinv teps; linarith
  have hx1 : dtinv * (temp - tmin + teps) < 2601 := by unfold dtinv teps; linarith
  have ht : truncate (dtinv * (temp - tmin + teps)) = ⌊dtinv * (temp - tmin + teps)⌋ := if_pos hx
  obtain ⟨i, hi⟩ : ∃ i : Nat, ⌊dtinv * (temp - tmin + teps)⌋ = (i : Int) := ⟨_, (Int.toNat_of_nonneg (Int.floor_nonneg.2 hx)).symm⟩
  have hle : i ≤ 2600 := by
    have : ⌊dtinv * (temp - tmin + teps)⌋ < 2601 := Int.floor_lt.2 (by push_cast; exact hx1)
    omega
  have f1 := Int.floor_le (dtinv * (temp - tmin + teps))
  have f2 := Int.lt_floor_add_one (dtinv * (temp - tmin + teps))
  rw [hi] at f1 f2
  push_cast at f1 f2
  unfold dtinv teps at f1 f2
  have et : tem ((i : Int) + 1) = tmin + i / 10 := by unfold tem dtres dtinv; push_cast; ring
  have ed : temp - tmin - dtres * ((i : Int) : ℝ) = temp - (tmin + i / 10) := by unfold dtres dtinv; push_cast; ring
  have es : ∀ j : Int, dtable j = slope computeEs (tem j) (1 / 100) := by
    intro j
    unfold dtable slope
    norm_num
    ring_nf
  refine ⟨i, hle, ?_, dtable ((i : Int) + 1), d2table ((i : Int) + 1), ?_, ?_, ?_⟩
  · rw [abs_le]; constructor <;> linarith
  · rw [lookup_at (i := (i : Int)) (by omega) (by omega) (by rw [ht, hi]), ed]
    unfold table
    rw [et]
  · rw [es, et]
  · intro i0 i1
    have a1 : tem ((i : Int) + 1 + 1) = tmin + i / 10 + 1 / 10 := by unfold tem dtres dtinv; push_cast; ring
    have a2 : tem ((i : Int) + 1 - 1) = tmin + i / 10 - 1 / 10 := by unfold tem dtres dtinv; push_cast; ring
    unfold d2table
    rw [if_neg (by omega), if_neg (by unfold nsize; omega), es, es, a1, a2]
    generalize hf : (fun t => slope computeEs t (1 / 100)) = f
    have hf' : ∀ t, slope computeEs t (1 / 100) = f t := fun t => congrFun hf t
    rw [hf', hf']
    unfold slope dtinv
    ring

/-- At the temperatures of the table the value is exact. -/
theorem C155_exact (i : Nat) (h : i ≤ 2600) : lookup (tmin + i / 10) = .value (computeEs (tmin + i / 10)) := by
  have hi : (i : ℝ) ≤ 2600 := by exact_mod_cast h
  have h0 : (0 : ℝ) ≤ i := Nat.cast_nonneg i
  have e : dtinv * (tmin + (i : ℝ) / 10 - tmin + teps) = (i : ℝ) + 1 / 2 := by unfold dtinv teps; ring
  have ht : truncate (dtinv * (tmin + (i : ℝ) / 10 - tmin + teps)) = (i : Int) := by
    rw [e]
    unfold truncate
    rw [if_pos (by linarith), Int.floor_eq_iff]
    push_cast
    constructor <;> linarith
  rw [lookup_at (by omega) (by omega) ht]
  have ed : tmin + (i : ℝ) / 10 - tmin - dtres * ((i : Int) : ℝ) = 0 := by unfold dtres dtinv; push_cast; ring
  have et : tem ((i : Int) + 1) = tmin + i / 10 := by unfold tem dtres dtinv; push_cast; ring
  rw [ed, zero_mul, add_zero]
  unfold table
  rw [et]

/-- Below the table `int` goes up: a further tenth of a degree is accepted. -/
theorem C155_low_wrong (temp : ℝ) (h0 : tmin - 3 / 20 < temp) (h1 : temp < tmin - 1 / 20) : ∃ es, lookup temp = .value es := by
  have ht : truncate (dtinv * (temp - tmin + teps)) = 0 := by
    unfold truncate dtinv teps
    rw [if_neg (by linarith), Int.ceil_eq_iff]
    push_cast
    constructor <;> linarith
  exact ⟨_, lookup_at (i := 0) (by omega) (by omega) ht⟩

/-- Further outside the message is not reached before the tables are read outside. -/
theorem C155_stop_wrong (temp : ℝ) (h : temp ≤ tmin - 3 / 20 ∨ tmin + 260 + 1 / 20 ≤ temp) : lookup temp = .outside := by
  rcases h with h | h
  · refine lookup_out (.inl ?_) rfl
    unfold truncate dtinv teps
    rw [if_neg (by linarith)]
    have : ⌈10 * (temp - tmin + 1 / 20)⌉ ≤ -1 := Int.ceil_le.2 (by push_cast; linarith)
    omega
  · refine lookup_out (.inr ?_) rfl
    unfold truncate dtinv teps
    rw [if_pos (by linarith)]
    have : 2601 ≤ ⌊10 * (temp - tmin + 1 / 20)⌋ := Int.le_floor.2 (by push_cast; linarith)
    omega

private theorem eps_pos : 0 < rdgas / rvgas := by unfold rdgas rvgas; norm_num

/-- Specific humidity and relative humidity can be converted back and forth, as well as mixing ratio and specific humidity, at one temperature and pressure. -/
theorem C155_round_trip (es : ℝ → ℝ) (temp pres : ℝ) (he : 0 < es temp) (hp : es temp < pres) :
    (∀ q, 0 ≤ q → q < 1 → rhToSphum es (sphumToRh es q temp pres) temp pres = q ∧ mixratToSphum (sphumToMixrat q) = q) ∧
    (∀ rh, 0 ≤ rh → sphumToRh es (rhToSphum es rh temp pres) temp pres = rh) ∧ (∀ r, 0 ≤ r → sphumToMixrat (mixratToSphum r) = r) := by
  have hs : 0 < eToMixrat (es temp) pres := div_pos (mul_pos eps_pos he) (by linarith)
  have ms : ∀ q : ℝ, q < 1 → mixratToSphum (sphumToMixrat q) = q := by
    intro q h
    unfold mixratToSphum sphumToMixrat
    have h1 : (1 : ℝ) - q ≠ 0 := by linarith
    have : 1 + q / (1 - q) = 1 / (1 - q) := by field_simp; ring
    rw [this]; field_simp
  have sm : ∀ r : ℝ, 0 ≤ r → sphumToMixrat (mixratToSphum r) = r := by
    intro r h
    unfold mixratToSphum sphumToMixrat
    have h1 : (1 : ℝ) + r ≠ 0 := by linarith
    have : 1 - r / (1 + r) = 1 / (1 + r) := by field_simp; ring
    rw [this]; field_simp
  refine ⟨fun q h0 h1 => ⟨?_, ms q h1⟩, fun rh h => ?_, sm⟩
  · unfold rhToSphum rhToMixrat sphumToRh mixratToRh
    rw [mul_div_cancel₀ _ hs.ne', ms q h1]
  · unfold sphumToRh mixratToRh rhToSphum rhToMixrat
    rw [sm _ (mul_nonneg hs.le h), mul_div_cancel_left₀ _ hs.ne']

/-- Air with the vapour pressure `e` has the specific humidity of its mixing ratio. -/
theorem C155_vapor (e pres : ℝ) (h : 0 ≤ e) (hp : e < pres) : eToSphum e pres = mixratToSphum (eToMixrat e pres) ∧ 0 ≤ eToSphum e pres ∧ eToSphum e pres < 1 := by
  have k := eps_pos
  have k1 : rdgas / rvgas < 1 := by unfold rdgas rvgas; norm_num
  unfold eToSphum mixratToSphum eToMixrat
  generalize rdgas / rvgas = r at *
  have d1 : 0 < pres - e := by linarith
  have d2 : 0 < pres - (1 - r) * e := by nlinarith
  refine ⟨?_, div_nonneg (mul_nonneg k.le h) d2.le, ?_⟩
  · have : 1 + r * e / (pres - e) = (pres - (1 - r) * e) / (pres - e) := by field_simp; ring
    rw [this]
    field_simp
  · rw [div_lt_one d2]; nlinarith

/-- Where the pressure is less than the saturation vapour pressure, as near the stratopause, the relative humidity of moist air comes out negative. -/
theorem C155_thin_air_wrong (es : ℝ → ℝ) (temp pres q : ℝ) (he : 0 < es temp) (hp : pres < es temp) (h0 : 0 < q) (h1 : q < 1) : sphumToRh es q temp pres < 0 := by
  unfold sphumToRh mixratToRh sphumToMixrat
  exact div_neg_of_pos_of_neg (div_pos h0 (by linarith)) (div_neg_of_pos_of_neg (mul_pos eps_pos he) (by linarith))

/-- 263.16: halfway between ice and water. -/
example : ∃ w, 0 < w ∧ w < 1 ∧ computeEs (tbasi - 10) = w * ice (tbasi - 10) + (1 - w) * water (tbasi - 10) ∧ w * (tbasi - 20) + (1 - w) * tbasi = tbasi - 10 :=
  (C155_blend _).2.2 (by linarith) (by linarith)

/-- The entry for 273.16 -/
example : lookup (tmin + (1600 : Nat) / 10) = .value (computeEs (tmin + (1600 : Nat) / 10)) := C155_exact 1600 (by norm_num)

/-- 113.06 is accepted, 100 is read outside. -/
example : (∃ es, lookup 113.06 = .value es) ∧ lookup 100 = .outside :=
  ⟨C155_low_wrong _ (by unfold tmin tbasi; norm_num) (by unfold tmin tbasi; norm_num), C155_stop_wrong _ (.inl (by unfold tmin tbasi; norm_num))⟩

/-- 2300 Pa of vapour at 100000 Pa -/
example : rhToSphum (fun _ => 2300) (sphumToRh (fun _ => 2300) (1 / 100) 293 100000) 293 100000 = 1 / 100 :=
  ((C155_round_trip (fun _ => 2300) 293 100000 (by norm_num) (by norm_num)).1 (1 / 100) (by norm_num) (by norm_num)).1

example : 0 ≤ eToSphum 2300 100000 ∧ eToSphum 2300 100000 < 1 := (C155_vapor 2300 100000 (by norm_num) (by norm_num)).2

/-- 470 Pa of saturation at 100 Pa -/
example : sphumToRh (fun _ => 470) (1 / 100000) 270 100 < 0 := C155_thin_air_wrong _ _ _ _ (by norm_num) (by norm_num) (by norm_num) (by norm_num)

end Verif
