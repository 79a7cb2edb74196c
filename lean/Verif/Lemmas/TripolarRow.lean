import Verif.Lemmas.Tripolar
/-
Lemmas for C95: longitudes along a row.
-/
namespace Verif.Tripolar

open Verif.Vec3 Verif.Spec Verif.Spec.Tripolar

noncomputable section

/-- Distance from the axis of `tilted` -/
def rad (s t : ℝ) : ℝ := Real.sqrt (Real.cos t ^ 2 + (s * Real.sin t) ^ 2)

/-- The longitude of `tilted`, increasing from 0 to 2π -/
def lift (s t : ℝ) : ℝ :=
  if t ≤ Real.pi then Real.arccos (Real.cos t / rad s t) else 2 * Real.pi - Real.arccos (Real.cos t / rad s t)

end

theorem rad_pos {s : ℝ} (hs : 0 < s) (t : ℝ) : 0 < rad s t := by
  unfold rad
  apply Real.sqrt_pos.2
  have h := Real.sin_sq_add_cos_sq t
  rcases eq_or_ne (Real.cos t) 0 with hc | hc
  · rw [hc] at h ⊢
    have : Real.sin t ^ 2 = 1 := by linarith
    have e : (s * Real.sin t) ^ 2 = s ^ 2 := by rw [mul_pow, this, mul_one]
    rw [e]; positivity
  · positivity

theorem rad_sq (s t : ℝ) : rad s t ^ 2 = Real.cos t ^ 2 + (s * Real.sin t) ^ 2 := Real.sq_sqrt (by positivity)

theorem ratio_range {s : ℝ} (hs : 0 < s) (t : ℝ) : -1 ≤ Real.cos t / rad s t ∧ Real.cos t / rad s t ≤ 1 := by
  have hp := rad_pos hs t
  have hq := rad_sq s t
  have : |Real.cos t| ≤ rad s t := by
    apply abs_le_of_sq_le_sq _ hp.le
    nlinarith [sq_nonneg (s * Real.sin t)]
  have := abs_le.1 this
  constructor
  · rw [le_div_iff₀ hp]; linarith
  · rw [div_le_one hp]; linarith

theorem sin_ratio {s : ℝ} (hs : 0 < s) (t : ℝ) :
    Real.sin (Real.arccos (Real.cos t / rad s t)) = s * |Real.sin t| / rad s t := by
  have hp := rad_pos hs t
  have hq := rad_sq s t
  have e : 1 - (Real.cos t / rad s t) ^ 2 = (s * |Real.sin t| / rad s t) ^ 2 := by
    rw [div_pow, div_pow, eq_div_iff (by positivity), sub_mul, div_mul_cancel₀ _ (by positivity), one_mul, hq, mul_pow s,
      mul_pow s, sq_abs]
    ring
  rw [Real.sin_arccos, e, Real.sqrt_sq (by positivity)]

theorem sin_half {t : ℝ} (h0 : 0 ≤ t) (h1 : t ≤ Real.pi) : |Real.sin t| = Real.sin t :=
  abs_of_nonneg (Real.sin_nonneg_of_nonneg_of_le_pi h0 h1)

theorem sin_half' {t : ℝ} (h0 : Real.pi ≤ t) (h1 : t ≤ 2 * Real.pi) : |Real.sin t| = -Real.sin t := by
  have : 0 ≤ Real.sin (t - Real.pi) := Real.sin_nonneg_of_nonneg_of_le_pi (by linarith) (by linarith)
  rw [Real.sin_sub_pi] at this
  exact abs_of_nonpos (by linarith)

theorem lift_cos {s : ℝ} (hs : 0 < s) (t : ℝ) : Real.cos (lift s t) = Real.cos t / rad s t := by
  have h := ratio_range hs t
  unfold lift
  split_ifs
  · exact Real.cos_arccos h.1 h.2
  · rw [Real.cos_two_pi_sub]; exact Real.cos_arccos h.1 h.2

theorem lift_sin {s : ℝ} (hs : 0 < s) {t : ℝ} (h0 : 0 ≤ t) (h1 : t ≤ 2 * Real.pi) :
    Real.sin (lift s t) = s * Real.sin t / rad s t := by
  unfold lift
  split_ifs with h
  · rw [sin_ratio hs, sin_half h0 h]
  · rw [Real.sin_two_pi_sub, sin_ratio hs, sin_half' (not_le.1 h).le h1]; ring

theorem lift_low {s t : ℝ} (h : t ≤ Real.pi) : 0 ≤ lift s t ∧ lift s t ≤ Real.pi := by
  unfold lift
  rw [if_pos h]
  exact ⟨Real.arccos_nonneg _, Real.arccos_le_pi _⟩

theorem lift_high {s t : ℝ} (h : Real.pi < t) : Real.pi ≤ lift s t ∧ lift s t ≤ 2 * Real.pi := by
  unfold lift
  rw [if_neg (not_le.2 h)]
  have := Real.arccos_nonneg (Real.cos t / rad s t)
  have := Real.arccos_le_pi (Real.cos t / rad s t)
  constructor <;> linarith

theorem lift_zero {s : ℝ} : lift s 0 = 0 := by
  unfold lift rad
  rw [if_pos Real.pi_pos.le]
  simp

theorem lift_last {s : ℝ} : lift s (2 * Real.pi) = 2 * Real.pi := by
  unfold lift rad
  rw [if_neg (by linarith [Real.pi_pos])]
  simp

theorem lift_one {t : ℝ} (h0 : 0 ≤ t) (h1 : t ≤ 2 * Real.pi) : lift 1 t = t := by
  have e : rad 1 t = 1 := by
    unfold rad
    rw [one_mul, add_comm, Real.sin_sq_add_cos_sq, Real.sqrt_one]
  unfold lift
  rw [e, div_one]
  split_ifs with h
  · exact Real.arccos_cos h0 h
  · rw [← Real.cos_two_pi_sub, Real.arccos_cos (by linarith) (by linarith)]; ring

theorem lift_diff {s : ℝ} (hs : 0 < s) {t u : ℝ} (h0 : 0 ≤ t) (h1 : t ≤ 2 * Real.pi) (h2 : 0 ≤ u) (h3 : u ≤ 2 * Real.pi) :
    Real.sin (lift s u - lift s t) * (rad s t * rad s u) = s * Real.sin (u - t) := by
  have a := (rad_pos hs t).ne'
  have b := (rad_pos hs u).ne'
  rw [Real.sin_sub, lift_cos hs, lift_cos hs, lift_sin hs h0 h1, lift_sin hs h2 h3, Real.sin_sub]
  field_simp

/-- Along a row the longitude increases, by at most half a turn at a time. -/
theorem lift_mono {s : ℝ} (hs : 0 < s) {t u : ℝ} (h0 : 0 ≤ t) (htu : t ≤ u) (h3 : u ≤ 2 * Real.pi) (hd : u - t ≤ Real.pi) :
    lift s t ≤ lift s u ∧ lift s u ≤ lift s t + Real.pi := by
  have hpi := Real.pi_pos
  rcases eq_or_lt_of_le htu with e | htu
  · subst e; exact ⟨le_rfl, by linarith⟩
  have hdiff := lift_diff hs h0 (htu.le.trans h3) (h0.trans htu.le) h3
  have hr := mul_pos (rad_pos hs t) (rad_pos hs u)
  have hsin : 0 ≤ Real.sin (lift s u - lift s t) := by
    have : 0 ≤ s * Real.sin (u - t) := mul_nonneg hs.le (Real.sin_nonneg_of_nonneg_of_le_pi (by linarith) hd)
    rw [← hdiff] at this
    exact nonneg_of_mul_nonneg_left this hr
  have hsin' : u - t < Real.pi → 0 < Real.sin (lift s u - lift s t) := by
    intro h
    have : 0 < s * Real.sin (u - t) := mul_pos hs (Real.sin_pos_of_pos_of_lt_pi (by linarith) h)
    rw [← hdiff] at this
    exact pos_of_mul_pos_left this hr.le
  by_cases hu : u ≤ Real.pi
  · have a := lift_low (s := s) (htu.le.trans hu)
    have b := lift_low (s := s) hu
    refine ⟨?_, by linarith⟩
    by_contra hc
    rcases eq_or_lt_of_le hd with e | e
    · have ht0 : t = 0 := by linarith
      rw [ht0, lift_zero] at hc
      exact hc b.1
    · have := hsin' e
      have h2 : Real.sin (lift s u - lift s t) ≤ 0 := Real.sin_nonpos_of_nonpos_of_neg_pi_le (by linarith) (by linarith)
      linarith
  · have b := lift_high (s := s) (not_le.1 hu)
    by_cases ht : t ≤ Real.pi
    · have a := lift_low (s := s) ht
      refine ⟨by linarith, ?_⟩
      by_contra hc
      have hc := not_le.1 hc
      rcases eq_or_lt_of_le (show lift s u - lift s t ≤ 2 * Real.pi by linarith) with e | e
      · have e1 : lift s u = 2 * Real.pi := by linarith
        have e2 : lift s t = 0 := by linarith
        have c1 := lift_sin hs (h0.trans htu.le) h3
        have c2 := lift_sin hs h0 (htu.le.trans h3)
        rw [e1, Real.sin_two_pi] at c1
        rw [e2, Real.sin_zero] at c2
        have z1 : Real.sin u = 0 := by
          have := (div_eq_zero_iff.1 c1.symm).resolve_right (rad_pos hs u).ne'
          exact (mul_eq_zero.1 this).resolve_left hs.ne'
        have z2 : Real.sin t = 0 := by
          have := (div_eq_zero_iff.1 c2.symm).resolve_right (rad_pos hs t).ne'
          exact (mul_eq_zero.1 this).resolve_left hs.ne'
        have q1 := lift_cos hs u
        have q2 := lift_cos hs t
        rw [e1, Real.cos_two_pi] at q1
        rw [e2, Real.cos_zero] at q2
        have w1 : 0 < Real.cos u := by
          have := (eq_div_iff (rad_pos hs u).ne').1 q1
          linarith [rad_pos hs u]
        have w2 : 0 < Real.cos t := by
          have := (eq_div_iff (rad_pos hs t).ne').1 q2
          linarith [rad_pos hs t]
        have t0 : t = 0 := by
          rcases eq_or_lt_of_le h0 with h | h
          · exact h.symm
          · rcases eq_or_lt_of_le ht with h' | h'
            · rw [h', Real.cos_pi] at w2; linarith
            · exact absurd z2 (Real.sin_pos_of_pos_of_lt_pi h h').ne'
        have u0 : u = Real.pi := by linarith [not_le.1 hu]
        exact hu u0.le
      · have : Real.sin (lift s u - lift s t - Real.pi) > 0 :=
          Real.sin_pos_of_pos_of_lt_pi (by linarith) (by linarith)
        rw [Real.sin_sub_pi] at this
        linarith
    · have a := lift_high (s := s) (not_le.1 ht)
      refine ⟨?_, by linarith⟩
      by_contra hc
      have := hsin' (by linarith [not_le.1 ht])
      rcases eq_or_lt_of_le (show -Real.pi ≤ lift s u - lift s t by linarith) with e | e
      · rw [← e, Real.sin_neg, Real.sin_pi] at this; linarith
      · have h2 : Real.sin (lift s u - lift s t) ≤ 0 := Real.sin_nonpos_of_nonpos_of_neg_pi_le (by linarith) e.le
        linarith

/-! ### lon_in_range -/

theorem rangeLoop_below {strt : ℝ} : ∀ (fuel : Nat) (x r : ℝ), x < strt + 360 →
    Lon.rangeLoop strt (strt + 360) 360 fuel x = some r → r < strt + 360
  | 0, _, _, _, h => by simp [Lon.rangeLoop] at h
  | fuel + 1, x, r, hx, h => by
    unfold Lon.rangeLoop at h
    split_ifs at h with h1 h2
    · exact rangeLoop_below fuel _ _ (by linarith) h
    · linarith
    · simp only [Option.some.injEq] at h; rw [← h]; exact hx

theorem rangeLoop_mono {a b c : ℝ} : ∀ (n m : Nat) (x r : ℝ), n ≤ m → Lon.rangeLoop a b c n x = some r →
    Lon.rangeLoop a b c m x = some r
  | 0, _, _, _, _, h => by simp [Lon.rangeLoop] at h
  | n + 1, 0, _, _, hm, _ => by omega
  | n + 1, m + 1, x, r, hm, h => by
    unfold Lon.rangeLoop at h ⊢
    split_ifs at h ⊢ with h1 h2
    · exact rangeLoop_mono n m _ _ (by omega) h
    · exact rangeLoop_mono n m _ _ (by omega) h
    · exact h

theorem lonInRange_mono {small lon strt r : ℝ} {n m : Nat} (hm : n ≤ m) (h : Lon.lonInRange small n lon strt = some r) :
    Lon.lonInRange small m lon strt = some r := by
  unfold Lon.lonInRange at h ⊢
  dsimp only at h ⊢
  split_ifs at h ⊢ with h1 h2
  · exact h
  · exact h
  · exact rangeLoop_mono n m _ _ hm h

/-- What `lon_in_range` makes of a longitude which is, up to whole turns, `target`, with `target` not below `strt`. -/
theorem inRange_target {small lon strt target : ℝ} (hsm : 0 < small) (hc : ∃ z : Int, lon = target + z * 360) (h1 : strt ≤ target)
    (h2 : target < strt + 360 - small) (h3 : lon < strt + 720) :
    ∃ r, strt ≤ r ∧ r ≤ target ∧ target < r + small ∧ ∃ n0 : Nat, ∀ fuel ≥ n0, Lon.lonInRange small fuel lon strt = some r := by
  obtain ⟨z, hz⟩ := hc
  obtain ⟨n0, h⟩ := Lon.C32_in_range small lon strt
  obtain ⟨r, hr, a, b, c⟩ := h n0 le_rfl
  suffices hh : r = target ∨ r = strt ∧ target < strt + small by
    refine ⟨r, a, ?_, ?_, n0, fun fuel hf => lonInRange_mono hf hr⟩
    · rcases hh with e | ⟨e, -⟩ <;> rw [e]; exact h1
    · rcases hh with e | ⟨e, e'⟩
      · rw [e]; linarith
      · rw [e]; exact e'
  rcases c with ⟨k, hk⟩ | ⟨rfl, hnear⟩
  · have e : r = target + ((z + k : Int) : ℝ) * 360 := by rw [hk, hz]; push_cast; ring
    have l1 : (-1 : Int) < z + k := by
      have : (-1 : ℝ) < ((z + k : Int) : ℝ) := by nlinarith
      exact_mod_cast this
    have l2 : z + k < 2 := by
      have : ((z + k : Int) : ℝ) < 2 := by nlinarith
      exact_mod_cast this
    have l3 : z + k = 0 ∨ z + k = 1 := by omega
    rcases l3 with e0 | e1
    · left; rw [e, e0]; simp
    · rw [e1] at e
      have et : target = strt := by push_cast at e; linarith
      right
      refine ⟨?_, by linarith⟩
      exfalso
      have er : r = strt + 360 := by rw [e, et]; simp
      unfold Lon.lonInRange at hr
      dsimp only at hr
      split_ifs at hr with g1 g2
      · simp only [Option.some.injEq] at hr; linarith
      · simp only [Option.some.injEq] at hr; linarith
      · have hz1 : z < 2 := by
          have : (z : ℝ) < 2 := by nlinarith
          exact_mod_cast this
        have hz2 : z ≠ 0 := by
          rintro rfl
          apply g1
          rw [hz, et]; simpa using hsm
        have hz3 : z ≠ 1 := by
          rintro rfl
          apply g2
          rw [hz, et]; simpa using hsm
        have hz4 : z ≤ -1 := by omega
        have hz5 : (z : ℝ) ≤ -1 := by exact_mod_cast hz4
        have := rangeLoop_below n0 lon r (by rw [hz, et]; nlinarith) hr
        linarith
  · right
    refine ⟨rfl, ?_⟩
    have key : ∀ w : ℝ, (∃ m : Int, w = target + m * 360) → |w - r| < small → target < r + small := by
      rintro w ⟨m, hm⟩ hw
      have hw := abs_lt.1 hw
      have m1 : (-1 : Int) < m := by
        have : (-1 : ℝ) < (m : ℝ) := by nlinarith
        exact_mod_cast this
      have m2 : (0 : ℝ) ≤ m := by
        have : (0 : Int) ≤ m := by omega
        exact_mod_cast this
      nlinarith
    rcases hnear with g | g
    · exact key lon ⟨z, hz⟩ g
    · refine key (lon - 360) ⟨z - 1, by rw [hz]; push_cast; ring⟩ ?_
      rwa [show lon - 360 - r = lon - (r + 360) by ring]

/-! ### Latitude -/

theorem tan_half_eq {x : ℝ} (h : 1 + Real.cos x ≠ 0) : Real.tan (x / 2) = Real.sin x / (1 + Real.cos x) := by
  have e1 : Real.cos x = 2 * Real.cos (x / 2) ^ 2 - 1 := by rw [← Real.cos_two_mul]; congr 1; ring
  have e2 : Real.sin x = 2 * Real.sin (x / 2) * Real.cos (x / 2) := by rw [← Real.sin_two_mul]; congr 1; ring
  have hc : Real.cos (x / 2) ≠ 0 := by
    intro h0; apply h; rw [e1, h0]; ring
  rw [Real.tan_eq_sin_div_cos, e2, e1]
  field_simp
  ring

theorem polar_eq {y : ℝ} (h : 1 + Real.sin y ≠ 0) : polar y = Real.cos y / (1 + Real.sin y) := by
  unfold polar
  rw [tan_half_eq (by rwa [Real.cos_pi_div_two_sub]), Real.sin_pi_div_two_sub, Real.cos_pi_div_two_sub]

theorem polar_phis (q : ℝ) : polar (Real.pi * (1 / 2) - 2 * Real.arctan q) = q := by
  unfold polar
  rw [show (Real.pi / 2 - (Real.pi * (1 / 2) - 2 * Real.arctan q)) / 2 = Real.arctan q by ring, Real.tan_arctan]

/-- Third component of `tilted` -/
theorem tilted_z {lam : ℝ} (h0 : 0 ≤ lam) (h1 : lam ≤ Real.pi / 2) (t : ℝ) :
    0 ≤ Real.cos lam * |Real.sin t| ∧ Real.cos lam * |Real.sin t| ≤ 1 := by
  have hc : 0 ≤ Real.cos lam := Real.cos_nonneg_of_mem_Icc ⟨by linarith [Real.pi_pos], h1⟩
  refine ⟨by positivity, ?_⟩
  have := Real.cos_le_one lam
  have := Real.abs_sin_le_one t
  nlinarith [abs_nonneg (Real.sin t)]

theorem tan_chi {lam : ℝ} (h0 : 0 ≤ lam) (h1 : lam ≤ Real.pi / 2) (t : ℝ) :
    Real.tan (Real.arccos (Real.cos lam * |Real.sin t|) / 2)
      = rad (Real.sin lam) t / (1 + Real.cos lam * |Real.sin t|) := by
  have hw := tilted_z h0 h1 t
  have hc := Real.cos_arccos (show -1 ≤ Real.cos lam * |Real.sin t| by linarith [hw.1]) hw.2
  rw [tan_half_eq (by rw [hc]; linarith [hw.1]), hc, Real.sin_arccos]
  congr 1
  unfold rad
  congr 1
  rw [mul_pow, sq_abs, mul_pow]
  have a := Real.sin_sq_add_cos_sq t
  have b := Real.sin_sq_add_cos_sq lam
  linear_combination (-1 : ℝ) * a - Real.sin t ^ 2 * b

theorem rad_le {lam : ℝ} (h0 : 0 ≤ lam) (h1 : lam ≤ Real.pi / 2) (t : ℝ) :
    rad (Real.sin lam) t ≤ 1 + Real.cos lam * |Real.sin t| := by
  have hw := tilted_z h0 h1 t
  have hr := rad_sq (Real.sin lam) t
  have a := Real.sin_sq_add_cos_sq t
  have b := Real.sin_sq_add_cos_sq lam
  have e : rad (Real.sin lam) t ^ 2 = 1 - (Real.cos lam * |Real.sin t|) ^ 2 := by
    rw [hr, mul_pow, mul_pow, sq_abs]
    linear_combination a + Real.sin t ^ 2 * b
  have : 0 ≤ rad (Real.sin lam) t := Real.sqrt_nonneg _
  nlinarith

end Verif.Tripolar
