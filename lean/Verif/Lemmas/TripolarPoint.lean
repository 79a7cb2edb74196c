import Verif.Lemmas.TripolarRow
/-
Lemmas for C95: one point and one row of the bipolar part.
-/
namespace Verif.Tripolar

open Verif.Vec3 Verif.Spec Verif.Spec.Tripolar

/-- The longitude, in degrees, which `tp_trans` has before `lon_in_range` -/
theorem lams_congr (b : Bip) (y : ℝ) {θ : ℝ} (h0 : 0 ≤ θ) (h1 : θ ≤ 360) (hs : 0 < Real.sin (tilt b.rp (y * d2r))) :
    ∃ z : Int, fmod (b.lam0 + Real.pi + Real.pi / 2
      - atan2 (Real.sin (bpLam (b.lonStart + θ) y b.bpeq b.rp * d2r) * Real.cos (bpPhi (b.lonStart + θ) b.bpsp b.bpnp * d2r))
        (Real.sin (bpPhi (b.lonStart + θ) b.bpsp b.bpnp * d2r))) (2 * Real.pi) * r2d
      = b.lonStart + lift (Real.sin (tilt b.rp (y * d2r))) (θ * d2r) * r2d + z * 360 := by
  set s := Real.sin (tilt b.rp (y * d2r)) with hsd
  set t := θ * d2r with ht
  have hpi := d2r_180
  have hd := d2r_pos
  have ht0 : 0 ≤ t := by positivity
  have ht1 : t ≤ 2 * Real.pi := by rw [← hpi]; nlinarith
  rw [(phic_trig b h0 h1).1, (phic_trig b h0 h1).2, (lamc_trig b y b.rp h0 h1).2, ← hsd, ← ht]
  have hr := rad_pos hs t
  have hq := rad_sq s t
  have hne : (⟨Real.cos t, -(s * Real.sin t)⟩ : ℂ) ≠ 0 := by
    intro e
    have e0 : Real.cos t = 0 := by simpa using congrArg Complex.re e
    have e1 : -(s * Real.sin t) = 0 := by simpa using congrArg Complex.im e
    have e2 : s * Real.sin t = 0 := by linarith
    rw [e0, e2] at hq
    have : rad s t ^ 2 = 0 := by rw [hq]; ring
    exact hr.ne' (pow_eq_zero_iff (by norm_num) |>.1 this)
  obtain ⟨c1, c2⟩ := atan2_cos hne
  set A := atan2 (-(s * Real.sin t)) (Real.cos t) with hA
  rw [show Real.cos t ^ 2 + (-(s * Real.sin t)) ^ 2 = rad s t ^ 2 by rw [hq]; ring, Real.sqrt_sq hr.le] at c1 c2
  have a1 : Real.cos (-A) = Real.cos (lift s t) := by
    rw [Real.cos_neg, lift_cos hs, eq_div_iff hr.ne']; linarith
  have a2 : Real.sin (-A) = Real.sin (lift s t) := by
    rw [Real.sin_neg, lift_sin hs ht0 ht1, eq_div_iff hr.ne']; linarith
  have hang := Real.Angle.angle_eq_iff_two_pi_dvd_sub.1 (Real.Angle.cos_sin_inj a1 a2)
  obtain ⟨k, hk⟩ := hang
  obtain ⟨k1, hk1⟩ := fmod_int (b.lam0 + Real.pi + Real.pi / 2 - A) (2 * Real.pi)
  obtain ⟨k2, hk2⟩ := fmod_int (b.bpeq * d2r + 2 * Real.pi) (2 * Real.pi)
  have hl : b.lam0 = b.bpeq * d2r + 2 * Real.pi + 2 * Real.pi * k2 := hk2
  have hrd := r2d_d2r
  have hrp := r2d_pi
  refine ⟨k + k1 + k2 + 2, ?_⟩
  rw [hk1, hl]
  unfold Bip.bpeq
  push_cast
  linear_combination r2d * hk + (2 * k1 + 2 * k2 + 2 * k + 4 - 1 / 2 : ℝ) * hrp + (b.lonStart + 90) * hrd

/-- A row which is not at the pole -/
theorem tpTrans_below {small : ℝ} {b : Bip} {y θ ref : ℝ} (hsm : 0 < small) (h0 : 0 ≤ θ) (h1 : θ ≤ 360)
    (hlat : small ≤ 90 - y) (hlam : small ≤ tilt b.rp (y * d2r)) (hlam2 : tilt b.rp (y * d2r) ≤ Real.pi / 2)
    (g1 : ref ≤ b.lonStart + lift (Real.sin (tilt b.rp (y * d2r))) (θ * d2r) * r2d)
    (g2 : b.lonStart + lift (Real.sin (tilt b.rp (y * d2r))) (θ * d2r) * r2d < ref + 360 - small) (g3 : -360 ≤ ref) :
    ∃ r, ref ≤ r ∧ r ≤ b.lonStart + lift (Real.sin (tilt b.rp (y * d2r))) (θ * d2r) * r2d ∧
      b.lonStart + lift (Real.sin (tilt b.rp (y * d2r))) (θ * d2r) * r2d < r + small ∧
      ∃ n0 : Nat, ∀ fuel ≥ n0, tpTrans small fuel b (b.lonStart + θ, y) ref
        = some (r, phis b.rp (bpLam (b.lonStart + θ) y b.bpeq b.rp * d2r)
          (bpPhi (b.lonStart + θ) b.bpsp b.bpnp * d2r) * r2d) := by
  have hs : 0 < Real.sin (tilt b.rp (y * d2r)) :=
    Real.sin_pos_of_pos_of_lt_pi (by linarith) (by linarith [Real.pi_pos])
  have hc := lams_congr b y h0 h1 hs
  have hlt : fmod (b.lam0 + Real.pi + Real.pi / 2
      - atan2 (Real.sin (bpLam (b.lonStart + θ) y b.bpeq b.rp * d2r) * Real.cos (bpPhi (b.lonStart + θ) b.bpsp b.bpnp * d2r))
        (Real.sin (bpPhi (b.lonStart + θ) b.bpsp b.bpnp * d2r))) (2 * Real.pi) * r2d < ref + 720 := by
    have h := fmod_lt (a := b.lam0 + Real.pi + Real.pi / 2
      - atan2 (Real.sin (bpLam (b.lonStart + θ) y b.bpeq b.rp * d2r) * Real.cos (bpPhi (b.lonStart + θ) b.bpsp b.bpnp * d2r))
        (Real.sin (bpPhi (b.lonStart + θ) b.bpsp b.bpnp * d2r))) (b := 2 * Real.pi) (by linarith [Real.pi_pos])
    have := mul_lt_mul_of_pos_right h r2d_pos
    have hrp := r2d_pi
    linarith
  obtain ⟨r, r1, r2, r3, n0, hn⟩ := inRange_target hsm hc g1 g2 hlt
  refine ⟨r, r1, r2, r3, n0, fun fuel hf => ?_⟩
  have n1 : ¬ |y - 90| < small := by
    rw [not_lt, abs_sub_comm, abs_of_nonneg (by linarith)]; exact hlat
  have n2 : ¬ (|bpLam (b.lonStart + θ) y b.bpeq b.rp * d2r| < small ∧
      |bpPhi (b.lonStart + θ) b.bpsp b.bpnp * d2r| < small) := by
    rintro ⟨h, -⟩
    rw [bpLam_eq b y b.rp h0 h1] at h
    have : |tilt b.rp (y * d2r)| < small := by
      split_ifs at h
      · rwa [abs_neg] at h
      · exact h
    rw [abs_of_pos (by linarith)] at this
    linarith
  unfold tpTrans
  dsimp only
  rw [if_neg n1, if_neg n2, hn fuel hf]
  rfl

/-- The row at the pole -/
theorem tpTrans_pole {small : ℝ} {b : Bip} {θ ref : ℝ} (hsm : 0 < small) (hsm1 : small ≤ 1) (h0 : 0 ≤ θ) (h1 : θ ≤ 360)
    (hc : (θ < 90 ∧ ref = b.lonStart) ∨ (90 ≤ θ ∧ θ ≤ 270)
      ∨ (270 < θ ∧ (ref = b.lonStart + 180 ∨ ref = b.lonStart + 360))) :
    ∃ n0 : Nat, ∀ fuel ≥ n0, tpTrans small fuel b (b.lonStart + θ, 90) ref
      = some (if θ < 90 then b.lonStart else if θ ≤ 270 then b.lonStart + 180 else b.lonStart + 360,
        phis b.rp (bpLam (b.lonStart + θ) 90 b.bpeq b.rp * d2r)
          (bpPhi (b.lonStart + θ) b.bpsp b.bpnp * d2r) * r2d) := by
  have hd := d2r_pos
  have n1 : |(90 : ℝ) - 90| < small := by simpa using hsm
  unfold tpTrans
  dsimp only
  simp only [n1, if_true]
  have hphi := bpPhi_eq b h0 h1
  rcases hc with ⟨c, rfl⟩ | ⟨c1, c2⟩ | ⟨c1, c2⟩
  · have hpos : bpPhi (b.lonStart + θ) b.bpsp b.bpnp * d2r > 0 := by
      rw [hphi, if_pos (by linarith)]; exact mul_pos (by linarith) hd
    obtain ⟨r, r1, r2, -, n0, hn⟩ := inRange_target (small := small) (lon := b.lonStart) (strt := b.lonStart)
      (target := b.lonStart) hsm ⟨0, by simp⟩ le_rfl (by linarith) (by linarith)
    refine ⟨n0, fun fuel hf => ?_⟩
    rw [if_pos hpos, hn fuel hf, if_pos c, le_antisymm r2 r1]
    rfl
  · have hneg : ¬ bpPhi (b.lonStart + θ) b.bpsp b.bpnp * d2r > 0 := by
      rw [hphi, not_lt]
      split_ifs with h
      · exact mul_nonpos_of_nonpos_of_nonneg (by linarith) hd.le
      · exact mul_nonpos_of_nonpos_of_nonneg (by linarith) hd.le
    refine ⟨0, fun fuel _ => ?_⟩
    rw [if_neg hneg, if_neg (by linarith), if_pos c2]
  · have hpos : bpPhi (b.lonStart + θ) b.bpsp b.bpnp * d2r > 0 := by
      rw [hphi, if_neg (by linarith)]; exact mul_pos (by linarith) hd
    obtain ⟨r, r1, r2, r3, n0, hn⟩ := inRange_target (small := small) (lon := b.lonStart) (strt := ref)
      (target := b.lonStart + 360) hsm ⟨-1, by push_cast; ring⟩ (by rcases c2 with e | e <;> rw [e] <;> linarith)
      (by rcases c2 with e | e <;> rw [e] <;> linarith) (by rcases c2 with e | e <;> rw [e] <;> linarith)
    refine ⟨n0, fun fuel hf => ?_⟩
    rw [if_pos hpos, hn fuel hf, if_neg (by linarith), if_neg (by linarith)]
    have : r = b.lonStart + 360 := by
      rcases c2 with e | e
      · have := Lon.C32_in_range small b.lonStart ref
        obtain ⟨m, hm⟩ := this
        obtain ⟨r', q1, q2, q3, q4⟩ := hm (max m n0) (le_max_left _ _)
        rw [hn _ (le_max_right _ _)] at q1
        have : r = r' := by simpa using q1
        subst this
        rcases q4 with ⟨z, hz⟩ | ⟨e', g | g⟩
        · have z1 : (0 : ℝ) < z := by nlinarith
          have z2 : (z : ℝ) < 2 := by nlinarith
          have z1' : (0 : Int) < z := by exact_mod_cast z1
          have z2' : z < 2 := by exact_mod_cast z2
          have : z = 1 := by omega
          rw [hz, this]; norm_num
        · rw [e] at g; have := abs_lt.1 g; linarith
        · rw [e] at g; have := abs_lt.1 g; linarith
      · linarith
    rw [this]
    rfl

/-- A row from its points -/
theorem row_induct {small : ℝ} {b : Bip} {xb : Nat → ℝ} {y : ℝ} (lat : Nat → ℝ) (Q : Nat → ℝ → Prop)
    (base : ∃ r, Q 0 r ∧ ∃ n0 : Nat, ∀ fuel ≥ n0, tpTrans small fuel b (xb 0, y) (xb 0) = some (r, lat 0)) :
    ∀ n : Nat, (∀ i, i < n → ∀ r, Q i r → ∃ r', Q (i + 1) r' ∧ r ≤ r' ∧
      ∃ n0 : Nat, ∀ fuel ≥ n0, tpTrans small fuel b (xb (i + 1), y) r = some (r', lat (i + 1))) →
    ∃ lon : Nat → ℝ, (∀ i, i ≤ n → Q i (lon i)) ∧ (∀ i, i < n → lon i ≤ lon (i + 1)) ∧
      ∃ n0 : Nat, ∀ fuel ≥ n0, ∀ i, i ≤ n → tpRow small fuel b xb y i = some (lon i, lat i)
  | 0, _ => by
    obtain ⟨r, hq, n0, hn⟩ := base
    refine ⟨fun _ => r, fun i hi => ?_, fun i hi => by omega, n0, fun fuel hf i hi => ?_⟩
    · have : i = 0 := by omega
      rw [this]; exact hq
    · have : i = 0 := by omega
      rw [this]; exact hn fuel hf
  | n + 1, step => by
    obtain ⟨lon, h1, h2, n0, h3⟩ := row_induct lat Q base n (fun i hi => step i (by omega))
    obtain ⟨r', q1, q2, m0, q3⟩ := step n (by omega) (lon n) (h1 n le_rfl)
    refine ⟨fun i => if i ≤ n then lon i else r', fun i hi => ?_, fun i hi => ?_, max n0 m0, fun fuel hf i hi => ?_⟩
    · dsimp only
      split_ifs with h
      · exact h1 i h
      · have : i = n + 1 := by omega
        rw [this]; exact q1
    · dsimp only
      rw [if_pos (by omega)]
      split_ifs with h
      · exact h2 i (by omega)
      · have : i = n := by omega
        rw [this]; exact q2
    · dsimp only
      split_ifs with h
      · exact h3 fuel (le_trans (le_max_left _ _) hf) i h
      · have e : i = n + 1 := by omega
        rw [e]
        unfold tpRow
        rw [h3 fuel (le_trans (le_max_left _ _) hf) n le_rfl]
        exact q3 fuel (le_trans (le_max_right _ _) hf)

/-- The latitude of a point, and its place in the stereographic projection -/
theorem phis_point {b : Bip} {y θ : ℝ} (hr : 0 < b.rp) (h0 : 0 ≤ θ) (h1 : θ ≤ 360) (l0 : 0 ≤ tilt b.rp (y * d2r))
    (l1 : tilt b.rp (y * d2r) ≤ Real.pi / 2) :
    let f := phis b.rp (bpLam (b.lonStart + θ) y b.bpeq b.rp * d2r) (bpPhi (b.lonStart + θ) b.bpsp b.bpnp * d2r)
    let s := Real.sin (tilt b.rp (y * d2r))
    let q := b.rp * (rad s (θ * d2r) / (1 + Real.cos (tilt b.rp (y * d2r)) * |Real.sin (θ * d2r)|))
    f = Real.pi * (1 / 2) - 2 * Real.arctan q ∧ 0 ≤ q ∧ q ≤ b.rp ∧
    ∀ l : ℝ, rad s (θ * d2r) * Real.cos l = Real.cos (θ * d2r) → rad s (θ * d2r) * Real.sin l = s * Real.sin (θ * d2r) →
      stereo (spherePoint (l, f)) = b.rp • stereo (tilted (tilt b.rp (y * d2r)) (θ * d2r)) := by
  intro f s q
  have hw := tilted_z l0 l1 (θ * d2r)
  have hle := rad_le l0 l1 (θ * d2r)
  have hrad : 0 ≤ rad s (θ * d2r) := Real.sqrt_nonneg _
  have hf : f = Real.pi * (1 / 2) - 2 * Real.arctan q := by
    simp only [f, phis, q, s]
    rw [(lamc_trig b y b.rp h0 h1).1, (phic_trig b h0 h1).2, tan_chi l0 l1]
  have hden : 0 < 1 + Real.cos (tilt b.rp (y * d2r)) * |Real.sin (θ * d2r)| := by linarith [hw.1]
  refine ⟨hf, by positivity, ?_, fun l c1 c2 => ?_⟩
  · have : rad s (θ * d2r) / (1 + Real.cos (tilt b.rp (y * d2r)) * |Real.sin (θ * d2r)|) ≤ 1 := (div_le_one hden).2 hle
    simp only [q]; nlinarith
  · have hq : polar f = q := by rw [hf]; exact polar_phis q
    have hq0 : 0 ≤ q := by positivity
    have hsf : 1 + Real.sin f ≠ 0 := by
      have hlt : -(Real.pi / 2) < f := by
        rw [hf]; linarith [Real.arctan_lt_pi_div_two q]
      have hle2 : f ≤ Real.pi / 2 := by
        rw [hf]; linarith [Real.arctan_nonneg.2 hq0]
      have := Real.sin_lt_sin_of_lt_of_le_pi_div_two le_rfl hle2 hlt
      rw [Real.sin_neg, Real.sin_pi_div_two] at this
      intro e; linarith
    have e := polar_eq hsf
    rw [hq] at e
    have e1 : Real.cos f = q * (1 + Real.sin f) := by rw [e, div_mul_cancel₀ _ hsf]
    simp only [stereo, spherePoint, tilted, Prod.smul_mk, smul_eq_mul, Prod.mk.injEq, Matrix.cons_val]
    rw [e1]
    constructor
    · rw [div_eq_iff hsf, ← c1]; simp only [q, s]; ring
    · rw [div_eq_iff hsf, show Real.sin (tilt b.rp (y * d2r)) = s from rfl, ← c2]; simp only [q, s]; ring

end Verif.Tripolar
