import Verif.Props.Nearest
import Verif.Lemmas.TripolarScale
import Mathlib.Tactic.IntervalCases
import Mathlib.Analysis.SpecialFunctions.Trigonometric.Bounds
/-
C95: the tripolar grid of make_hgrid.
-/
namespace Verif.Tripolar

open Verif.Vec3 Verif.Spec Verif.Spec.Tripolar

/-! ### Geometry of the map -/

theorem inner3_unit {v : Fin 3 → ℝ} (h : OnSphere v) : v 0 * v 0 + v 1 * v 1 + v 2 * v 2 = 1 := h

/-- The distance of two points from their stereographic projections -/
theorem chord_stereo {v v' : Fin 3 → ℝ} (h : OnSphere v) (h' : OnSphere v') (n : v 2 ≠ -1) (n' : v' 2 ≠ -1) :
    dist2 v v' * ((1 + ((stereo v).1 ^ 2 + (stereo v).2 ^ 2)) * (1 + ((stereo v').1 ^ 2 + (stereo v').2 ^ 2)))
      = 4 * (((stereo v).1 - (stereo v').1) ^ 2 + ((stereo v).2 - (stereo v').2) ^ 2) := by
  have m : 1 + v 2 ≠ 0 := fun e => n (by linarith)
  have m' : 1 + v' 2 ≠ 0 := fun e => n' (by linarith)
  have e0 : v 0 = (stereo v).1 * (1 + v 2) := by simp only [stereo]; field_simp
  have e1 : v 1 = (stereo v).2 * (1 + v 2) := by simp only [stereo]; field_simp
  have e0' : v' 0 = (stereo v').1 * (1 + v' 2) := by simp only [stereo]; field_simp
  have e1' : v' 1 = (stereo v').2 * (1 + v' 2) := by simp only [stereo]; field_simp
  have u := inner3_unit h
  have u' := inner3_unit h'
  have ed : dist2 v v' = (v 0 - v' 0) ^ 2 + (v 1 - v' 1) ^ 2 + (v 2 - v' 2) ^ 2 := by
    simp only [dist2, inner3, Pi.sub_apply]; ring
  rw [ed, e0, e1, e0', e1']
  rw [e0, e1] at u
  rw [e0', e1'] at u'
  generalize (stereo v).1 = s at *
  generalize (stereo v).2 = t at *
  generalize (stereo v').1 = s' at *
  generalize (stereo v').2 = t' at *
  have a : (1 + v 2) * (1 + (s ^ 2 + t ^ 2)) = 2 := by
    apply mul_left_cancel₀ m; linear_combination u
  have a' : (1 + v' 2) * (1 + (s' ^ 2 + t' ^ 2)) = 2 := by
    apply mul_left_cancel₀ m'; linear_combination u'
  have b : 1 + v 2 = 2 / (1 + (s ^ 2 + t ^ 2)) := by rw [eq_div_iff (by positivity)]; exact a
  have b' : 1 + v' 2 = 2 / (1 + (s' ^ 2 + t' ^ 2)) := by rw [eq_div_iff (by positivity)]; exact a'
  have c : v 2 - v' 2 = 2 / (1 + (s ^ 2 + t ^ 2)) - 2 / (1 + (s' ^ 2 + t' ^ 2)) := by rw [← b, ← b']; ring
  rw [c, b, b']
  have p1 : 1 + (s ^ 2 + t ^ 2) ≠ 0 := by positivity
  have p2 : 1 + (s' ^ 2 + t' ^ 2) ≠ 0 := by positivity
  field_simp
  ring

theorem stereo_norm {v : Fin 3 → ℝ} (h : OnSphere v) (n : v 2 ≠ -1) :
    (1 + v 2) * (1 + ((stereo v).1 ^ 2 + (stereo v).2 ^ 2)) = 2 := by
  have m : 1 + v 2 ≠ 0 := fun e => n (by linarith)
  have u := inner3_unit h
  simp only [stereo]
  field_simp
  linear_combination u

/-- `scale` is the linear scale factor: the distance of two images -/
theorem image_dist {rp : ℝ} {w w' v v' : Fin 3 → ℝ} (hw : OnSphere w) (hw' : OnSphere w') (n : w 2 ≠ -1)
    (n' : w' 2 ≠ -1) (i : Image rp w v) (i' : Image rp w' v') :
    dist2 v v' = scale rp (w 2) * scale rp (w' 2) * dist2 w w' := by
  obtain ⟨a1, a2, a3⟩ := i
  obtain ⟨b1, b2, b3⟩ := i'
  have c := chord_stereo a1 b1 a2 b2
  have d := chord_stereo hw hw' n n'
  have s := stereo_norm hw n
  have s' := stereo_norm hw' n'
  rw [a3, b3] at c
  simp only [Prod.smul_fst, Prod.smul_snd, smul_eq_mul] at c
  have e : ∀ (z x y : ℝ), (1 + z) * (1 + (x ^ 2 + y ^ 2)) = 2 →
      scale rp z = rp * (1 + (x ^ 2 + y ^ 2)) / (1 + ((rp * x) ^ 2 + (rp * y) ^ 2)) := by
    intro z x y hz
    have q : 0 < 1 + (x ^ 2 + y ^ 2) := by positivity
    have hz1 : 1 + z = 2 / (1 + (x ^ 2 + y ^ 2)) := by rw [eq_div_iff q.ne']; exact hz
    have hz2 : 1 - z = 2 - 2 / (1 + (x ^ 2 + y ^ 2)) := by rw [← hz1]; ring
    unfold scale
    rw [hz1, hz2]
    have q2 : 1 + ((rp * x) ^ 2 + (rp * y) ^ 2) ≠ 0 := by positivity
    have : 2 / (1 + (x ^ 2 + y ^ 2)) + rp ^ 2 * (2 - 2 / (1 + (x ^ 2 + y ^ 2)))
        = 2 * (1 + ((rp * x) ^ 2 + (rp * y) ^ 2)) / (1 + (x ^ 2 + y ^ 2)) := by field_simp; ring
    rw [this]
    field_simp
  rw [e _ _ _ s, e _ _ _ s']
  have q : 1 + ((rp * (stereo w).1) ^ 2 + (rp * (stereo w).2) ^ 2) ≠ 0 := by positivity
  have q' : 1 + ((rp * (stereo w').1) ^ 2 + (rp * (stereo w').2) ^ 2) ≠ 0 := by positivity
  field_simp
  linear_combination c - rp ^ 2 * d

theorem tilted_sphere (lam t : ℝ) : OnSphere (tilted lam t) := by
  unfold OnSphere inner3 tilted
  have a := Real.sin_sq_add_cos_sq lam
  have b := Real.sin_sq_add_cos_sq t
  have c := sq_abs (Real.sin t)
  simp only [Matrix.cons_val]
  linear_combination b + Real.sin t ^ 2 * a + Real.cos lam ^ 2 * c

theorem before_z {p : Par} (h : Lines p.nx p.ny p.xb p.yb p.lonStart p.small p.jJoin) {j : Nat} (hj : p.jJoin ≤ j)
    (hj2 : j ≤ p.ny) (x : ℝ) :
    0 ≤ before p.lonStart p.bip.rp x (p.yb j) 2 ∧ before p.lonStart p.bip.rp x (p.yb j) 2 ≤ 1 := by
  obtain ⟨b1, b2, -⟩ := bip_range h
  obtain ⟨l1, l2⟩ := lines_lat h hj hj2
  obtain ⟨t1, t2⟩ := tilt_range b1 b2 l1 l2
  have := tilted_z t1 t2 (radians (x - p.lonStart))
  exact this

/-! ### Points -/

/-- Rows of the bipolar part: for rows `j` from the join on and any number of rounds above some `n0`, all points are computed;
the longitudes start at `start`, do not decrease and come round once (to the threshold `small`); the latitudes are
between that of the join and 90; and every point is the image, under the map which multiplies the stereographic projection by
`rp`, of the point of a bipolar grid. (`lon i` may differ from the longitude `l` of the image by less than `small`, because
`lon_in_range` rounds to its ends.) -/
theorem C95_rows (p : Par) (h : Lines p.nx p.ny p.xb p.yb p.lonStart p.small p.jJoin) {j : Nat} (hj : p.jJoin ≤ j)
    (hj2 : j ≤ p.ny) :
    ∃ lon lat : Nat → ℝ,
      (∃ n0 : Nat, ∀ fuel ≥ n0, ∀ i, i ≤ p.nx → point p fuel j i = some (lon i, lat i)) ∧
      lon 0 = p.lonStart ∧ (∀ i, i < p.nx → lon i ≤ lon (i + 1)) ∧
      p.lonStart + 360 - p.small < lon p.nx ∧ lon p.nx ≤ p.lonStart + 360 ∧
      ∀ i, i ≤ p.nx → p.yb p.jJoin ≤ lat i ∧ lat i ≤ 90 ∧
        ∃ l, lon i ≤ l ∧ l < lon i + p.small ∧
          Image (polar (radians (p.yb p.jJoin)))
            (before p.lonStart (polar (radians (p.yb p.jJoin))) (p.xb i) (p.yb j))
            (spherePoint (radians (l - p.lonStart), radians (lat i))) := by
  obtain ⟨lon, g1, g2, g3⟩ := row_core h hj hj2
  obtain ⟨b1, b2, b3⟩ := bip_range h
  obtain ⟨l1, l2⟩ := lines_lat h hj hj2
  obtain ⟨t1, t2⟩ := tilt_range b1 b2 l1 l2
  have hd := d2r_pos
  have hrd := r2d_d2r
  have hrp := r2d_pi
  have hpi := d2r_180
  have hls : p.bip.lonStart = p.lonStart := rfl
  have hsm := h.small_pos
  refine ⟨lon, _, g1, ?_, g2, ?_, ?_, ?_⟩
  · rcases g3 with ⟨-, g⟩ | ⟨-, -, g⟩
    · rw [g 0 (Nat.zero_le _), h.first, if_pos (by linarith)]
    · have := g 0 (Nat.zero_le _)
      rw [h.first, sub_self, zero_mul, lift_zero] at this
      linarith [this.1, this.2.1]
  · rcases g3 with ⟨-, g⟩ | ⟨-, -, g⟩
    · rw [g _ le_rfl, h.last, if_neg (by linarith), if_neg (by linarith)]; linarith
    · have := (g _ le_rfl).2.2
      rw [h.last, show (p.lonStart + 360 - p.lonStart) * d2r = 2 * Real.pi by rw [← hpi]; ring, lift_last] at this
      linarith
  · rcases g3 with ⟨-, g⟩ | ⟨-, -, g⟩
    · rw [g _ le_rfl, h.last, if_neg (by linarith), if_neg (by linarith)]
    · have := (g _ le_rfl).2.1
      rw [h.last, show (p.lonStart + 360 - p.lonStart) * d2r = 2 * Real.pi by rw [← hpi]; ring, lift_last] at this
      linarith
  · intro i hi
    obtain ⟨x1, x2⟩ := lines_lon h hi
    obtain ⟨f1, f2, f3, f4⟩ := phis_point b3 x1 x2 t1 t2
    rw [← xb_split] at f1 f4
    have hq : Real.arctan (p.bip.rp * (rad (Real.sin (tilt p.bip.rp (p.yb j * d2r))) ((p.xb i - p.lonStart) * d2r)
        / (1 + Real.cos (tilt p.bip.rp (p.yb j * d2r)) * |Real.sin ((p.xb i - p.lonStart) * d2r)|)))
        ≤ (Real.pi / 2 - p.yb p.jJoin * d2r) / 2 := by
      refine (Real.arctan_mono f3).trans ?_
      rw [rp_eq]
      have := half_colat b1 b2.le
      change Real.arctan (Real.tan ((Real.pi / 2 - p.bip.latJoin * d2r) / 2)) ≤ (Real.pi / 2 - p.bip.latJoin * d2r) / 2
      rw [Real.arctan_tan (by linarith [Real.pi_pos]) this.2]
    have hlo : p.yb p.jJoin * d2r ≤ phis p.bip.rp (bpLam (p.xb i) (p.yb j) p.bip.bpeq p.bip.rp * d2r)
        (bpPhi (p.xb i) p.bip.bpsp p.bip.bpnp * d2r) := by rw [f1]; linarith
    have hhi : phis p.bip.rp (bpLam (p.xb i) (p.yb j) p.bip.bpeq p.bip.rp * d2r)
        (bpPhi (p.xb i) p.bip.bpsp p.bip.bpnp * d2r) ≤ Real.pi / 2 := by
      rw [f1]; linarith [Real.arctan_nonneg.2 f2]
    have hrad : ∀ z : ℝ, radians (z * r2d) = z := by
      intro z
      change z * r2d * d2r = z
      rw [mul_assoc, hrd, mul_one]
    refine ⟨?_, ?_, ?_⟩
    · have := mul_le_mul_of_nonneg_right hlo r2d_pos.le
      rwa [mul_assoc, d2r_r2d, mul_one] at this
    · have := mul_le_mul_of_nonneg_right hhi r2d_pos.le
      linarith
    · have key : ∀ l : ℝ, lon i ≤ l → l < lon i + p.small →
          rad (Real.sin (tilt p.bip.rp (p.yb j * d2r))) ((p.xb i - p.lonStart) * d2r) * Real.cos (radians (l - p.lonStart))
            = Real.cos ((p.xb i - p.lonStart) * d2r) →
          rad (Real.sin (tilt p.bip.rp (p.yb j * d2r))) ((p.xb i - p.lonStart) * d2r) * Real.sin (radians (l - p.lonStart))
            = Real.sin (tilt p.bip.rp (p.yb j * d2r)) * Real.sin ((p.xb i - p.lonStart) * d2r) →
          ∃ l, lon i ≤ l ∧ l < lon i + p.small ∧
          Image (polar (radians (p.yb p.jJoin)))
            (before p.lonStart (polar (radians (p.yb p.jJoin))) (p.xb i) (p.yb j))
            (spherePoint (radians (l - p.lonStart), radians (phis p.bip.rp (bpLam (p.xb i) (p.yb j) p.bip.bpeq p.bip.rp * d2r)
              (bpPhi (p.xb i) p.bip.bpsp p.bip.bpnp * d2r) * r2d))) := by
        intro l k1 k2 k3 k4
        refine ⟨l, k1, k2, ?_, ?_, ?_⟩
        · unfold OnSphere inner3 spherePoint
          simp only [Matrix.cons_val]
          have a := Real.sin_sq_add_cos_sq (radians (l - p.lonStart))
          have b := Real.sin_sq_add_cos_sq (radians (phis p.bip.rp (bpLam (p.xb i) (p.yb j) p.bip.bpeq p.bip.rp * d2r)
              (bpPhi (p.xb i) p.bip.bpsp p.bip.bpnp * d2r) * r2d))
          linear_combination b + Real.cos (radians (phis p.bip.rp (bpLam (p.xb i) (p.yb j) p.bip.bpeq p.bip.rp * d2r)
              (bpPhi (p.xb i) p.bip.bpsp p.bip.bpnp * d2r) * r2d)) ^ 2 * a
        · rw [hrad]
          simp only [spherePoint, Matrix.cons_val]
          have hj0 : 0 ≤ p.yb p.jJoin * d2r := mul_nonneg h.join_lat.1 hd.le
          have := Real.sin_nonneg_of_nonneg_of_le_pi (hj0.trans hlo) (by linarith [Real.pi_pos])
          linarith
        · rw [hrad, ← rp_at h]
          exact f4 _ k3 k4
      rcases g3 with ⟨hy, g⟩ | ⟨-, hs, g⟩
      · have hz : Real.sin (tilt p.bip.rp (p.yb j * d2r)) = 0 := by rw [hy, tilt_pole, Real.sin_zero]
        have hr0 : rad (Real.sin (tilt p.bip.rp (p.yb j * d2r))) ((p.xb i - p.lonStart) * d2r)
            = |Real.cos ((p.xb i - p.lonStart) * d2r)| := by
          rw [hz]; unfold rad; rw [zero_mul, zero_pow (by norm_num), add_zero, Real.sqrt_sq_eq_abs]
        refine key (lon i) le_rfl (by linarith) ?_ ?_
        · rw [hr0, g i hi]
          split_ifs with c1 c2
          · rw [sub_self, show radians 0 = 0 by unfold radians; ring, Real.cos_zero, mul_one]
            exact abs_of_nonneg (Real.cos_nonneg_of_mem_Icc ⟨by nlinarith, by nlinarith⟩)
          · rw [show p.lonStart + 180 - p.lonStart = 180 by ring, show radians 180 = Real.pi by unfold radians; ring,
              Real.cos_pi]
            rw [abs_of_nonpos (Real.cos_nonpos_of_pi_div_two_le_of_le (by nlinarith) (by nlinarith))]
            ring
          · rw [show p.lonStart + 360 - p.lonStart = 360 by ring, show radians 360 = 2 * Real.pi by unfold radians; ring,
              Real.cos_two_pi, mul_one]
            rw [← Real.cos_sub_two_pi]
            exact abs_of_nonneg (Real.cos_nonneg_of_mem_Icc ⟨by nlinarith, by nlinarith⟩)
        · rw [hz, zero_mul, g i hi]
          split_ifs with c1 c2
          · rw [sub_self, show radians 0 = 0 by unfold radians; ring, Real.sin_zero, mul_zero]
          · rw [show p.lonStart + 180 - p.lonStart = 180 by ring, show radians 180 = Real.pi by unfold radians; ring,
              Real.sin_pi, mul_zero]
          · rw [show p.lonStart + 360 - p.lonStart = 360 by ring, show radians 360 = 2 * Real.pi by unfold radians; ring,
              Real.sin_two_pi, mul_zero]
      · obtain ⟨-, q2, q3⟩ := g i hi
        have hr := rad_pos hs ((p.xb i - p.lonStart) * d2r)
        refine key _ q2 q3 ?_ ?_
        · rw [show p.lonStart + lift (Real.sin (tilt p.bip.rp (p.yb j * d2r))) ((p.xb i - p.lonStart) * d2r) * r2d
            - p.lonStart = lift (Real.sin (tilt p.bip.rp (p.yb j * d2r))) ((p.xb i - p.lonStart) * d2r) * r2d by ring,
            hrad, lift_cos hs, mul_div_cancel₀ _ hr.ne']
        · rw [show p.lonStart + lift (Real.sin (tilt p.bip.rp (p.yb j * d2r))) ((p.xb i - p.lonStart) * d2r) * r2d
            - p.lonStart = lift (Real.sin (tilt p.bip.rp (p.yb j * d2r))) ((p.xb i - p.lonStart) * d2r) * r2d by ring,
            hrad, lift_sin hs (by positivity) (by rw [← hpi]; nlinarith), mul_div_cancel₀ _ hr.ne']

/-- The row of the join: the bipolar part continues the regular part. -/
theorem C95_join (p : Par) (h : Lines p.nx p.ny p.xb p.yb p.lonStart p.small p.jJoin) :
    ∃ lon : Nat → ℝ, (∃ n0 : Nat, ∀ fuel ≥ n0, ∀ i, i ≤ p.nx → point p fuel p.jJoin i = some (lon i, p.yb p.jJoin)) ∧
      ∀ i, i ≤ p.nx → lon i ≤ p.xb i ∧ p.xb i < lon i + p.small := by
  obtain ⟨lon, ⟨n0, g1⟩, g2, g3⟩ := row_core h le_rfl h.join_le
  obtain ⟨b1, b2, b3⟩ := bip_range h
  have hd := d2r_pos
  have hpi := d2r_180
  have ht : tilt p.bip.rp (p.yb p.jJoin * d2r) = Real.pi / 2 := tilt_join b1 b2
  have h90 := h.join_lat.2
  refine ⟨lon, ⟨n0, fun fuel hf i hi => ?_⟩, fun i hi => ?_⟩
  · rw [g1 fuel hf i hi]
    obtain ⟨x1, x2⟩ := lines_lon h hi
    obtain ⟨f1, -, -, -⟩ := phis_point (y := p.yb p.jJoin) b3 x1 x2 (by rw [ht]; linarith [Real.pi_pos]) (by rw [ht])
    rw [← xb_split] at f1
    rw [f1, ht]
    have e : rad (Real.sin (Real.pi / 2)) ((p.xb i - p.lonStart) * d2r) = 1 := by
      unfold rad
      rw [Real.sin_pi_div_two, one_mul, add_comm, Real.sin_sq_add_cos_sq, Real.sqrt_one]
    rw [e, Real.cos_pi_div_two, zero_mul, add_zero, div_one, mul_one, rp_eq]
    have hc := half_colat b1 b2.le
    have hl : p.bip.latJoin = p.yb p.jJoin := rfl
    rw [Real.arctan_tan (by linarith [Real.pi_pos]) hc.2, hl]
    congr 2
    rw [show Real.pi * (1 / 2) - 2 * ((Real.pi / 2 - p.yb p.jJoin * d2r) / 2) = p.yb p.jJoin * d2r by ring, mul_assoc,
      d2r_r2d, mul_one]
  · rcases g3 with ⟨hy, -⟩ | ⟨-, -, g⟩
    · linarith
    · obtain ⟨-, q2, q3⟩ := g i hi
      obtain ⟨x1, x2⟩ := lines_lon h hi
      rw [ht, Real.sin_pi_div_two, lift_one (by positivity) (by rw [← hpi]; nlinarith), mul_assoc, d2r_r2d, mul_one] at q2 q3
      constructor <;> linarith

/-- The last row, at the pole of the grid lines, is folded: if the longitudes are symmetric, points `i` and `nx - i` are the
same point. -/
theorem C95_fold (p : Par) (h : Lines p.nx p.ny p.xb p.yb p.lonStart p.small p.jJoin) (htop : p.yb p.ny = 90)
    (sym : ∀ i, i ≤ p.nx → p.xb (p.nx - i) - p.lonStart = 360 - (p.xb i - p.lonStart)) :
    ∃ n0 : Nat, ∀ fuel ≥ n0, ∀ i, i ≤ p.nx → ∃ lon lon' lat : ℝ, ∃ z : Int,
      point p fuel p.ny i = some (lon, lat) ∧ point p fuel p.ny (p.nx - i) = some (lon', lat) ∧ lon' = lon + z * 360 := by
  obtain ⟨lon, ⟨n0, g1⟩, g2, g3⟩ := row_core h h.join_le le_rfl
  rcases g3 with ⟨-, g⟩ | ⟨hy, -⟩
  · refine ⟨n0, fun fuel hf i hi => ?_⟩
    have x := lines_lon h hi
    have x' := lines_lon h (show p.nx - i ≤ p.nx by omega)
    have hs := sym i hi
    have hpi := d2r_180
    have hlat : phis p.bip.rp (bpLam (p.xb (p.nx - i)) (p.yb p.ny) p.bip.bpeq p.bip.rp * d2r)
          (bpPhi (p.xb (p.nx - i)) p.bip.bpsp p.bip.bpnp * d2r)
        = phis p.bip.rp (bpLam (p.xb i) (p.yb p.ny) p.bip.bpeq p.bip.rp * d2r)
          (bpPhi (p.xb i) p.bip.bpsp p.bip.bpnp * d2r) := by
      unfold phis
      rw [xb_split i, xb_split (p.nx - i), (lamc_trig p.bip _ _ x.1 x.2).1, (lamc_trig p.bip _ _ x'.1 x'.2).1,
        (phic_trig p.bip x.1 x.2).2, (phic_trig p.bip x'.1 x'.2).2, hs,
        show (360 - (p.xb i - p.lonStart)) * d2r = 2 * Real.pi - (p.xb i - p.lonStart) * d2r by rw [← hpi]; ring,
        Real.sin_two_pi_sub, abs_neg]
    refine ⟨lon i, lon (p.nx - i), phis p.bip.rp (bpLam (p.xb i) (p.yb p.ny) p.bip.bpeq p.bip.rp * d2r)
          (bpPhi (p.xb i) p.bip.bpsp p.bip.bpnp * d2r) * r2d, ?_⟩
    have e : ∃ z : Int, lon (p.nx - i) = lon i + z * 360 := by
      rw [g i hi, g (p.nx - i) (by omega), hs]
      rcases lt_or_ge (p.xb i - p.lonStart) 90 with c | c
      · refine ⟨1, ?_⟩
        rw [if_pos c, if_neg (by linarith), if_neg (by linarith)]; norm_num
      · rcases le_or_gt (p.xb i - p.lonStart) 270 with c2 | c2
        · refine ⟨0, ?_⟩
          rw [if_neg (by linarith), if_pos (by linarith), if_neg (by linarith), if_pos c2]; norm_num
        · refine ⟨-1, ?_⟩
          rw [if_pos (by linarith), if_neg (by linarith), if_neg (by linarith)]; norm_num
    obtain ⟨z, hz⟩ := e
    refine ⟨z, g1 fuel hf i hi, ?_, hz⟩
    rw [g1 fuel hf _ (by omega), hlat]
  · rw [htop] at hy; exact absurd hy (lt_irrefl _)

/-- The row of the join is one whose latitude is nearest to the latitude asked for. -/
theorem C95_join_row (lat : ℝ) (yb : Nat → ℝ) (n : Nat) (h2 : 2 ≤ n) (hy : ∀ j k, j ≤ k → k < n → yb j ≤ yb k) :
    ∃ j, joinRow lat yb n = some j ∧ j < n ∧ ∀ k, k < n → |yb j - lat| ≤ |yb k - lat| := by
  obtain ⟨r, hr, h3, h4⟩ := C23_nearest lat yb n h2 hy
  refine ⟨r, ?_, h3, fun k hk => ?_⟩
  · unfold joinRow
    rw [hr]
  · exact h4 k hk

/-- A case for it: rows at 0, 30, 60 and 90 -/
example : ∃ j, joinRow 65 (fun j => 30 * j) 4 = some j ∧ j < 4 ∧ ∀ k : Nat, k < 4 → |30 * (j : ℝ) - 65| ≤ |30 * (k : ℝ) - 65| :=
  C95_join_row 65 (fun j => 30 * j) 4 (by norm_num) (fun j k h _ => by
    have : (j : ℝ) ≤ k := by exact_mod_cast h
    linarith)

/-- South of the join the points are those of the grid lines. -/
theorem C95_south (p : Par) (fuel : Nat) {j : Nat} (hj : j < p.jJoin) (i : Nat) :
    point p fuel j i = some (p.xb i, p.yb j) := by
  unfold point; rw [if_pos hj]

/-- The first point is at the start only if the start is at least -360: else `lon_in_range` moves it. With a start of -650
degrees the row starts at -290. -/
theorem C95_start_wrong : ∃ p : Par, p.nx = 4 ∧ p.lonStart = -650 ∧
    (∀ i, p.xb i = p.lonStart + 90 * i) ∧ p.jJoin = 0 ∧ p.yb 0 = 0 ∧
    ∃ n0 : Nat, ∀ fuel ≥ n0, ∃ lon lat, point p fuel 0 0 = some (lon, lat) ∧ lon = p.lonStart + 360 := by
  refine ⟨⟨4, 1, fun i => -650 + 90 * i, fun j => 45 * j, -650, 1 / 1000, 1, 0⟩, rfl, rfl, fun i => rfl, rfl, by norm_num, ?_⟩
  set b : Bip := ⟨-650, 0⟩ with hb
  have hpi := d2r_180
  have hrd := r2d_d2r
  have hrpi := r2d_pi
  have hs1 : tilt b.rp (0 * d2r) = Real.pi / 2 := by
    have := tilt_join (b := b) (by simp [hb]) (by simp [hb])
    simpa [hb] using this
  have hlam : bpLam (-650) 0 b.bpeq b.rp * d2r = Real.pi / 2 := by
    have := bpLam_eq b 0 b.rp (θ := 0) le_rfl (by norm_num)
    rw [hs1, if_neg (by norm_num), add_zero] at this
    exact this
  have hphi : bpPhi (-650) b.bpsp b.bpnp = 90 := by
    have := bpPhi_eq b (θ := 0) le_rfl (by norm_num)
    rw [if_pos (by norm_num), add_zero, sub_zero] at this
    exact this
  have hat : atan2 (Real.sin (Real.pi / 2) * Real.cos (90 * d2r)) (Real.sin (90 * d2r)) = 0 := by
    rw [show (90 : ℝ) * d2r = Real.pi / 2 by rw [← hpi]; ring, Real.cos_pi_div_two, Real.sin_pi_div_two]
    unfold atan2
    rw [show (⟨1, 1 * 0⟩ : ℂ) = 1 by apply Complex.ext <;> simp]
    exact Complex.arg_one
  have hfm : ∀ a : ℝ, -2 * Real.pi < a → a < 0 → fmod a (2 * Real.pi) = a := by
    intro a h1 h2
    have hp : 0 < 2 * Real.pi := by linarith [Real.pi_pos]
    have hneg : a / (2 * Real.pi) < 0 := div_neg_of_neg_of_pos h2 hp
    unfold fmod
    rw [if_neg (not_le.2 hneg), show ⌈a / (2 * Real.pi)⌉ = 0 by
      rw [Int.ceil_eq_iff]; constructor
      · rw [lt_div_iff₀ hp]; push_cast; linarith
      · push_cast; exact hneg.le]
    push_cast; ring
  have hl0 : b.lam0 = -(200 * d2r) := by
    unfold Bip.lam0 Bip.bpeq
    have e : ((-650 : ℝ) + 90) * d2r + 2 * Real.pi = -(200 * d2r) := by rw [← hpi]; ring
    rw [show b.lonStart = -650 from rfl, e]
    apply hfm <;> linarith [d2r_pos]
  have hfm2 : fmod (b.lam0 + Real.pi + Real.pi / 2 - 0) (2 * Real.pi) = 70 * d2r := by
    rw [hl0, show -(200 * d2r) + Real.pi + Real.pi / 2 - 0 = 70 * d2r by rw [← hpi]; ring]
    have := fmod_eq (a := 70 * d2r) (b := 2 * Real.pi) (by linarith [Real.pi_pos]) 0 (by push_cast; nlinarith [d2r_pos])
      (by push_cast; nlinarith [d2r_pos])
    rw [this]; push_cast; ring
  obtain ⟨n0, hn⟩ := Lon.C32_in_range (1 / 1000) (70 : ℝ) (-650)
  refine ⟨n0 + 3, fun fuel hf => ?_⟩
  have hin : Lon.lonInRange (1 / 1000 : ℝ) fuel 70 (-650) = some (-290) := by
    obtain ⟨f, rfl⟩ : ∃ f, fuel = f + 3 := ⟨fuel - 3, by omega⟩
    unfold Lon.lonInRange
    norm_num [Lon.rangeLoop, abs_lt]
  refine ⟨-290, phis b.rp (Real.pi / 2) (90 * d2r) * r2d, ?_, by norm_num⟩
  unfold point
  rw [if_neg (by simp)]
  unfold tpRow tpTrans
  dsimp only
  simp only [Par.bip]
  simp only [Nat.cast_zero, mul_zero, add_zero]
  rw [← hb, hlam, hphi]
  have n1 : ¬ |(0 : ℝ) - 90| < 1 / 1000 := by norm_num
  have n2 : ¬ (|Real.pi / 2| < 1 / 1000 ∧ |90 * d2r| < 1 / 1000) := by
    rintro ⟨a, -⟩
    rw [abs_of_pos (by linarith [Real.pi_pos])] at a
    linarith [Real.pi_gt_three]
  rw [if_neg n1, if_neg n2, hat, hfm2, show 70 * d2r * r2d = 70 by rw [mul_assoc, d2r_r2d, mul_one], hin]
  rfl

/-! ### Lengths -/

theorem metric_eq {p : Par} (h : Lines p.nx p.ny p.xb p.yb p.lonStart p.small p.jJoin) {i j : Nat} (hi : i ≤ p.nx)
    (hj : p.jJoin ≤ j) (hj2 : j ≤ p.ny) : metric p.small p.bip (p.xb i) (p.yb j)
      = scale p.bip.rp (before p.lonStart p.bip.rp (p.xb i) (p.yb j) 2) := by
  obtain ⟨b1, b2, b3⟩ := bip_range h
  obtain ⟨l1, l2⟩ := lines_lat h hj hj2
  obtain ⟨t1, t2⟩ := tilt_range b1 b2 l1 l2
  obtain ⟨x1, x2⟩ := lines_lon h hi
  have hz := tilted_z t1 t2 ((p.xb i - p.lonStart) * d2r)
  have hcond : |p.yb j - 90| < p.small ∨ p.small ≤ |bpLam (p.xb i) (p.yb j) p.bip.bpeq p.bip.rp * d2r| ∨
      p.small ≤ |bpPhi (p.xb i) p.bip.bpsp p.bip.bpnp * d2r| := by
    rcases h.clear j hj hj2 with e | e
    · left; rw [e, sub_self, abs_zero]; exact h.small_pos
    · right; left
      rw [xb_split i, bpLam_eq _ _ _ x1 x2]
      have := tilt_small h.small_pos h.join_lat.1 b2 (by linarith [h.join_lat.1]) e
      split_ifs
      · rw [abs_neg]; exact this.trans (le_abs_self _)
      · exact this.trans (le_abs_self _)
  have hb : before p.lonStart p.bip.rp (p.xb i) (p.yb j) 2
      = Real.cos (tilt p.bip.rp (p.yb j * d2r)) * |Real.sin ((p.xb i - p.lonStart) * d2r)| := rfl
  unfold metric
  dsimp only
  rw [if_pos hcond, hb, xb_split i, (lamc_trig _ _ _ x1 x2).1, (phic_trig _ x1 x2).2, ← xb_split i]
  set w := Real.cos (tilt p.bip.rp (p.yb j * d2r)) * |Real.sin ((p.xb i - p.lonStart) * d2r)| with hw
  have hc := Real.cos_arccos (show -1 ≤ w by linarith [hz.1]) hz.2
  set c := Real.arccos w with hcd
  have e1 : Real.cos (c / 2) ^ 2 = (1 + w) / 2 := by
    have := Real.cos_sq (c / 2)
    rw [show 2 * (c / 2) = c by ring, hc] at this
    rw [this]; ring
  have hpos : 0 < Real.cos (c / 2) ^ 2 := by rw [e1]; linarith [hz.1]
  have e2 : Real.tan (c / 2) ^ 2 = (1 - w) / (1 + w) := by
    rw [Real.tan_eq_sin_div_cos, div_pow]
    have := Real.sin_sq_add_cos_sq (c / 2)
    rw [show Real.sin (c / 2) ^ 2 = (1 - w) / 2 by rw [e1] at this; linarith, e1]
    have : 1 + w ≠ 0 := by linarith [hz.1]
    field_simp
  rw [e1, e2]
  unfold scale
  have n1 : 1 + w ≠ 0 := by linarith [hz.1]
  have n2 : 1 + w + p.bip.rp ^ 2 * (1 - w) ≠ 0 := by
    have : 0 ≤ p.bip.rp ^ 2 * (1 - w) := mul_nonneg (sq_nonneg _) (by linarith [hz.2])
    linarith [hz.1]
  have n3 : 1 + p.bip.rp ^ 2 * ((1 - w) / (1 + w)) ≠ 0 := by
    have : 0 ≤ p.bip.rp ^ 2 * ((1 - w) / (1 + w)) :=
      mul_nonneg (sq_nonneg _) (div_nonneg (by linarith [hz.2]) (by linarith [hz.1]))
    linarith
  field_simp

/-- The metric of `bipolar_dist` is the linear scale factor of the map: the straight distance of any two points of the
bipolar part is that of the points before the transformation times the geometric mean of the metrics. -/
theorem C95_scale (p : Par) (h : Lines p.nx p.ny p.xb p.yb p.lonStart p.small p.jJoin) {i i' j j' : Nat}
    (hi : i ≤ p.nx) (hi' : i' ≤ p.nx) (hj : p.jJoin ≤ j) (hj2 : j ≤ p.ny) (hj' : p.jJoin ≤ j') (hj2' : j' ≤ p.ny)
    {v v' : Fin 3 → ℝ}
    (hv : Image (polar (radians (p.yb p.jJoin))) (before p.lonStart (polar (radians (p.yb p.jJoin))) (p.xb i) (p.yb j)) v)
    (hv' : Image (polar (radians (p.yb p.jJoin))) (before p.lonStart (polar (radians (p.yb p.jJoin))) (p.xb i') (p.yb j')) v') :
    dist2 v v' = metric p.small p.bip (p.xb i) (p.yb j) * metric p.small p.bip (p.xb i') (p.yb j')
      * dist2 (before p.lonStart (polar (radians (p.yb p.jJoin))) (p.xb i) (p.yb j))
        (before p.lonStart (polar (radians (p.yb p.jJoin))) (p.xb i') (p.yb j')) := by
  rw [← rp_at h] at *
  rw [metric_eq h hi hj hj2, metric_eq h hi' hj' hj2']
  have z := before_z h hj hj2 (p.xb i)
  have z' := before_z h hj' hj2' (p.xb i')
  exact image_dist (tilted_sphere _ _) (tilted_sphere _ _) (by linarith [z.1]) (by linarith [z'.1]) hv hv'

/-- Both ends of an edge between columns are in the same half of the turn. -/
def SameHalf (p : Par) (i : Nat) : Prop :=
  p.xb (i + 1) - p.lonStart ≤ 180 ∨ 180 ≤ p.xb i - p.lonStart

theorem cos_ge (x : ℝ) : 2 - 2 * Real.cos x ≤ x ^ 2 := by
  have := Real.one_sub_sq_div_two_le_cos (x := x)
  linarith

theorem dist2_row {lam t u : ℝ} (hs : 0 ≤ Real.sin t * Real.sin u) :
    dist2 (tilted lam t) (tilted lam u) = 2 - 2 * Real.cos (u - t) := by
  have a := Real.sin_sq_add_cos_sq lam
  have b := Real.sin_sq_add_cos_sq t
  have c := Real.sin_sq_add_cos_sq u
  have e : |Real.sin t| * |Real.sin u| = Real.sin t * Real.sin u := by rw [← abs_mul, abs_of_nonneg hs]
  have et := sq_abs (Real.sin t)
  have eu := sq_abs (Real.sin u)
  simp only [dist2, inner3, tilted, Pi.sub_apply, Matrix.cons_val, Real.cos_sub]
  linear_combination b + c + (Real.sin t - Real.sin u) ^ 2 * a + Real.cos lam ^ 2 * (et + eu - 2 * e)

theorem dist2_column (lam mu t : ℝ) :
    dist2 (tilted lam t) (tilted mu t) = Real.sin t ^ 2 * (2 - 2 * Real.cos (lam - mu)) := by
  have a := Real.sin_sq_add_cos_sq lam
  have b := Real.sin_sq_add_cos_sq mu
  have et := sq_abs (Real.sin t)
  simp only [dist2, inner3, tilted, Pi.sub_apply, Matrix.cons_val, Real.cos_sub]
  linear_combination Real.sin t ^ 2 * (a + b) + (Real.cos lam - Real.cos mu) ^ 2 * et

theorem scale_pos {rp z : ℝ} (hr : 0 < rp) (h0 : 0 ≤ z) (h1 : z ≤ 1) : 0 < scale rp z := by
  unfold scale
  have : 0 ≤ rp ^ 2 * (1 - z) := mul_nonneg (sq_nonneg _) (by linarith)
  positivity

theorem mean_bound {R m m' d a : ℝ} (h : 0 < m) (h' : 0 < m') (hd : d ≤ a ^ 2) :
    R ^ 2 * (m * m' * d) ≤ (R * ((m + m') / 2) * a) ^ 2 := by
  have h1 : m * m' * d ≤ ((m + m') / 2) ^ 2 * a ^ 2 := by
    have k : m * m' ≤ ((m + m') / 2) ^ 2 := by nlinarith [sq_nonneg (m - m')]
    calc m * m' * d ≤ m * m' * a ^ 2 := mul_le_mul_of_nonneg_left hd (by positivity)
      _ ≤ _ := mul_le_mul_of_nonneg_right k (sq_nonneg _)
  calc _ ≤ R ^ 2 * (((m + m') / 2) ^ 2 * a ^ 2) := mul_le_mul_of_nonneg_left h1 (sq_nonneg _)
    _ = _ := by ring

/-- Edges in the direction of a row, in the bipolar part: the length is the mean of the scale factors at the ends times the
angle between the columns, and never less than the straight distance between the ends. -/
theorem C95_dx (p : Par) (h : Lines p.nx p.ny p.xb p.yb p.lonStart p.small p.jJoin) {i j : Nat} (hi : i < p.nx)
    (hj : p.jJoin ≤ j) (hj2 : j ≤ p.ny) (hh : SameHalf p i) :
    ∃ L, dx p j i = some L ∧
      L = p.radius * ((scale (polar (radians (p.yb p.jJoin)))
            (before p.lonStart (polar (radians (p.yb p.jJoin))) (p.xb i) (p.yb j) 2)
          + scale (polar (radians (p.yb p.jJoin)))
            (before p.lonStart (polar (radians (p.yb p.jJoin))) (p.xb (i + 1)) (p.yb j) 2)) / 2)
        * radians (p.xb (i + 1) - p.xb i) ∧
      ∀ v v' : Fin 3 → ℝ,
        Image (polar (radians (p.yb p.jJoin))) (before p.lonStart (polar (radians (p.yb p.jJoin))) (p.xb i) (p.yb j)) v →
        Image (polar (radians (p.yb p.jJoin)))
          (before p.lonStart (polar (radians (p.yb p.jJoin))) (p.xb (i + 1)) (p.yb j)) v' →
        p.radius ^ 2 * dist2 v v' ≤ L ^ 2 := by
  rw [← rp_at h] at *
  obtain ⟨b1, b2, b3⟩ := bip_range h
  have x := lines_lon h (show i ≤ p.nx by omega)
  have x' := lines_lon h (show i + 1 ≤ p.nx by omega)
  have st := (h.step i hi).1
  have hd := d2r_pos
  have hpi := d2r_180
  have hphi : |bpPhi (p.xb i) p.bip.bpsp p.bip.bpnp - bpPhi (p.xb (i + 1)) p.bip.bpsp p.bip.bpnp| = p.xb (i + 1) - p.xb i := by
    rw [xb_split i, xb_split (i + 1), bpPhi_eq _ x.1 x.2, bpPhi_eq _ x'.1 x'.2]
    rcases hh with c | c
    · rw [if_pos (by linarith), if_pos c, abs_of_nonneg (by linarith)]; ring
    · have e : ∀ z : ℝ, 180 ≤ z → (if z ≤ 180 then 90 - z else z - 270) = z - 270 := by
        intro z hz
        split_ifs with hz2
        · linarith
        · rfl
      rw [e _ c, e _ (by linarith), abs_of_nonpos (by linarith)]; ring
  have hL : dx p j i = some (p.radius * ((scale p.bip.rp (before p.lonStart p.bip.rp (p.xb i) (p.yb j) 2)
          + scale p.bip.rp (before p.lonStart p.bip.rp (p.xb (i + 1)) (p.yb j) 2)) / 2)
        * radians (p.xb (i + 1) - p.xb i)) := by
    unfold dx
    rw [if_neg (by omega)]
    unfold bipolarDist
    dsimp only
    by_cases e : p.xb i = p.xb (i + 1)
    · rw [if_pos e, ← e]
      simp [distant, radians]
    · rw [if_neg e, if_pos rfl]
      unfold distant
      rw [hphi, metric_eq h (by omega) hj hj2, metric_eq h (by omega) hj hj2]
      change some (_ * d2r * _ / 2) = some (_ * (_ * d2r))
      congr 1
      ring
  refine ⟨_, hL, rfl, fun v v' hv hv' => ?_⟩
  have z := before_z h hj hj2 (p.xb i)
  have z' := before_z h hj hj2 (p.xb (i + 1))
  have m1 := scale_pos b3 z.1 z.2
  have m2 := scale_pos b3 z'.1 z'.2
  have hsin : 0 ≤ Real.sin (radians (p.xb i - p.lonStart)) * Real.sin (radians (p.xb (i + 1) - p.lonStart)) := by
    have r : ∀ q : ℝ, radians q = q * d2r := fun _ => rfl
    rw [r, r]
    rcases hh with c | c
    · exact mul_nonneg (Real.sin_nonneg_of_nonneg_of_le_pi (by nlinarith) (by nlinarith))
        (Real.sin_nonneg_of_nonneg_of_le_pi (by nlinarith) (by nlinarith))
    · have k : ∀ q : ℝ, 180 ≤ q → q ≤ 360 → Real.sin (q * d2r) ≤ 0 := by
        intro q q1 q2
        have := Real.sin_nonneg_of_nonneg_of_le_pi (x := q * d2r - Real.pi) (by nlinarith) (by nlinarith)
        rw [Real.sin_sub_pi] at this
        linarith
      exact mul_nonneg_of_nonpos_of_nonpos (k _ c x.2) (k _ (by linarith) x'.2)
  have zn : ∀ q : ℝ, 0 ≤ q → q ≠ -1 := fun q hq e => by linarith
  rw [image_dist (tilted_sphere _ _) (tilted_sphere _ _) (zn _ z.1) (zn _ z'.1) hv hv']
  have hdist : dist2 (before p.lonStart p.bip.rp (p.xb i) (p.yb j)) (before p.lonStart p.bip.rp (p.xb (i + 1)) (p.yb j))
      ≤ radians (p.xb (i + 1) - p.xb i) ^ 2 := by
    unfold before
    rw [dist2_row hsin]
    have : radians (p.xb (i + 1) - p.lonStart) - radians (p.xb i - p.lonStart) = radians (p.xb (i + 1) - p.xb i) := by
      unfold radians; ring
    rw [this]
    exact cos_ge _
  exact mean_bound m1 m2 hdist

/-- Edges in the direction of a column, in the bipolar part: the length is the mean of the scale factors at the ends times the
arc between the tilted lines, and never less than the straight distance between the ends. -/
theorem C95_dy (p : Par) (h : Lines p.nx p.ny p.xb p.yb p.lonStart p.small p.jJoin) {i j : Nat} (hi : i ≤ p.nx)
    (hj : p.jJoin ≤ j) (hj2 : j < p.ny) :
    ∃ L, dy p j i = some L ∧
      L = p.radius * ((scale (polar (radians (p.yb p.jJoin)))
            (before p.lonStart (polar (radians (p.yb p.jJoin))) (p.xb i) (p.yb j) 2)
          + scale (polar (radians (p.yb p.jJoin)))
            (before p.lonStart (polar (radians (p.yb p.jJoin))) (p.xb i) (p.yb (j + 1)) 2)) / 2)
        * (|Real.sin (radians (p.xb i - p.lonStart))| * |tilt (polar (radians (p.yb p.jJoin))) (radians (p.yb j))
          - tilt (polar (radians (p.yb p.jJoin))) (radians (p.yb (j + 1)))|) ∧
      ∀ v v' : Fin 3 → ℝ,
        Image (polar (radians (p.yb p.jJoin))) (before p.lonStart (polar (radians (p.yb p.jJoin))) (p.xb i) (p.yb j)) v →
        Image (polar (radians (p.yb p.jJoin)))
          (before p.lonStart (polar (radians (p.yb p.jJoin))) (p.xb i) (p.yb (j + 1))) v' →
        p.radius ^ 2 * dist2 v v' ≤ L ^ 2 := by
  rw [← rp_at h] at *
  obtain ⟨b1, b2, b3⟩ := bip_range h
  have x := lines_lon h hi
  have hrd := r2d_d2r
  have hlam : |bpLam (p.xb i) (p.yb j) p.bip.bpeq p.bip.rp - bpLam (p.xb i) (p.yb (j + 1)) p.bip.bpeq p.bip.rp| * d2r
      = |tilt p.bip.rp (radians (p.yb j)) - tilt p.bip.rp (radians (p.yb (j + 1)))| := by
    have hd := d2r_pos
    rw [show |bpLam (p.xb i) (p.yb j) p.bip.bpeq p.bip.rp - bpLam (p.xb i) (p.yb (j + 1)) p.bip.bpeq p.bip.rp| * d2r
      = |bpLam (p.xb i) (p.yb j) p.bip.bpeq p.bip.rp * d2r - bpLam (p.xb i) (p.yb (j + 1)) p.bip.bpeq p.bip.rp * d2r| by
        rw [← sub_mul, abs_mul, abs_of_pos hd]]
    rw [xb_split i, bpLam_eq _ _ _ x.1 x.2, bpLam_eq _ _ _ x.1 x.2]
    split_ifs
    · rw [show -tilt p.bip.rp (p.yb j * d2r) - -tilt p.bip.rp (p.yb (j + 1) * d2r)
        = -(tilt p.bip.rp (p.yb j * d2r) - tilt p.bip.rp (p.yb (j + 1) * d2r)) by ring, abs_neg]
      rfl
    · rfl
  have hcos : Real.cos (bpPhi (p.xb i) p.bip.bpsp p.bip.bpnp * d2r) = |Real.sin (radians (p.xb i - p.lonStart))| := by
    rw [xb_split i, (phic_trig _ x.1 x.2).2, ← xb_split i]; rfl
  have hL : dy p j i = some (p.radius * ((scale p.bip.rp (before p.lonStart p.bip.rp (p.xb i) (p.yb j) 2)
          + scale p.bip.rp (before p.lonStart p.bip.rp (p.xb i) (p.yb (j + 1)) 2)) / 2)
        * (|Real.sin (radians (p.xb i - p.lonStart))| * |tilt p.bip.rp (radians (p.yb j))
          - tilt p.bip.rp (radians (p.yb (j + 1)))|)) := by
    unfold dy
    rw [if_neg (by omega)]
    unfold bipolarDist
    dsimp only
    rw [if_pos rfl]
    unfold distant
    rw [hlam, hcos, metric_eq h hi hj (by omega), metric_eq h hi (by omega) (by omega)]
    congr 1
    ring
  refine ⟨_, hL, rfl, fun v v' hv hv' => ?_⟩
  have z := before_z h hj hj2.le (p.xb i)
  have z' := before_z h (show p.jJoin ≤ j + 1 by omega) (by omega) (p.xb i)
  have m1 := scale_pos b3 z.1 z.2
  have m2 := scale_pos b3 z'.1 z'.2
  have zn : ∀ q : ℝ, 0 ≤ q → q ≠ -1 := fun q hq e => by linarith
  rw [image_dist (tilted_sphere _ _) (tilted_sphere _ _) (zn _ z.1) (zn _ z'.1) hv hv']
  refine mean_bound m1 m2 ?_
  rw [dist2_column, mul_pow, sq_abs, sq_abs]
  exact mul_le_mul_of_nonneg_left (cos_ge _) (sq_nonneg _)

/-- South of the join the lengths are those of arcs of the parallel and of the meridian, and so they are along the row of
the join, where the bipolar formula is used. -/
theorem C95_lengths_south (p : Par) (h : Lines p.nx p.ny p.xb p.yb p.lonStart p.small p.jJoin) {i j : Nat} :
    (i < p.nx → j < p.jJoin → dx p j i = some (p.radius * Real.cos (radians (p.yb j)) * radians (p.xb (i + 1) - p.xb i))) ∧
    (i < p.nx → SameHalf p i → dx p p.jJoin i
      = some (p.radius * Real.cos (radians (p.yb p.jJoin)) * radians (p.xb (i + 1) - p.xb i))) ∧
    (i ≤ p.nx → j < p.jJoin → dy p j i = some (p.radius * radians (p.yb (j + 1) - p.yb j))) := by
  have r : ∀ q : ℝ, radians q = q * d2r := fun _ => rfl
  refine ⟨fun hi hj => ?_, fun hi hh => ?_, fun hi hj => ?_⟩
  · have st := (h.step i hi).1
    unfold dx sphericalDist
    rw [if_pos hj]
    by_cases e : p.xb i = p.xb (i + 1)
    · rw [if_pos e, ← e]; simp [distant, radians]
    · rw [if_neg e, if_pos rfl]
      unfold distant
      rw [abs_sub_comm, abs_of_nonneg (by linarith), r, r]
      congr 1
      ring
  · obtain ⟨L, e1, e2, -⟩ := C95_dx p h hi le_rfl h.join_le hh
    rw [e1, e2]
    obtain ⟨b1, b2, b3⟩ := bip_range h
    have ht : tilt (polar (radians (p.yb p.jJoin))) (radians (p.yb p.jJoin)) = Real.pi / 2 := by
      rw [← rp_at h]; exact tilt_join b1 b2
    have hz : ∀ x, before p.lonStart (polar (radians (p.yb p.jJoin))) x (p.yb p.jJoin) 2 = 0 := by
      intro x
      unfold before
      rw [ht]
      simp [tilted]
    rw [hz, hz]
    have hs : scale (polar (radians (p.yb p.jJoin))) 0 = Real.cos (radians (p.yb p.jJoin)) := by
      have hd := d2r_pos
      have hpi := d2r_180
      have s0 : 0 ≤ Real.sin (radians (p.yb p.jJoin)) := by
        rw [r]
        have := h.join_lat
        exact Real.sin_nonneg_of_nonneg_of_le_pi (mul_nonneg this.1 hd.le) (by nlinarith)
      have n : 1 + Real.sin (radians (p.yb p.jJoin)) ≠ 0 := by linarith
      rw [polar_eq n]
      unfold scale
      have a := Real.sin_sq_add_cos_sq (radians (p.yb p.jJoin))
      generalize Real.sin (radians (p.yb p.jJoin)) = s at *
      generalize Real.cos (radians (p.yb p.jJoin)) = c at *
      have : 1 + 0 + (c / (1 + s)) ^ 2 * (1 - 0) = 2 / (1 + s) := by
        field_simp
        linear_combination a
      rw [this]
      field_simp
    rw [hs]
    congr 1
    ring
  · have st := h.north j (by have := h.join_le; omega)
    unfold dy sphericalDist
    rw [if_pos hj, if_pos rfl]
    unfold distant
    rw [abs_sub_comm, abs_of_nonneg (by linarith), r]
    congr 1
    ring

/-- If an edge has its ends on both sides of the second pole, its length is wrong: with three columns (120 degrees) the middle
edge has length zero on every row, also on the equator, where it is a third of the circumference. -/
theorem C95_straddle_wrong (p : Par) (hnx : p.nx = 3) (hx : ∀ i, p.xb i = p.lonStart + 120 * i) {j : Nat} (hj : p.jJoin ≤ j) :
    dx p j 1 = some 0 := by
  unfold dx
  rw [if_neg (by omega)]
  unfold bipolarDist
  dsimp only
  have e1 : p.xb 1 = p.bip.lonStart + 120 := by rw [hx]; simp [Par.bip]
  have e2 : p.xb (1 + 1) = p.bip.lonStart + 240 := by
    rw [hx]
    have : p.bip.lonStart = p.lonStart := rfl
    rw [this]; push_cast; ring
  rw [e1, e2, if_neg (by intro h; linarith), if_pos rfl, bpPhi_eq _ (by norm_num) (by norm_num),
    bpPhi_eq _ (by norm_num) (by norm_num), if_pos (by norm_num), if_neg (by norm_num)]
  unfold distant
  norm_num

/-- `--great_circle_algorithm`: whatever `get_grid_great_circle_area` computes, the areas of the tripolar grid do not depend on
the sign of a latitude, because Cartesian coordinates `x` and `y` take the place of longitude and latitude: one row of cells
from 30 south to 30 north has the same areas as one of no height at 30 north. -/
theorem C95_great_circle_wrong {A : Type} (gc : (Nat → Nat → ℝ) → (Nat → Nat → ℝ) → Nat → Nat → A) (x y : Nat → Nat → ℝ) :
    greatCircleArea gc x (fun j i => if j = 0 then -y j i else y j i) = greatCircleArea gc x y := by
  unfold greatCircleArea
  congr 1
  · funext j i
    unfold toXyz
    dsimp only
    split_ifs
    · simp [neg_mul, Real.cos_neg]
    · rfl
  · funext j i
    unfold toXyz
    dsimp only
    split_ifs
    · simp [neg_mul, Real.cos_neg]
    · rfl

/-! ### A case -/

/-- Four columns, rows at 0, 30, 60 and 90 degrees, the join at 30, threshold 1/100 -/
noncomputable def tpCase : Par where
  nx := 4
  ny := 3
  xb := fun i => -280 + 90 * i
  yb := fun j => 30 * j
  lonStart := -280
  small := 1 / 100
  radius := 1
  jJoin := 1

example : Lines tpCase.nx tpCase.ny tpCase.xb tpCase.yb tpCase.lonStart tpCase.small tpCase.jJoin where
  first := by norm_num [tpCase]
  last := by norm_num [tpCase]
  step := by intro i _; constructor <;> simp only [tpCase] <;> push_cast <;> linarith
  north := by intro j _; simp only [tpCase]; push_cast; linarith
  top := by norm_num [tpCase]
  join_le := by decide
  join_lat := by norm_num [tpCase]
  clear := by
    intro j h1 h2
    simp only [tpCase] at *
    interval_cases j <;> norm_num
  start_ge := by norm_num [tpCase]
  small_pos := by norm_num [tpCase]
  small_le := by norm_num [tpCase]

example : tpCase.yb tpCase.ny = 90 ∧
    ∀ i, i ≤ tpCase.nx → tpCase.xb (tpCase.nx - i) - tpCase.lonStart = 360 - (tpCase.xb i - tpCase.lonStart) := by
  refine ⟨by norm_num [tpCase], fun i hi => ?_⟩
  simp only [tpCase] at *
  interval_cases i <;> norm_num

example : ∀ i, i < tpCase.nx → SameHalf tpCase i := by
  intro i hi
  unfold SameHalf
  simp only [tpCase] at *
  interval_cases i <;> norm_num

end Verif.Tripolar
