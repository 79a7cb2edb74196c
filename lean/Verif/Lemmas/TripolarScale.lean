import Verif.Lemmas.TripolarPoint
import Mathlib.Analysis.Real.Pi.Bounds
/-
Lemmas for C95: whole rows, and the scale factor.
-/
namespace Verif.Tripolar

open Verif.Vec3 Verif.Spec Verif.Spec.Tripolar

/-- A row which is not at the pole has a tilt above the threshold. -/
theorem tilt_small {b : Bip} {small y : ℝ} (hs : 0 < small) (h1 : 0 ≤ b.latJoin) (h2 : b.latJoin < 90) (h3 : -90 < y)
    (h : 60 * small ≤ 90 - y) : small ≤ tilt b.rp (y * d2r) := by
  have hr := rp_pos (by linarith) h2
  have hp := d2r_180
  have hd := d2r_pos
  have hc := half_colat h3 (by linarith)
  have hr1 : b.rp ≤ 1 := by
    rw [rp_eq, ← Real.tan_pi_div_four]
    have := half_colat (show -90 < b.latJoin by linarith) h2.le
    rcases eq_or_lt_of_le h1 with e | e
    · rw [← e]; apply le_of_eq; congr 1; ring
    · apply le_of_lt
      apply Real.tan_lt_tan_of_lt_of_lt_pi_div_two <;> nlinarith [Real.pi_pos]
  unfold tilt polar
  set δ := (Real.pi / 2 - y * d2r) / 2 with hδ
  have ht : 0 ≤ Real.tan δ := Real.tan_nonneg_of_nonneg_of_le_pi_div_two hc.1 hc.2.le
  have : Real.tan δ ≤ Real.tan δ / b.rp := by rw [le_div_iff₀ hr]; nlinarith
  have := Real.arctan_mono this
  rw [Real.arctan_tan (by linarith [Real.pi_pos]) hc.2] at this
  have e : 2 * δ = (90 - y) * d2r := by rw [hδ]; rw [← hp]; ring
  have : (60 * small) * d2r ≤ (90 - y) * d2r := mul_le_mul_of_nonneg_right h hd.le
  have : small ≤ 60 * small * d2r := by
    have h3 : (3 : ℝ) ≤ 180 * d2r := by rw [hp]; exact le_of_lt Real.pi_gt_three
    nlinarith
  linarith

variable {p : Par} (h : Lines p.nx p.ny p.xb p.yb p.lonStart p.small p.jJoin)
include h

theorem lines_lat {j : Nat} (hj : p.jJoin ≤ j) (hj2 : j ≤ p.ny) : p.yb p.jJoin ≤ p.yb j ∧ p.yb j ≤ 90 := by
  constructor
  · induction j, hj using Nat.le_induction with
    | base => exact le_rfl
    | succ k hk ih => exact (ih (by omega)).trans (h.north k (by omega))
  · have : ∀ m, j + m ≤ p.ny → p.yb j ≤ p.yb (j + m) := by
      intro m
      induction m with
      | zero => intro _; exact le_rfl
      | succ m ih => intro hm; exact (ih (by omega)).trans (h.north (j + m) (by omega))
    have := this (p.ny - j) (by omega)
    rw [show j + (p.ny - j) = p.ny by omega] at this
    exact this.trans h.top

theorem lines_lon {i : Nat} (hi : i ≤ p.nx) : 0 ≤ p.xb i - p.lonStart ∧ p.xb i - p.lonStart ≤ 360 := by
  have mono : ∀ i m, i + m ≤ p.nx → p.xb i ≤ p.xb (i + m) := by
    intro i m
    induction m with
    | zero => intro _; exact le_rfl
    | succ m ih => intro hm; exact (ih (by omega)).trans (h.step (i + m) (by omega)).1
  have a := mono 0 i (by omega)
  have b := mono i (p.nx - i) (by omega)
  rw [show i + (p.nx - i) = p.nx by omega, h.last] at b
  rw [show 0 + i = i by omega, h.first] at a
  constructor <;> linarith

/-- The latitude of a point of the bipolar part -/
theorem rp_at : p.bip.rp = polar (radians (p.yb p.jJoin)) := by
  rw [rp_eq]; rfl

theorem bip_range : -90 < p.bip.latJoin ∧ p.bip.latJoin < 90 ∧ 0 < p.bip.rp := by
  have a := h.join_lat
  have b : p.bip.latJoin = p.yb p.jJoin := rfl
  have : -90 < p.bip.latJoin := by rw [b]; linarith [a.1]
  have h2 : p.bip.latJoin < 90 := by rw [b]; exact a.2
  exact ⟨this, h2, rp_pos this h2⟩

omit h in
/-- The angle from the start, and the rest -/
theorem xb_split (i : Nat) : p.xb i = p.bip.lonStart + (p.xb i - p.lonStart) := by
  have : p.bip.lonStart = p.lonStart := rfl
  rw [this]; ring

/-- What the points of a row are -/
theorem row_core {j : Nat} (hj : p.jJoin ≤ j) (hj2 : j ≤ p.ny) :
    ∃ lon : Nat → ℝ,
      (∃ n0 : Nat, ∀ fuel ≥ n0, ∀ i, i ≤ p.nx → point p fuel j i = some (lon i,
        phis p.bip.rp (bpLam (p.xb i) (p.yb j) p.bip.bpeq p.bip.rp * d2r)
          (bpPhi (p.xb i) p.bip.bpsp p.bip.bpnp * d2r) * r2d)) ∧
      (∀ i, i < p.nx → lon i ≤ lon (i + 1)) ∧
      ((p.yb j = 90 ∧ ∀ i, i ≤ p.nx → lon i = if p.xb i - p.lonStart < 90 then p.lonStart
          else if p.xb i - p.lonStart ≤ 270 then p.lonStart + 180 else p.lonStart + 360) ∨
        (p.yb j < 90 ∧ 0 < Real.sin (tilt p.bip.rp (p.yb j * d2r)) ∧ ∀ i, i ≤ p.nx →
          p.lonStart ≤ lon i ∧
          lon i ≤ p.lonStart + lift (Real.sin (tilt p.bip.rp (p.yb j * d2r))) ((p.xb i - p.lonStart) * d2r) * r2d ∧
          p.lonStart + lift (Real.sin (tilt p.bip.rp (p.yb j * d2r))) ((p.xb i - p.lonStart) * d2r) * r2d
            < lon i + p.small)) := by
  obtain ⟨b1, b2, b3⟩ := bip_range h
  obtain ⟨l1, l2⟩ := lines_lat h hj hj2
  have hd := d2r_pos
  have hrd := r2d_d2r
  have hrp := r2d_pi
  have hpi := d2r_180
  have hls : p.bip.lonStart = p.lonStart := rfl
  have hpt : ∀ fuel i, point p fuel j i = tpRow p.small fuel p.bip p.xb (p.yb j) i := by
    intro fuel i
    unfold point
    rw [if_neg (by omega)]
  have hsm := h.small_pos
  have hsm1 := h.small_le
  by_cases hy : p.yb j = 90
  · obtain ⟨lon, g1, g2, n0, g3⟩ := row_induct (small := p.small) (b := p.bip) (xb := p.xb) (y := p.yb j)
      (fun i => phis p.bip.rp (bpLam (p.xb i) (p.yb j) p.bip.bpeq p.bip.rp * d2r)
          (bpPhi (p.xb i) p.bip.bpsp p.bip.bpnp * d2r) * r2d)
      (fun i r => r = if p.xb i - p.lonStart < 90 then p.lonStart
          else if p.xb i - p.lonStart ≤ 270 then p.lonStart + 180 else p.lonStart + 360)
      (by
        refine ⟨_, rfl, ?_⟩
        have e : p.xb 0 - p.lonStart = 0 := by rw [h.first]; ring
        have := tpTrans_pole (small := p.small) (b := p.bip) (θ := p.xb 0 - p.lonStart) (ref := p.xb 0) hsm hsm1
          (by rw [e]) (by rw [e]; norm_num) (Or.inl ⟨by rw [e]; norm_num, by rw [h.first, hls]⟩)
        rw [← xb_split, hls] at this
        rw [hy]
        exact this) p.nx
      (by
        intro i hi r hr
        obtain ⟨x1, x2⟩ := lines_lon h (show i + 1 ≤ p.nx by omega)
        obtain ⟨s1, s2⟩ := h.step i hi
        refine ⟨_, rfl, ?_, ?_⟩
        · rw [hr]
          split_ifs <;> linarith
        · have := tpTrans_pole (small := p.small) (b := p.bip) (θ := p.xb (i + 1) - p.lonStart) (ref := r) hsm hsm1
            x1 x2 (by
              rcases lt_or_ge (p.xb (i + 1) - p.lonStart) 90 with c | c
              · left
                refine ⟨c, ?_⟩
                rw [hr, if_pos (by linarith), hls]
              · right
                rcases le_or_gt (p.xb (i + 1) - p.lonStart) 270 with c2 | c2
                · left; exact ⟨c, c2⟩
                · right
                  refine ⟨c2, ?_⟩
                  rw [hr, if_neg (by linarith), hls]
                  split_ifs
                  · left; rfl
                  · right; rfl)
          rw [← xb_split, hls] at this
          rw [hy]
          exact this)
    refine ⟨lon, ⟨n0, fun fuel hf i hi => ?_⟩, g2, Or.inl ⟨hy, g1⟩⟩
    rw [hpt]
    exact g3 fuel hf i hi
  · have hylt : p.yb j < 90 := lt_of_le_of_ne l2 hy
    have hclear : 60 * p.small ≤ 90 - p.yb j := (h.clear j hj hj2).resolve_left hy
    have hts : p.small ≤ tilt p.bip.rp (p.yb j * d2r) :=
      tilt_small hsm h.join_lat.1 b2 (by linarith [h.join_lat.1]) hclear
    obtain ⟨-, t2⟩ := tilt_range b1 b2 l1 l2
    have hs : 0 < Real.sin (tilt p.bip.rp (p.yb j * d2r)) :=
      Real.sin_pos_of_pos_of_lt_pi (by linarith) (by linarith [Real.pi_pos])
    obtain ⟨lon, g1, g2, n0, g3⟩ := row_induct (small := p.small) (b := p.bip) (xb := p.xb) (y := p.yb j)
      (fun i => phis p.bip.rp (bpLam (p.xb i) (p.yb j) p.bip.bpeq p.bip.rp * d2r)
          (bpPhi (p.xb i) p.bip.bpsp p.bip.bpnp * d2r) * r2d)
      (fun i r => p.lonStart ≤ r ∧
        r ≤ p.lonStart + lift (Real.sin (tilt p.bip.rp (p.yb j * d2r))) ((p.xb i - p.lonStart) * d2r) * r2d ∧
        p.lonStart + lift (Real.sin (tilt p.bip.rp (p.yb j * d2r))) ((p.xb i - p.lonStart) * d2r) * r2d < r + p.small)
      (by
        have e : p.xb 0 - p.lonStart = 0 := by rw [h.first]; ring
        obtain ⟨r, r1, r2, r3, r4⟩ := tpTrans_below (small := p.small) (b := p.bip) (y := p.yb j)
          (θ := p.xb 0 - p.lonStart) (ref := p.xb 0) hsm
          (by rw [e]) (by rw [e]; norm_num) (by linarith) hts t2
          (by rw [e, zero_mul, lift_zero, h.first, hls]; linarith)
          (by rw [e, zero_mul, lift_zero, h.first, hls]; linarith) (by rw [h.first]; exact h.start_ge)
        rw [← xb_split, hls] at *
        exact ⟨r, ⟨by rw [← h.first]; exact r1, r2, r3⟩, r4⟩) p.nx
      (by
        intro i hi r hr
        obtain ⟨r1, r2, r3⟩ := hr
        obtain ⟨x1, x2⟩ := lines_lon h (show i + 1 ≤ p.nx by omega)
        obtain ⟨x3, x4⟩ := lines_lon h (show i ≤ p.nx by omega)
        obtain ⟨s1, s2⟩ := h.step i hi
        obtain ⟨m1, m2⟩ := lift_mono hs (t := (p.xb i - p.lonStart) * d2r) (u := (p.xb (i + 1) - p.lonStart) * d2r)
          (by positivity) (by nlinarith) (by rw [← hpi]; nlinarith) (by rw [← hpi]; nlinarith)
        have m1' := mul_le_mul_of_nonneg_right m1 r2d_pos.le
        have m2' := mul_le_mul_of_nonneg_right m2 r2d_pos.le
        rw [add_mul, hrp] at m2'
        obtain ⟨r', q1, q2, q3, q4⟩ := tpTrans_below (small := p.small) (b := p.bip) (y := p.yb j)
          (θ := p.xb (i + 1) - p.lonStart) (ref := r) hsm x1 x2 (by linarith) hts t2
          (by rw [hls]; linarith) (by rw [hls]; linarith) (by linarith [h.start_ge])
        rw [← xb_split] at q4
        exact ⟨r', ⟨by linarith, q2, q3⟩, q1, q4⟩)
    refine ⟨lon, ⟨n0, fun fuel hf i hi => ?_⟩, g2, Or.inr ⟨hylt, hs, g1⟩⟩
    rw [hpt]
    exact g3 fuel hf i hi

end Verif.Tripolar
