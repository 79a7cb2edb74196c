import Verif.Model.Tripolar
import Verif.Spec.Tripolar
import Verif.Props.Rotate
import Verif.Props.Lon
import Mathlib.Analysis.SpecialFunctions.Trigonometric.Angle
import Mathlib.Tactic.Linarith
import Mathlib.Tactic.FieldSimp
import Mathlib.Tactic.Positivity
import Mathlib.Tactic.Ring
/-
Lemmas for C95.
-/
namespace Verif.Tripolar

open Verif.Vec3 Verif.Spec Verif.Spec.Tripolar

/-! ### Units -/

theorem d2r_pos : 0 < d2r := by unfold d2r; have := Real.pi_pos; positivity
theorem r2d_pos : 0 < r2d := by unfold r2d; have := Real.pi_pos; positivity
theorem r2d_d2r : r2d * d2r = 1 := by unfold r2d d2r; have := Real.pi_pos.ne'; field_simp
theorem d2r_r2d : d2r * r2d = 1 := by rw [mul_comm]; exact r2d_d2r
theorem d2r_180 : 180 * d2r = Real.pi := by unfold d2r; ring
theorem r2d_pi : Real.pi * r2d = 180 := by unfold r2d; have := Real.pi_pos.ne'; field_simp

/-! ### fmod -/

theorem fmod_int (a b : ℝ) : ∃ z : Int, fmod a b = a + b * z := by
  unfold fmod
  split_ifs
  · exact ⟨-⌊a / b⌋, by push_cast; ring⟩
  · exact ⟨-⌈a / b⌉, by push_cast; ring⟩

theorem fmod_lt {a b : ℝ} (hb : 0 < b) : fmod a b < b := by
  unfold fmod
  split_ifs with h
  · have h1 := Int.lt_floor_add_one (a / b)
    rw [div_lt_iff₀ hb] at h1
    nlinarith
  · have h1 := Int.le_ceil (a / b)
    rw [div_le_iff₀ hb] at h1
    nlinarith

theorem fmod_eq {a b : ℝ} (hb : 0 < b) (k : Nat) (h1 : b * k ≤ a) (h2 : a < b * (k + 1)) : fmod a b = a - b * k := by
  have h0 : 0 ≤ a / b := div_nonneg (le_trans (by positivity) h1) hb.le
  unfold fmod
  rw [if_pos h0]
  have e : ⌊a / b⌋ = (k : Int) := by
    rw [Int.floor_eq_iff]
    constructor
    · rw [le_div_iff₀ hb]; push_cast; linarith
    · rw [div_lt_iff₀ hb]; push_cast; linarith
  rw [e]
  push_cast
  ring

theorem latDist_comm (a b : ℝ) : latDist a b = latDist b a := by unfold latDist; rw [min_comm]

theorem latDist_eq {x d : ℝ} (h0 : 0 ≤ d) (h1 : d ≤ 360) : latDist (x + d) x = min d (360 - d) := by
  unfold latDist
  rw [show x + d - x + 720 = d + 720 by ring, show x - (x + d) + 720 = 720 - d by ring]
  rcases eq_or_lt_of_le h0 with h | h
  · subst h
    rw [fmod_eq (by norm_num) 2 (by norm_num) (by norm_num), fmod_eq (by norm_num) 2 (by norm_num) (by norm_num)]
    norm_num
  · rcases eq_or_lt_of_le h1 with h' | h'
    · subst h'
      rw [fmod_eq (by norm_num) 3 (by norm_num) (by norm_num), fmod_eq (by norm_num) 1 (by norm_num) (by norm_num)]
      norm_num
    · rw [fmod_eq (by norm_num) 2 (by norm_num; linarith) (by norm_num; linarith),
        fmod_eq (by norm_num) 1 (by norm_num; linarith) (by norm_num; linarith)]
      congr 1 <;> norm_num <;> ring

/-! ### The bipolar coordinates of a point -/

theorem bpPhi_eq (b : Bip) {θ : ℝ} (h0 : 0 ≤ θ) (h1 : θ ≤ 360) :
    bpPhi (b.lonStart + θ) b.bpsp b.bpnp = if θ ≤ 180 then 90 - θ else θ - 270 := by
  have hn : latDist (b.lonStart + θ) b.bpnp = min θ (360 - θ) := latDist_eq h0 h1
  unfold bpPhi
  rw [hn]
  by_cases h2 : θ ≤ 180
  · rw [if_pos h2]
    have hs : latDist (b.lonStart + θ) b.bpsp = 180 - θ := by
      unfold Bip.bpsp
      rw [latDist_comm, show b.lonStart + 180 = b.lonStart + θ + (180 - θ) by ring, latDist_eq (by linarith) (by linarith)]
      exact min_eq_left (by linarith)
    rw [hs]
    split_ifs with h3
    · ring
    · rw [min_eq_left (by linarith)]
  · rw [if_neg h2]
    have hs : latDist (b.lonStart + θ) b.bpsp = θ - 180 := by
      unfold Bip.bpsp
      rw [show b.lonStart + θ = b.lonStart + 180 + (θ - 180) by ring, latDist_eq (by linarith) (by linarith)]
      exact min_eq_left (by linarith)
    rw [hs]
    split_ifs with h3
    · ring
    · rw [min_eq_right (by linarith)]; ring

theorem bpeq_near (b : Bip) {θ : ℝ} (h0 : 0 ≤ θ) (h1 : θ ≤ 360) :
    latDist (b.lonStart + θ) b.bpeq < 90 ↔ 0 < θ ∧ θ < 180 := by
  unfold Bip.bpeq
  rcases le_total θ 90 with h | h
  · rw [latDist_comm, show b.lonStart + 90 = b.lonStart + θ + (90 - θ) by ring, latDist_eq (by linarith) (by linarith),
      min_eq_left (by linarith)]
    constructor
    · intro h2; constructor <;> linarith
    · intro h2; linarith [h2.1]
  · rw [show b.lonStart + θ = b.lonStart + 90 + (θ - 90) by ring, latDist_eq (by linarith) (by linarith)]
    constructor
    · intro h2
      refine ⟨by linarith, ?_⟩
      rcases min_lt_iff.1 h2 with h3 | h3 <;> linarith
    · intro h2
      exact min_lt_iff.2 (Or.inl (by linarith [h2.2]))

theorem tilt_eq (rp y : ℝ) : 2 * Real.arctan (Real.tan ((1 / 2 * Real.pi - y * d2r) / 2) / rp) * r2d
    = tilt rp (y * d2r) * r2d := by
  unfold tilt polar
  rw [show (1 / 2 * Real.pi - y * d2r) / 2 = (Real.pi / 2 - y * d2r) / 2 by ring]

theorem bpLam_eq (b : Bip) (y rp : ℝ) {θ : ℝ} (h0 : 0 ≤ θ) (h1 : θ ≤ 360) :
    bpLam (b.lonStart + θ) y b.bpeq rp * d2r
      = if 0 < θ ∧ θ < 180 then -tilt rp (y * d2r) else tilt rp (y * d2r) := by
  have hr := r2d_d2r
  unfold bpLam
  dsimp only
  rw [tilt_eq]
  by_cases h : 0 < θ ∧ θ < 180
  · rw [if_pos ((bpeq_near b h0 h1).2 h), if_pos h]
    linear_combination -tilt rp (y * d2r) * hr
  · rw [if_neg (fun h2 => h ((bpeq_near b h0 h1).1 h2)), if_neg h]
    linear_combination tilt rp (y * d2r) * hr

theorem phic_trig (b : Bip) {θ : ℝ} (h0 : 0 ≤ θ) (h1 : θ ≤ 360) :
    Real.sin (bpPhi (b.lonStart + θ) b.bpsp b.bpnp * d2r) = Real.cos (θ * d2r) ∧
    Real.cos (bpPhi (b.lonStart + θ) b.bpsp b.bpnp * d2r) = |Real.sin (θ * d2r)| := by
  have hp := d2r_180
  have hd := d2r_pos
  rw [bpPhi_eq b h0 h1]
  split_ifs with h
  · have hs : 0 ≤ Real.sin (θ * d2r) := Real.sin_nonneg_of_nonneg_of_le_pi (by positivity) (by rw [← hp]; nlinarith)
    have e : (90 - θ) * d2r = Real.pi / 2 - θ * d2r := by rw [← hp]; ring
    rw [e, Real.sin_pi_div_two_sub, Real.cos_pi_div_two_sub, abs_of_nonneg hs]
    exact ⟨rfl, rfl⟩
  · have e : (θ - 270) * d2r = θ * d2r + Real.pi / 2 - 2 * Real.pi := by rw [← hp]; ring
    have hs : Real.sin (θ * d2r) ≤ 0 := by
      have : 0 ≤ Real.sin (θ * d2r - Real.pi) :=
        Real.sin_nonneg_of_nonneg_of_le_pi (by rw [← hp]; nlinarith) (by rw [← hp]; nlinarith)
      rw [Real.sin_sub_pi] at this
      linarith
    rw [e, Real.sin_sub_two_pi, Real.cos_sub_two_pi, Real.sin_add_pi_div_two, Real.cos_add_pi_div_two, abs_of_nonpos hs]
    exact ⟨rfl, rfl⟩

theorem lamc_trig (b : Bip) (y rp : ℝ) {θ : ℝ} (h0 : 0 ≤ θ) (h1 : θ ≤ 360) :
    Real.cos (bpLam (b.lonStart + θ) y b.bpeq rp * d2r) = Real.cos (tilt rp (y * d2r)) ∧
    Real.sin (bpLam (b.lonStart + θ) y b.bpeq rp * d2r) * |Real.sin (θ * d2r)|
      = -(Real.sin (tilt rp (y * d2r)) * Real.sin (θ * d2r)) := by
  have hp := d2r_180
  have hd := d2r_pos
  rw [bpLam_eq b y rp h0 h1]
  split_ifs with h
  · have hs : 0 ≤ Real.sin (θ * d2r) :=
      Real.sin_nonneg_of_nonneg_of_le_pi (by positivity) (by rw [← hp]; nlinarith [h.2])
    rw [Real.cos_neg, Real.sin_neg, abs_of_nonneg hs]
    exact ⟨rfl, by ring⟩
  · refine ⟨rfl, ?_⟩
    have hs : Real.sin (θ * d2r) ≤ 0 := by
      rcases eq_or_lt_of_le h0 with h2 | h2
      · rw [← h2]; simp
      · have h3 : 180 ≤ θ := by by_contra h3; exact h ⟨h2, not_le.1 h3⟩
        have : 0 ≤ Real.sin (θ * d2r - Real.pi) :=
          Real.sin_nonneg_of_nonneg_of_le_pi (by rw [← hp]; nlinarith) (by rw [← hp]; nlinarith)
        rw [Real.sin_sub_pi] at this
        linarith
    rw [abs_of_nonpos hs]
    ring

/-! ### The tilt -/

theorem half_colat {y : ℝ} (h1 : -90 < y) (h2 : y ≤ 90) :
    0 ≤ (Real.pi / 2 - y * d2r) / 2 ∧ (Real.pi / 2 - y * d2r) / 2 < Real.pi / 2 := by
  have hp := d2r_180
  have hd := d2r_pos
  constructor <;> nlinarith

theorem rp_eq (b : Bip) : b.rp = Real.tan ((Real.pi / 2 - b.latJoin * d2r) / 2) := by
  unfold Bip.rp
  rw [show (1 / 2 * Real.pi - b.latJoin * d2r) / 2 = (Real.pi / 2 - b.latJoin * d2r) / 2 by ring]

theorem rp_pos {b : Bip} (h1 : -90 < b.latJoin) (h2 : b.latJoin < 90) : 0 < b.rp := by
  rw [rp_eq]
  have hp := d2r_180
  have hd := d2r_pos
  exact Real.tan_pos_of_pos_of_lt_pi_div_two (by nlinarith) (half_colat h1 h2.le).2

theorem tan_half_le {y y' : ℝ} (h1 : -90 < y) (h : y ≤ y') (h2 : y' ≤ 90) :
    Real.tan ((Real.pi / 2 - y' * d2r) / 2) ≤ Real.tan ((Real.pi / 2 - y * d2r) / 2) := by
  have hd := d2r_pos
  have a := half_colat h1 (h.trans h2)
  have b := half_colat (h1.trans_le h) h2
  exact Real.strictMonoOn_tan.monotoneOn ⟨by linarith [Real.pi_pos, b.1], b.2⟩ ⟨by linarith [Real.pi_pos, a.1], a.2⟩
    (by nlinarith)

theorem tilt_range {b : Bip} {y : ℝ} (h1 : -90 < b.latJoin) (h2 : b.latJoin < 90) (h3 : b.latJoin ≤ y) (h4 : y ≤ 90) :
    0 ≤ tilt b.rp (y * d2r) ∧ tilt b.rp (y * d2r) ≤ Real.pi / 2 := by
  have hr := rp_pos h1 h2
  have ht := tan_half_le h1 h3 h4
  rw [← rp_eq] at ht
  have ha := half_colat (h1.trans_le h3) h4
  have h0 : 0 ≤ Real.tan ((Real.pi / 2 - y * d2r) / 2) := Real.tan_nonneg_of_nonneg_of_le_pi_div_two ha.1 ha.2.le
  unfold tilt polar
  constructor
  · have : 0 ≤ Real.arctan (Real.tan ((Real.pi / 2 - y * d2r) / 2) / b.rp) := Real.arctan_nonneg.2 (div_nonneg h0 hr.le)
    linarith
  · have : Real.arctan (Real.tan ((Real.pi / 2 - y * d2r) / 2) / b.rp) ≤ Real.arctan 1 :=
      Real.arctan_strictMono.monotone ((div_le_one hr).2 ht)
    rw [Real.arctan_one] at this
    linarith

theorem tilt_pole (rp : ℝ) : tilt rp (90 * d2r) = 0 := by
  unfold tilt polar
  rw [show (90 : ℝ) * d2r = Real.pi / 2 by rw [← d2r_180]; ring]
  simp

theorem tilt_join {b : Bip} (h1 : -90 < b.latJoin) (h2 : b.latJoin < 90) : tilt b.rp (b.latJoin * d2r) = Real.pi / 2 := by
  unfold tilt polar
  rw [← rp_eq, div_self (rp_pos h1 h2).ne', Real.arctan_one]
  ring

theorem tilt_pos {b : Bip} {y : ℝ} (h1 : -90 < b.latJoin) (h2 : b.latJoin < 90) (h3 : b.latJoin ≤ y) (h4 : y < 90) :
    0 < tilt b.rp (y * d2r) := by
  have hr := rp_pos h1 h2
  have hp := d2r_180
  have hd := d2r_pos
  have ha := half_colat (h1.trans_le h3) h4.le
  have h0 : 0 < Real.tan ((Real.pi / 2 - y * d2r) / 2) := Real.tan_pos_of_pos_of_lt_pi_div_two (by nlinarith) ha.2
  unfold tilt polar
  have := Real.arctan_pos.2 (div_pos h0 hr)
  linarith

end Verif.Tripolar
