import Verif.Lemmas.Interp
import Mathlib.Tactic.LinearCombination
/-
Helper lemmas for the two cubic splines.
-/
namespace Verif.Interp
open Spec

variable {K : Type} [Field K] [LinearOrder K] [IsStrictOrderedRing K]

omit [IsStrictOrderedRing K] in
theorem outside_iff (x : Nat → K) (n : Nat) (g : Nat → K) (m : Nat) :
    someOutside x n g m = false ↔ InRange x n g m := by
  unfold someOutside InRange
  rw [List.any_eq_false]
  simp only [List.mem_range, Bool.or_eq_true, decide_eq_true_eq, not_or, not_lt]

/-- Evaluation through `klo` gives the value of the piece of any interval that contains the target, if the
pieces pass through common points. -/
theorem klo_piece {x y : Nat → K} {n : Nat} (hx : Increasing x n) (h2 : 2 ≤ n) (p : Nat → K → K)
    (hp : ∀ j, j + 1 < n → p j (x j) = y j ∧ p j (x (j + 1)) = y (j + 1)) {v : K}
    (h0 : x 0 ≤ v) (h1 : v ≤ x (n - 1)) :
    ∃ k, klo v x n = .ok k ∧ ∀ j, j + 1 < n → x j ≤ v → v ≤ x (j + 1) → p k v = p j v := by
  obtain ⟨k, hk, k1, k2, k3, _⟩ := klo_spec hx h2 h0 h1
  refine ⟨k, hk, ?_⟩
  intro j j1 j2 j3
  have key : ∀ a b, a < b → b + 1 < n → v ≤ x (a + 1) → x b ≤ v → p a v = p b v := by
    intro a b hab hb ha hvb
    have e1 : x (a + 1) ≤ x b := hx.nonDecreasing (a + 1) b hab (by omega)
    have e2 : v = x b := le_antisymm (le_trans ha e1) hvb
    have e3 : a + 1 = b := by
      rcases Nat.lt_or_ge (a + 1) b with h | h
      · have := hx (a + 1) b h (by omega)
        exact absurd (lt_of_le_of_lt ha (lt_of_lt_of_le this hvb)) (lt_irrefl _)
      · omega
    subst e3
    rw [e2, (hp a (by omega)).2, (hp (a + 1) hb).1]
  rcases Nat.lt_trichotomy k j with h | h | h
  · exact key k j h j1 k3 j2
  · rw [h]
  · exact (key j k h k1 j3 k2).symm

/-- Common part of the two spline routines. -/
theorem eval_all {x y : Nat → K} {n : Nat} (hx : Increasing x n) (h2 : 2 ≤ n) (p : Nat → K → K)
    (hp : ∀ j, j + 1 < n → p j (x j) = y j ∧ p j (x (j + 1)) = y (j + 1)) (f : K → Except Fail K)
    (hf : ∀ v, f v = (klo v x n >>= fun k => pure (p k v))) (g : Nat → K) (m : Nat)
    (hg : InRange x n g m) :
    ∃ r, (List.range m).mapM (fun k => f (g k)) = .ok r ∧ IsPiecewise x n p g m r := by
  have hall : ∀ k, ∃ z, k < m → f (g k) = .ok z ∧
      ∀ j, j + 1 < n → x j ≤ g k → g k ≤ x (j + 1) → z = p j (g k) := by
    intro k
    by_cases hk : k < m
    · obtain ⟨q, hq, hq'⟩ := klo_piece hx h2 p hp (hg k hk).1 (hg k hk).2
      refine ⟨p q (g k), fun _ => ⟨?_, hq'⟩⟩
      rw [hf, hq]; rfl
    · exact ⟨0, fun h => absurd h hk⟩
  choose z hz using hall
  refine ⟨_, mapM_ok m _ z (fun k hk => (hz k hk).1), by simp, ?_⟩
  intro k hk
  exact ⟨z k, by simp [hk], (hz k hk).2⟩

/-! ### Cubics with end slopes in [0, 3] times the secant -/

/-- The normalised cubic. -/
def unitCubic (a b t : K) : K := a * t + (3 - 2 * a - b) * t ^ 2 + (a - 2 + b) * t ^ 3

omit [LinearOrder K] [IsStrictOrderedRing K] in
theorem unitCubic_corners (a b t : K) (h3 : (3 : K) ≠ 0) :
    unitCubic a b t = (1 - a / 3) * (1 - b / 3) * (3 * t ^ 2 - 2 * t ^ 3) +
      (a / 3) * (1 - b / 3) * (3 * t - 3 * t ^ 2 + t ^ 3) + (1 - a / 3) * (b / 3) * t ^ 3 +
      (a / 3) * (b / 3) * (3 * t - 6 * t ^ 2 + 4 * t ^ 3) := by
  unfold unitCubic
  field_simp
  ring

theorem unitCubic_mono {a b t t' : K} (ha : 0 ≤ a) (ha' : a ≤ 3) (hb : 0 ≤ b) (hb' : b ≤ 3) (ht : 0 ≤ t)
    (htt : t ≤ t') (ht' : t' ≤ 1) : unitCubic a b t ≤ unitCubic a b t' := by
  have h3 : (3 : K) ≠ 0 := by norm_num
  have a0 : 0 ≤ a / 3 := by linarith
  have a1 : 0 ≤ 1 - a / 3 := by linarith
  have b0 : 0 ≤ b / 3 := by linarith
  have b1 : 0 ≤ 1 - b / 3 := by linarith
  rw [unitCubic_corners a b t h3, unitCubic_corners a b t' h3]
  have hd : 0 ≤ t' - t := by linarith
  have e1 : t * t' ≤ t := by nlinarith
  have e2 : t * t' ≤ t' := by nlinarith
  have e3 : t ^ 2 ≤ t := by nlinarith
  have e4 : t' ^ 2 ≤ t' := by nlinarith
  have c1 : 3 * t ^ 2 - 2 * t ^ 3 ≤ 3 * t' ^ 2 - 2 * t' ^ 3 := by
    have : 0 ≤ (t' - t) * (3 * (t + t') - 2 * (t ^ 2 + t * t' + t' ^ 2)) := mul_nonneg hd (by linarith)
    nlinarith
  have c2 : 3 * t - 3 * t ^ 2 + t ^ 3 ≤ 3 * t' - 3 * t' ^ 2 + t' ^ 3 := by
    have : 0 ≤ (t' - t) * ((1 - t) ^ 2 + (1 - t) * (1 - t') + (1 - t') ^ 2) := by
      apply mul_nonneg hd
      have := mul_nonneg (show (0 : K) ≤ 1 - t by linarith) (show (0 : K) ≤ 1 - t' by linarith)
      positivity
    nlinarith
  have c3 : t ^ 3 ≤ t' ^ 3 := pow_le_pow_left₀ ht htt 3
  have c4 : 3 * t - 6 * t ^ 2 + 4 * t ^ 3 ≤ 3 * t' - 6 * t' ^ 2 + 4 * t' ^ 3 := by
    have : 0 ≤ (t' - t) * ((2 * t - 1) ^ 2 + (2 * t - 1) * (2 * t' - 1) + (2 * t' - 1) ^ 2) := by
      apply mul_nonneg hd
      nlinarith [sq_nonneg ((2 * t - 1) + (2 * t' - 1)), sq_nonneg (2 * t - 1), sq_nonneg (2 * t' - 1)]
    nlinarith
  have m1 := mul_le_mul_of_nonneg_left c1 (mul_nonneg a1 b1)
  have m2 := mul_le_mul_of_nonneg_left c2 (mul_nonneg a0 b1)
  have m3 := mul_le_mul_of_nonneg_left c3 (mul_nonneg a1 b0)
  have m4 := mul_le_mul_of_nonneg_left c4 (mul_nonneg a0 b0)
  linarith

/-- The same, strictly. -/
theorem unitCubic_strict {a b t t' : K} (ha : 0 ≤ a) (ha' : a ≤ 3) (hb : 0 ≤ b) (hb' : b ≤ 3) (ht : 0 ≤ t)
    (htt : t < t') (ht' : t' ≤ 1) : unitCubic a b t < unitCubic a b t' := by
  have h3 : (3 : K) ≠ 0 := by norm_num
  have a0 : 0 ≤ a / 3 := by linarith
  have a1 : 0 ≤ 1 - a / 3 := by linarith
  have b0 : 0 ≤ b / 3 := by linarith
  have b1 : 0 ≤ 1 - b / 3 := by linarith
  rw [unitCubic_corners a b t h3, unitCubic_corners a b t' h3]
  have hd : 0 < t' - t := by linarith
  have c1 : 0 < (3 * t' ^ 2 - 2 * t' ^ 3) - (3 * t ^ 2 - 2 * t ^ 3) := by
    have e : (3 * t' ^ 2 - 2 * t' ^ 3) - (3 * t ^ 2 - 2 * t ^ 3) =
        (t' - t) * (3 * (t' * (1 - t') + t * (1 - t)) + (t' - t) ^ 2) := by ring
    rw [e]
    have := mul_nonneg (show (0 : K) ≤ t' by linarith) (show (0 : K) ≤ 1 - t' by linarith)
    have := mul_nonneg ht (show (0 : K) ≤ 1 - t by linarith)
    have : 0 < (t' - t) ^ 2 := by positivity
    apply mul_pos hd
    linarith
  have c2 : 0 < (3 * t' - 3 * t' ^ 2 + t' ^ 3) - (3 * t - 3 * t ^ 2 + t ^ 3) := by
    have e : (3 * t' - 3 * t' ^ 2 + t' ^ 3) - (3 * t - 3 * t ^ 2 + t ^ 3) =
        (t' - t) * ((1 - t) ^ 2 + (1 - t) * (1 - t') + (1 - t') ^ 2) := by ring
    rw [e]
    have := mul_nonneg (show (0 : K) ≤ 1 - t by linarith) (show (0 : K) ≤ 1 - t' by linarith)
    have : 0 < (1 - t) ^ 2 := by
      have : 0 < 1 - t := by linarith
      positivity
    have : 0 ≤ (1 - t') ^ 2 := sq_nonneg _
    apply mul_pos hd
    linarith
  have c3 : 0 < t' ^ 3 - t ^ 3 := by
    have e : t' ^ 3 - t ^ 3 = (t' - t) * (t' ^ 2 + t' * t + t ^ 2) := by ring
    rw [e]
    have := mul_nonneg (show (0 : K) ≤ t' by linarith) ht
    have : 0 < t' ^ 2 := by
      have : 0 < t' := by linarith
      positivity
    have : 0 ≤ t ^ 2 := sq_nonneg _
    apply mul_pos hd
    linarith
  have c4 : 0 < (3 * t' - 6 * t' ^ 2 + 4 * t' ^ 3) - (3 * t - 6 * t ^ 2 + 4 * t ^ 3) := by
    have e : (3 * t' - 6 * t' ^ 2 + 4 * t' ^ 3) - (3 * t - 6 * t ^ 2 + 4 * t ^ 3) =
        (t' - t) * (3 * (t + t' - 1) ^ 2 + (t' - t) ^ 2) := by ring
    rw [e]
    have : 0 < (t' - t) ^ 2 := by positivity
    have : 0 ≤ (t + t' - 1) ^ 2 := sq_nonneg _
    apply mul_pos hd
    linarith
  have m1 := mul_nonneg (mul_nonneg a1 b1) c1.le
  have m2 := mul_nonneg (mul_nonneg a0 b1) c2.le
  have m3 := mul_nonneg (mul_nonneg a1 b0) c3.le
  have m4 := mul_nonneg (mul_nonneg a0 b0) c4.le
  -- the weights add up to one, so one of them is positive
  have w : (1 - a / 3) * (1 - b / 3) + a / 3 * (1 - b / 3) + (1 - a / 3) * (b / 3) + a / 3 * (b / 3) = 1 := by ring
  by_contra hn
  have hs : (1 - a / 3) * (1 - b / 3) * ((3 * t' ^ 2 - 2 * t' ^ 3) - (3 * t ^ 2 - 2 * t ^ 3)) +
      a / 3 * (1 - b / 3) * ((3 * t' - 3 * t' ^ 2 + t' ^ 3) - (3 * t - 3 * t ^ 2 + t ^ 3)) +
      (1 - a / 3) * (b / 3) * (t' ^ 3 - t ^ 3) +
      a / 3 * (b / 3) * ((3 * t' - 6 * t' ^ 2 + 4 * t' ^ 3) - (3 * t - 6 * t ^ 2 + 4 * t ^ 3)) ≤ 0 := by
    have := not_lt.1 hn
    linarith
  have z : ∀ p q : K, 0 < q → p * q = 0 → p = 0 := fun p q hq h =>
    (mul_eq_zero.1 h).resolve_right (ne_of_gt hq)
  have z1 := z _ _ c1 (le_antisymm (by linarith) m1)
  have z2 := z _ _ c2 (le_antisymm (by linarith) m2)
  have z3 := z _ _ c3 (le_antisymm (by linarith) m3)
  have z4 := z _ _ c4 (le_antisymm (by linarith) m4)
  rw [z1, z2, z3, z4] at w
  norm_num at w

omit [LinearOrder K] [IsStrictOrderedRing K] in
theorem unitCubic_zero (a b : K) : unitCubic a b 0 = 0 := by unfold unitCubic; ring

omit [LinearOrder K] [IsStrictOrderedRing K] in
theorem unitCubic_one (a b : K) : unitCubic a b 1 = 1 := by unfold unitCubic; ring

/-- `d` is a multiple of `e` with a factor in [0, 3]. -/
def SlopeOk (d e : K) : Prop := ∃ a, 0 ≤ a ∧ a ≤ 3 ∧ d = a * e

theorem inner_ok (h0 h1 e0 e1 : K) (p0 : 0 < h0) (p1 : 0 < h1) (he : e1 * e0 > 0) :
    SlopeOk (((2 * h1 + h0) + (h1 + 2 * h0)) / ((2 * h1 + h0) / e0 + (h1 + 2 * h0) / e1)) e0 ∧
    SlopeOk (((2 * h1 + h0) + (h1 + 2 * h0)) / ((2 * h1 + h0) / e0 + (h1 + 2 * h0) / e1)) e1 := by
  have n0 : e0 ≠ 0 := by rintro rfl; simp at he
  have n1 : e1 ≠ 0 := by rintro rfl; simp at he
  -- the ratio of the secants
  obtain ⟨r, hr, rfl⟩ : ∃ r, 0 < r ∧ e1 = r * e0 := by
    refine ⟨e1 / e0, ?_, by field_simp⟩
    have : 0 < e0 ^ 2 := by positivity
    have h : e1 / e0 = e1 * e0 / e0 ^ 2 := by field_simp
    rw [h]; exact div_pos he this
  have w1 : 0 < 2 * h1 + h0 := by linarith
  have w2 : 0 < h1 + 2 * h0 := by linarith
  have hden : 0 < (2 * h1 + h0) * r + (h1 + 2 * h0) := by positivity
  have hform : ((2 * h1 + h0) + (h1 + 2 * h0)) / ((2 * h1 + h0) / e0 + (h1 + 2 * h0) / (r * e0)) =
      ((2 * h1 + h0) + (h1 + 2 * h0)) * r / ((2 * h1 + h0) * r + (h1 + 2 * h0)) * e0 := by
    have hr' := ne_of_gt hr
    have : (2 * h1 + h0) / e0 + (h1 + 2 * h0) / (r * e0) =
      ((2 * h1 + h0) * r + (h1 + 2 * h0)) / (r * e0) := by field_simp
    rw [this]
    have hd' := ne_of_gt hden
    field_simp
  rw [hform]
  constructor
  · refine ⟨_, by positivity, ?_, rfl⟩
    rw [div_le_iff₀ hden]
    nlinarith [mul_pos hr p0, mul_pos hr p1]
  · refine ⟨((2 * h1 + h0) + (h1 + 2 * h0)) / ((2 * h1 + h0) * r + (h1 + 2 * h0)), by positivity, ?_, ?_⟩
    · rw [div_le_iff₀ hden]
      nlinarith [mul_pos hr p0, mul_pos hr p1]
    · have hd' := ne_of_gt hden
      field_simp

theorem spEnd_ok (h0 h1 e0 e1 : K) (p0 : 0 < h0) (p1 : 0 < h1) (he : e0 = 0 → e1 = 0) :
    SlopeOk (spEnd h0 h1 e0 e1) e0 := by
  unfold spEnd
  by_cases hz : e0 = 0
  · rw [he hz, hz]
    exact ⟨0, le_refl _, by norm_num, by simp⟩
  have hpos : 0 < e0 ^ 2 := by positivity
  have hs : 0 < h0 + h1 := by linarith
  simp only []
  split
  · exact ⟨0, le_refl _, by norm_num, by simp⟩
  · rename_i h1'
    rw [not_lt] at h1'
    split
    · exact ⟨3, by norm_num, le_refl _, rfl⟩
    · rename_i h2
      generalize hd : ((2 * h0 + h1) * e0 - h0 * e1) / (h0 + h1) = d at *
      have hd' : d * (h0 + h1) = (2 * h0 + h1) * e0 - h0 * e1 := by
        rw [← hd]; field_simp
      have hq : d / e0 = d * e0 / e0 ^ 2 := by field_simp
      refine ⟨d / e0, ?_, ?_, by field_simp⟩
      · rw [hq]; exact div_nonneg h1' (le_of_lt hpos)
      · rw [hq, div_le_iff₀ hpos]
        by_cases hneg : e0 * e1 < 0
        · have hle : |d| ≤ |3 * e0| := by
            by_contra hc
            exact h2 ⟨hneg, not_le.1 hc⟩
          have := mul_le_mul_of_nonneg_right hle (abs_nonneg e0)
          rw [← abs_mul, ← abs_mul, abs_of_nonneg h1', abs_of_nonneg (by nlinarith)] at this
          nlinarith
        · rw [not_lt] at hneg
          have h3 : d * e0 * (h0 + h1) ≤ 3 * e0 ^ 2 * (h0 + h1) := by
            have e : d * e0 * (h0 + h1) = (2 * h0 + h1) * e0 ^ 2 - h0 * (e0 * e1) := by
              have : d * e0 * (h0 + h1) = d * (h0 + h1) * e0 := by ring
              rw [this, hd']; ring
            rw [e]
            nlinarith [mul_nonneg (le_of_lt p0) hneg, mul_pos p0 hpos, mul_pos p1 hpos]
          exact le_of_mul_le_mul_right h3 hs

/-- The cubic of `cubic_spline_sp` on interval `j`. -/
def spPiece (size1 : Nat) (x y : Nat → K) (j : Nat) (v : K) : K :=
  y j + (v - x j) * (spSlope size1 x y j + (v - x j) * (spC size1 x y j + (v - x j) * spB size1 x y j))

section sp
variable {n : Nat} {x y : Nat → K} (hx : Increasing x n)
include hx

theorem spDh_pos (j : Nat) (hj : j + 1 < n) : 0 < spDh x j := by
  unfold spDh; linarith [hx j (j + 1) (by omega) hj]

omit [IsStrictOrderedRing K] hx in
theorem spDelta_zero (j : Nat) (h : y j = y (j + 1)) : spDelta x y j = 0 := by
  unfold spDelta; rw [h]; simp

theorem of_spDelta_zero (j : Nat) (hj : j + 1 < n) (h : spDelta x y j = 0) : y j = y (j + 1) := by
  unfold spDelta at h
  rcases div_eq_zero_iff.1 h with h | h
  · linarith
  · exact absurd h (ne_of_gt (spDh_pos hx j hj))

theorem spInner_ok (j : Nat) (hj : j + 2 < n) :
    SlopeOk (spInner x y (j + 1)) (spDelta x y j) ∧ SlopeOk (spInner x y (j + 1)) (spDelta x y (j + 1)) := by
  unfold spInner
  simp only [Nat.add_sub_cancel]
  split
  · rename_i h
    exact inner_ok (spDh x j) (spDh x (j + 1)) (spDelta x y j) (spDelta x y (j + 1))
      (spDh_pos hx j (by omega)) (spDh_pos hx (j + 1) hj) h
  · exact ⟨⟨0, le_refl _, by norm_num, by simp⟩, ⟨0, le_refl _, by norm_num, by simp⟩⟩

/-- Both slopes of every interval are fine, given the flat-end condition. -/
theorem spSlope_ok (h3 : 3 ≤ n) (hf : FlatEndsOk y n) (j : Nat) (hj : j + 1 < n) :
    SlopeOk (spSlope n x y j) (spDelta x y j) ∧ SlopeOk (spSlope n x y (j + 1)) (spDelta x y j) := by
  constructor
  · unfold spSlope
    by_cases h0 : j = 0
    · subst h0
      rw [if_pos rfl]
      refine spEnd_ok _ _ _ _ (spDh_pos hx 0 hj) (spDh_pos hx 1 (by omega)) ?_
      intro h
      exact spDelta_zero 1 ((hf h3).1 (of_spDelta_zero hx 0 hj h))
    · rw [if_neg h0, if_neg (by omega)]
      obtain ⟨i, rfl⟩ := Nat.exists_eq_succ_of_ne_zero h0
      exact (spInner_ok hx i hj).2
  · unfold spSlope
    rw [if_neg (by omega)]
    by_cases h0 : j + 1 = n - 1
    · rw [if_pos h0]
      have hj' : j = n - 2 := by omega
      subst hj'
      refine spEnd_ok _ _ _ _ (spDh_pos hx (n - 2) (by omega)) (spDh_pos hx (n - 3) (by omega)) ?_
      intro h
      have e1 := of_spDelta_zero hx (n - 2) (by omega) h
      have e2 : n - 2 + 1 = n - 1 := by omega
      rw [e2] at e1
      have e3 := (hf h3).2 e1.symm
      have e4 : n - 3 + 1 = n - 2 := by omega
      exact spDelta_zero (n - 3) (by rw [e4]; exact e3.symm)
    · rw [if_neg h0]
      exact (spInner_ok hx j (by omega)).1

omit [LinearOrder K] [IsStrictOrderedRing K] hx in
theorem spPiece_left [LinearOrder K] (j : Nat) : spPiece n x y j (x j) = y j := by
  unfold spPiece; ring

theorem spPiece_right (j : Nat) (hj : j + 1 < n) : spPiece n x y j (x (j + 1)) = y (j + 1) := by
  have hp := ne_of_gt (spDh_pos hx j hj)
  unfold spPiece spC spB
  have hd : x (j + 1) - x j = spDh x j := rfl
  have he : spDelta x y j * spDh x j = y (j + 1) - y j := by
    unfold spDelta; field_simp
  rw [hd]
  field_simp
  linear_combination he

/-- The piece in normalised form. -/
theorem spPiece_unit (j : Nat) (hj : j + 1 < n) {a b : K} (ha : spSlope n x y j = a * spDelta x y j)
    (hb : spSlope n x y (j + 1) = b * spDelta x y j) (v : K) :
    spPiece n x y j v = y j + (y (j + 1) - y j) * unitCubic a b ((v - x j) / spDh x j) := by
  have hp := ne_of_gt (spDh_pos hx j hj)
  have he : y (j + 1) - y j = spDelta x y j * spDh x j := by
    unfold spDelta; field_simp
  rw [he]
  unfold spPiece spC spB unitCubic
  rw [ha, hb]
  field_simp
  ring

end sp

end Verif.Interp
