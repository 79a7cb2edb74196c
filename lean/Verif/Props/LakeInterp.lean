import Verif.Model.LakeInterp
import Mathlib.Tactic.Linarith
import Mathlib.Tactic.FieldSimp
import Mathlib.Tactic.Ring
/-
C151: interpolation of the lake fraction.
-/
noncomputable section
namespace Verif
open LakeInterp Real

namespace Spec.LakeInterp
/-- Coordinates 1 to `n` increase. -/
def Increasing (a : Nat → ℝ) (n : Nat) : Prop := ∀ i, 1 ≤ i → i < n → a i < a (i + 1)
end Spec.LakeInterp
open Spec.LakeInterp

private theorem inc_lt {a : Nat → ℝ} {n : Nat} (h : Increasing a n) {i j : Nat} (hi : 1 ≤ i) (hij : i < j) (hj : j ≤ n) : a i < a j := by
  obtain ⟨k, rfl⟩ : ∃ k, j = i + 1 + k := ⟨j - (i + 1), by omega⟩
  clear hij
  induction k with
  | zero => exact h i hi (by omega)
  | succ k ih => exact (ih (by omega)).trans (h (i + 1 + k) (by omega) (by omega))

private theorem mono_ok {a : Nat → ℝ} {n : Nat} (h : Increasing a n) : ¬∃ i, 2 ≤ i ∧ i ≤ n ∧ a i < a (i - 1) := by
  rintro ⟨i, h1, h2, h3⟩
  have := h (i - 1) (by omega) (by omega)
  rw [show i - 1 + 1 = i by omega] at this
  linarith

private theorem scan_some {v : ℝ} {a : Nat → ℝ} : ∀ (k i : Nat), 2 ≤ i → a (i - 1) ≤ v → v ≤ a (i + k) →
    ∃ m, i ≤ m ∧ m ≤ i + k ∧ a (m - 1) ≤ v ∧ v ≤ a m ∧ (scan v a (k + 1) i = some m ∨ scan v a (k + 1) i = some (m - 1)) := by
  intro k
  induction k with
  | zero =>
    intro i h2 h1 h
    refine ⟨i, le_refl _, le_refl _, h1, h, ?_⟩
    rw [scan, if_pos (by simpa using h)]
    by_cases c : v - a (i - 1) < a i - v
    · rw [if_pos c]; exact .inr rfl
    · rw [if_neg c]; exact .inl rfl
  | succ k ih =>
    intro i h2 h1 h
    by_cases hv : v ≤ a i
    · refine ⟨i, le_refl _, by omega, h1, hv, ?_⟩
      rw [scan, if_pos hv]
      by_cases c : v - a (i - 1) < a i - v
      · rw [if_pos c]; exact .inr rfl
      · rw [if_neg c]; exact .inl rfl
    · obtain ⟨m, m1, m2, m3, m4, m5⟩ := ih (i + 1) (by omega) (by simpa using (not_le.1 hv).le) (by rw [show i + 1 + k = i + (k + 1) by omega]; exact h)
      refine ⟨m, by omega, by omega, m3, m4, ?_⟩
      rw [scan, if_neg hv]
      exact m5

private theorem before_in {v : ℝ} {a : Nat → ℝ} {n : Nat} (hn : 2 ≤ n) (h : Increasing a n) (h1 : a 1 ≤ v) (h2 : v ≤ a n) :
    ∃ k, before v a n = some k ∧ 1 ≤ k ∧ k + 1 ≤ n ∧ a k ≤ v ∧ v ≤ a (k + 1) := by
  obtain ⟨m, m1, m2, m3, m4, m5⟩ := scan_some (v := v) (a := a) (n - 2) 2 (le_refl _) h1 (by rw [show 2 + (n - 2) = n by omega]; exact h2)
  have e : indp v a n = scan v a (n - 2 + 1) 2 := by
    unfold indp
    rw [if_neg (mono_ok h), if_neg (not_lt.2 h2), if_neg (not_lt.2 h1), show n - 1 = n - 2 + 1 by omega]
  unfold before
  rw [e]
  rcases m5 with q | q
  · rw [q]
    simp only
    by_cases c : v < a m
    · rw [if_pos c, show max (m - 1) 1 = m - 1 by omega, if_neg (by rintro ⟨_, h⟩; omega)]
      exact ⟨m - 1, rfl, by omega, by omega, m3, by rw [show m - 1 + 1 = m by omega]; exact m4⟩
    · rw [if_neg c]
      have ev : a m = v := le_antisymm (not_lt.1 c) m4
      by_cases d : m = n
      · rw [if_pos ⟨ev, d⟩, show max (m - 1) 1 = m - 1 by omega]
        exact ⟨m - 1, rfl, by omega, by omega, m3, by rw [show m - 1 + 1 = m by omega]; exact m4⟩
      · rw [if_neg (fun h => d h.2)]
        exact ⟨m, rfl, by omega, by omega, ev.le, by rw [← ev]; exact (h m (by omega) (by omega)).le⟩
  · rw [q]
    simp only
    rw [if_neg (not_lt.2 m3), if_neg (by rintro ⟨_, h⟩; omega)]
    exact ⟨m - 1, rfl, by omega, by omega, m3, by rw [show m - 1 + 1 = m by omega]; exact m4⟩

private theorem before_low {v : ℝ} {a : Nat → ℝ} {n : Nat} (hn : 2 ≤ n) (h : Increasing a n) (h1 : v < a 1) : before v a n = some 1 := by
  have hl := inc_lt h (le_refl 1) (show 1 < n by omega) (le_refl n)
  unfold before indp
  rw [if_neg (mono_ok h), if_neg (by linarith), if_pos h1]
  simp only
  rw [if_pos h1]
  simp only [show max (1 - 1) 1 = 1 by rfl]
  rw [if_neg (by rintro ⟨_, h⟩; omega)]

private theorem before_high {v : ℝ} {a : Nat → ℝ} {n : Nat} (h : Increasing a n) (h1 : a n < v) : before v a n = some n := by
  unfold before indp
  rw [if_neg (mono_ok h), if_pos h1]
  simp only
  rw [if_neg (not_lt.2 h1.le), if_neg (by rintro ⟨h, _⟩; linarith)]

private theorem inner {v l r : ℝ} (h : l < r) (h1 : l ≤ v) (h2 : v ≤ r) :
    0 ≤ (r - v) / (r - l) ∧ (r - v) / (r - l) ≤ 1 ∧ (r - v) / (r - l) * l + (1 - (r - v) / (r - l)) * r = v := by
  have hd : 0 < r - l := by linarith
  refine ⟨div_nonneg (by linarith) hd.le, (div_le_one hd).2 (by linarith), ?_⟩
  field_simp
  ring

/-- Latitudes: inside the data two neighbours whose weighted mean is the latitude, with weights between 0 and 1; outside the first or the last row alone. -/
theorem C151_latitude (a : Nat → ℝ) (n : Nat) (hn : 2 ≤ n) (h : Increasing a n) (lat : ℝ) :
    (a 1 ≤ lat → lat ≤ a n → ∃ s w, latPoint lat a n = some (s, s + 1, w) ∧ 1 ≤ s ∧ s + 1 ≤ n ∧ 0 ≤ w ∧ w ≤ 1 ∧ w * a s + (1 - w) * a (s + 1) = lat) ∧
    (lat < a 1 → ∃ e, latPoint lat a n = some (1, e, 1)) ∧ (a n < lat → ∃ e, latPoint lat a n = some (n, e, 1)) := by
  refine ⟨?_, ?_, ?_⟩
  · intro h1 h2
    obtain ⟨k, e, k1, k2, k3, k4⟩ := before_in hn h h1 h2
    have hl := h k k1 (by omega)
    obtain ⟨w1, w2, w3⟩ := inner hl k3 k4
    refine ⟨k, (a (k + 1) - lat) / (a (k + 1) - a k), ?_, k1, k2, w1, w2, w3⟩
    unfold latPoint
    rw [e]
    simp only
    rw [show min (k + 1) n = k + 1 by omega, if_pos ⟨hl.ne, k3⟩]
  · intro h1
    refine ⟨min (1 + 1) n, ?_⟩
    unfold latPoint
    rw [before_low hn h h1]
    simp only
    rw [if_neg (fun q => absurd q.2 (not_le.2 h1))]
  · intro h1
    refine ⟨n, ?_⟩
    unfold latPoint
    rw [before_high h h1]
    simp only
    rw [show min (n + 1) n = n by omega, if_neg (fun q => q.1 rfl)]

private theorem tpi_eq : tpi = 2 * π := by unfold tpi; ring
private theorem eps_pos : 0 < eps := by unfold eps; positivity

private theorem wrap_west {D d : ℝ} (h0 : 0 ≤ d) (h1 : d ≤ D) : 0 ≤ d / (D + eps) ∧ d / (D + eps) ≤ 1 ∧ |d / (D + eps) * D - d| ≤ eps := by
  have he := eps_pos
  have hD : 0 < D + eps := by linarith
  refine ⟨div_nonneg h0 hD.le, (div_le_one hD).2 (by linarith), ?_⟩
  have : d / (D + eps) * D - d = -(d / (D + eps) * eps) := by field_simp; ring
  rw [this, abs_neg, abs_of_nonneg (mul_nonneg (div_nonneg h0 hD.le) he.le)]
  exact mul_le_of_le_one_left he.le ((div_le_one hD).2 (by linarith))

private theorem wrap_east {D d : ℝ} (h0 : 0 ≤ d) (h1 : d ≤ D) : 0 ≤ (d + eps) / (D + eps) ∧ (d + eps) / (D + eps) ≤ 1 ∧ |(d + eps) / (D + eps) * D - d| ≤ eps := by
  have he := eps_pos
  have hD : 0 < D + eps := by linarith
  have q : (d + eps) / (D + eps) ≤ 1 := (div_le_one hD).2 (by linarith)
  refine ⟨div_nonneg (by linarith) hD.le, q, ?_⟩
  have : (d + eps) / (D + eps) * D - d = (1 - (d + eps) / (D + eps)) * eps := by field_simp; ring
  rw [this, abs_of_nonneg (mul_nonneg (by linarith) he.le)]
  have : 0 ≤ (d + eps) / (D + eps) := div_nonneg (by linarith) hD.le
  exact mul_le_of_le_one_left he.le (by linarith)

/-- Longitudes, all round: two neighbours on the circle, with weights between 0 and 1; the weighted mean is the longitude up to whole turns, exactly inside the data and up to `epsln` between
the last and the first column. -/
theorem C151_longitude (a : Nat → ℝ) (n : Nat) (hn : 2 ≤ n) (h : Increasing a n) (hr : a n - a 1 ≤ 2 * π) (lon : ℝ)
    (hlo : -(2 * π) ≤ lon) (hhi : lon ≤ 4 * π) (hin : 0 ≤ a 1 ∧ a n ≤ 2 * π) :
    ∃ s e w, ∃ turns : Int, lonPoint (shift lon a n) a n = some (s, e, w) ∧ 0 ≤ w ∧ w ≤ 1 ∧
      ((1 ≤ s ∧ e = s + 1 ∧ e ≤ n ∧ w * a s + (1 - w) * a e = lon + 2 * π * turns) ∨
       (s = n ∧ e = 1 ∧ |w * a n + (1 - w) * (a 1 + 2 * π) - (lon + 2 * π * turns)| ≤ eps)) := by
  have hp := Real.pi_pos
  have mn : lonMin a n = 0 := by unfold lonMin; rw [if_neg (by rw [tpi_eq]; rintro (q | q) <;> linarith [hin.1, hin.2])]
  have mx : lonMax a n = 2 * π := by unfold lonMax; rw [if_neg (by rw [tpi_eq]; rintro (q | q) <;> linarith [hin.1, hin.2]), tpi_eq]
  obtain ⟨t, et, t0, t1⟩ : ∃ t : Int, shift lon a n = lon + 2 * π * t ∧ 0 ≤ shift lon a n ∧ shift lon a n ≤ 2 * π := by
    unfold shift
    rw [mn, mx, tpi_eq]
    by_cases c : lon < 0
    · rw [if_pos c]; exact ⟨1, by push_cast; ring, by linarith, by linarith⟩
    · rw [if_neg c]
      by_cases d : 2 * π < lon
      · rw [if_pos d]; exact ⟨-1, by push_cast; ring, by linarith, by linarith⟩
      · rw [if_neg d]; exact ⟨0, by simp, not_lt.1 c, not_lt.1 d⟩
  generalize shift lon a n = v at *
  by_cases c1 : v < a 1
  · have hd := wrap_west (D := a 1 - a n + 2 * π) (d := a 1 - v) (by linarith) (by linarith [hin.2])
    refine ⟨n, 1, (a 1 - v) / (a 1 - a n + tpi + eps), t + 1, ?_, ?_⟩
    · unfold lonPoint
      rw [before_low hn h c1]
      simp only
      rw [if_neg (fun q => absurd q.2 (not_le.2 c1)), if_pos c1.le]
    · rw [tpi_eq]
      refine ⟨hd.1, hd.2.1, .inr ⟨rfl, rfl, ?_⟩⟩
      rw [← abs_neg]
      refine le_of_eq_of_le ?_ hd.2.2
      congr 1
      push_cast
      linear_combination -et
  · by_cases c2 : a n < v
    · have hd := wrap_east (D := a 1 - a n + 2 * π) (d := a 1 - v + 2 * π) (by linarith [hin.1]) (by linarith)
      refine ⟨n, 1, (a 1 - v + tpi + eps) / (a 1 - a n + tpi + eps), t, ?_, ?_⟩
      · unfold lonPoint
        rw [before_high h c2]
        simp only
        rw [show min (n + 1) n = n by omega, if_neg (fun q => q.1 rfl), if_neg (by have := inc_lt h (le_refl 1) (show 1 < n by omega) (le_refl n); linarith)]
      · rw [tpi_eq]
        refine ⟨hd.1, hd.2.1, .inr ⟨rfl, rfl, ?_⟩⟩
        rw [← abs_neg]
        refine le_of_eq_of_le ?_ hd.2.2
        congr 1
        linear_combination -et
    · obtain ⟨k, e, k1, k2, k3, k4⟩ := before_in hn h (not_lt.1 c1) (not_lt.1 c2)
      have hl := h k k1 (by omega)
      obtain ⟨w1, w2, w3⟩ := inner hl k3 k4
      refine ⟨k, k + 1, (a (k + 1) - v) / (a (k + 1) - a k), t, ?_, w1, w2, .inl ⟨k1, rfl, k2, w3.trans et⟩⟩
      unfold lonPoint
      rw [e]
      simp only
      rw [show min (k + 1) n = k + 1 by omega, if_pos ⟨hl.ne, k3⟩]

/-- Columns at 1, 2, 3 radians: a point at -1 is between the third column and the first one. -/
example : ∃ s e w, ∃ turns : Int, lonPoint (shift (-1) (fun i => i) 3) (fun i => i) 3 = some (s, e, w) ∧ 0 ≤ w ∧ w ≤ 1 ∧
      ((1 ≤ s ∧ e = s + 1 ∧ e ≤ 3 ∧ w * (s : ℝ) + (1 - w) * e = -1 + 2 * π * turns) ∨
       (s = 3 ∧ e = 1 ∧ |w * ((3 : Nat) : ℝ) + (1 - w) * (((1 : Nat) : ℝ) + 2 * π) - (-1 + 2 * π * turns)| ≤ eps)) :=
  C151_longitude (fun i => i) 3 (by norm_num) (fun i _ _ => by push_cast; linarith) (by push_cast; linarith [Real.two_le_pi]) (-1) (by linarith [Real.two_le_pi])
    (by linarith [Real.two_le_pi]) ⟨by push_cast; norm_num, by push_cast; linarith [Real.two_le_pi]⟩

/-- The interpolation itself: with weights between 0 and 1 and a mask between 0 and 1, a result with a mask of its own lies between the values at the points that are not masked; where the four
points are masked the result has mask 0. -/
theorem C151_bilinear (w : Weights) (hw : 0 ≤ w.lon.2.2 ∧ w.lon.2.2 ≤ 1) (hv : 0 ≤ w.lat.2.2 ∧ w.lat.2.2 ≤ 1) (data mask : Nat → Nat → ℝ) (hm : ∀ i j, 0 ≤ mask i j ∧ mask i j ≤ 1) :
    0 ≤ (bilinear w data mask).2 ∧ (bilinear w data mask).2 ≤ 1 ∧
    (∀ lo hi, (∀ i ∈ [w.lon.1, w.lon.2.1], ∀ j ∈ [w.lat.1, w.lat.2.1], mask i j ≠ 0 → lo ≤ data i j ∧ data i j ≤ hi) → (bilinear w data mask).2 ≠ 0 →
      lo ≤ (bilinear w data mask).1 ∧ (bilinear w data mask).1 ≤ hi) ∧
    ((∀ i ∈ [w.lon.1, w.lon.2.1], ∀ j ∈ [w.lat.1, w.lat.2.1], mask i j = 0) → (bilinear w data mask).2 = 0) := by
  obtain ⟨⟨s, e, u⟩, ⟨js, je, t⟩⟩ := w
  simp only at hw hv
  have he := eps_pos
  have p1 : 0 ≤ u * t := mul_nonneg hw.1 hv.1
  have p2 : 0 ≤ (1 - u) * t := mul_nonneg (by linarith) hv.1
  have p3 : 0 ≤ (1 - u) * (1 - t) := mul_nonneg (by linarith) (by linarith)
  have p4 : 0 ≤ u * (1 - t) := mul_nonneg hw.1 (by linarith)
  have q1 := mul_nonneg (hm s js).1 p1
  have q2 := mul_nonneg (hm e js).1 p2
  have q3 := mul_nonneg (hm e je).1 p3
  have q4 := mul_nonneg (hm s je).1 p4
  have r1 := mul_le_mul_of_nonneg_right (hm s js).2 p1
  have r2 := mul_le_mul_of_nonneg_right (hm e js).2 p2
  have r3 := mul_le_mul_of_nonneg_right (hm e je).2 p3
  have r4 := mul_le_mul_of_nonneg_right (hm s je).2 p4
  unfold bilinear
  simp only
  have eS : mask s js * u * t + mask e js * (1 - u) * t + mask e je * (1 - u) * (1 - t) + mask s je * u * (1 - t) =
      mask s js * (u * t) + mask e js * ((1 - u) * t) + mask e je * ((1 - u) * (1 - t)) + mask s je * (u * (1 - t)) := by ring
  have eD : data s js * mask s js * u * t + data e js * mask e js * (1 - u) * t + data e je * mask e je * (1 - u) * (1 - t) + data s je * mask s je * u * (1 - t) =
      data s js * (mask s js * (u * t)) + data e js * (mask e js * ((1 - u) * t)) + data e je * (mask e je * ((1 - u) * (1 - t))) + data s je * (mask s je * (u * (1 - t))) := by ring
  rw [eS, eD]
  have one : u * t + (1 - u) * t + (1 - u) * (1 - t) + u * (1 - t) = 1 := by ring
  refine ⟨?_, ?_, ?_, ?_⟩
  · by_cases c : mask s js * (u * t) + mask e js * ((1 - u) * t) + mask e je * ((1 - u) * (1 - t)) + mask s je * (u * (1 - t)) < eps
    · rw [if_pos c]
    · rw [if_neg c]; show 0 ≤ _; linarith
  · by_cases c : mask s js * (u * t) + mask e js * ((1 - u) * t) + mask e je * ((1 - u) * (1 - t)) + mask s je * (u * (1 - t)) < eps
    · rw [if_pos c]; show (0 : ℝ) ≤ 1; norm_num
    · rw [if_neg c]; show _ ≤ (1 : ℝ); linarith
  · intro lo hi hd hne
    by_cases c : mask s js * (u * t) + mask e js * ((1 - u) * t) + mask e je * ((1 - u) * (1 - t)) + mask s je * (u * (1 - t)) < eps
    · rw [if_pos c] at hne; exact absurd rfl hne
    · rw [if_neg c]
      have hS : 0 < mask s js * (u * t) + mask e js * ((1 - u) * t) + mask e je * ((1 - u) * (1 - t)) + mask s je * (u * (1 - t)) := by linarith
      have b : ∀ i ∈ [s, e], ∀ j ∈ [js, je], ∀ x : ℝ, 0 ≤ x → lo * (mask i j * x) ≤ data i j * (mask i j * x) ∧ data i j * (mask i j * x) ≤ hi * (mask i j * x) := by
        intro i hi' j hj x hx
        by_cases z : mask i j = 0
        · rw [z]; simp
        · obtain ⟨d1, d2⟩ := hd i hi' j hj z
          have := mul_nonneg (hm i j).1 hx
          exact ⟨mul_le_mul_of_nonneg_right d1 this, mul_le_mul_of_nonneg_right d2 this⟩
      have b1 := b s (by simp) js (by simp) _ p1
      have b2 := b e (by simp) js (by simp) _ p2
      have b3 := b e (by simp) je (by simp) _ p3
      have b4 := b s (by simp) je (by simp) _ p4
      constructor
      · show lo ≤ _ / _
        rw [le_div_iff₀ hS]
        linarith [b1.1, b2.1, b3.1, b4.1]
      · show _ / _ ≤ hi
        rw [div_le_iff₀ hS]
        linarith [b1.2, b2.2, b3.2, b4.2]
  · intro hz
    rw [hz s (by simp) js (by simp), hz e (by simp) js (by simp), hz e (by simp) je (by simp), hz s (by simp) je (by simp)]
    simp [he]

private theorem mapM_some {α β : Type} (f : α → Option β) (l : List α) (h : ∀ x ∈ l, ∃ y, f x = some y) : ∃ ys, l.mapM f = some ys := by
  induction l with
  | nil => exact ⟨[], rfl⟩
  | cons x xs ih =>
    obtain ⟨y, hy⟩ := h x List.mem_cons_self
    obtain ⟨ys, hys⟩ := ih fun z hz => h z (List.mem_cons_of_mem _ hz)
    exact ⟨y :: ys, by rw [List.mapM_cons, hy, hys]; rfl⟩

/-- A grid of data on which the interpolation is defined, with boundaries of cells from 0 to 2 pi, and points of the model grid at most one turn away. -/
structure C151Grid (lonb latb : Nat → ℝ) (n m : Nat) (points : List (ℝ × ℝ)) : Prop where
  n2 : 2 ≤ n
  m2 : 2 ≤ m
  lon : Increasing lonb (n + 1)
  lat : Increasing latb (m + 1)
  first : 0 ≤ lonb 1
  last : lonb (n + 1) ≤ 2 * π
  near : ∀ p ∈ points, -(2 * π) ≤ p.1 ∧ p.1 ≤ 4 * π

private theorem middle_between {b : Nat → ℝ} {n i : Nat} (h : Increasing b (n + 1)) (h1 : 1 ≤ i) (h2 : i ≤ n) : b i < middle b i ∧ middle b i < b (i + 1) := by
  have := h i h1 (by omega)
  unfold middle
  constructor <;> linarith

private theorem middle_inc {b : Nat → ℝ} {n : Nat} (h : Increasing b (n + 1)) : Increasing (middle b) n := fun i h1 h2 =>
  lt_trans (middle_between h h1 (by omega)).2 (middle_between h (Nat.le_succ_of_le h1) h2).1

private theorem grid_ok {lonb latb : Nat → ℝ} {n m : Nat} {points : List (ℝ × ℝ)} (h : C151Grid lonb latb n m points) :
    ∃ ws, points.mapM (newPoint (middle lonb) n (middle latb) m) = some ws := by
  have hn := h.n2
  have first : 0 ≤ middle lonb 1 := le_trans h.first (le_of_lt (middle_between h.lon (Nat.le_refl 1) (by omega)).1)
  have last : middle lonb n ≤ 2 * π := le_trans (le_of_lt (middle_between h.lon (by omega) (Nat.le_refl n)).2) h.last
  refine mapM_some _ _ fun p hp => ?_
  obtain ⟨s, e, w, t, h1, _⟩ := C151_longitude (middle lonb) n h.n2 (middle_inc h.lon) (by linarith) p.1 (h.near p hp).1 (h.near p hp).2 ⟨first, last⟩
  have h2 : ∃ y, latPoint p.2 (middle latb) m = some y := by
    obtain ⟨l1, l2, l3⟩ := C151_latitude (middle latb) m h.m2 (middle_inc h.lat) p.2
    by_cases c : p.2 < middle latb 1
    · obtain ⟨e, q⟩ := l2 c; exact ⟨_, q⟩
    · by_cases d : middle latb m < p.2
      · obtain ⟨e, q⟩ := l3 d; exact ⟨_, q⟩
      · obtain ⟨s, w, q, _⟩ := l1 (not_lt.1 c) (not_lt.1 d); exact ⟨_, q⟩
  obtain ⟨y, h2⟩ := h2
  refine ⟨⟨(s, e, w), y⟩, ?_⟩
  unfold newPoint
  rw [if_neg (by rw [tpi_eq]; linarith [eps_pos]), h1, h2]

/-- The interpolation is never called: `horiz_interp` returns with `data_out` and `mask_out` as they were in memory, for all data. -/
theorem C151_not_called_wrong (lonb latb : Nat → ℝ) (n m : Nat) (data mask : Nat → Nat → ℝ) (points mem : List (ℝ × ℝ)) (h : C151Grid lonb latb n m points) :
    solo lonb latb n m data mask points mem = some mem := by
  obtain ⟨ws, e⟩ := grid_ok h
  unfold solo
  rw [e]
  rfl

/-- So the lake fraction of a tile is whatever was in memory. -/
theorem C151_lake_wrong (dtr missing : ℝ) (lonb latb : Nat → ℝ) (n m : Nat) (data : Nat → Nat → ℝ) (points mem : List (ℝ × ℝ))
    (h : C151Grid (fun i => lonb i * dtr) (fun j => latb j * dtr) n m (points.map fun p => (p.1 * dtr, p.2 * dtr))) :
    lakeFraction dtr missing lonb latb n m data points mem = some (mem.map (fun d => if d.2 = 0 then missing else d.1)) := by
  unfold lakeFraction
  rw [C151_not_called_wrong _ _ _ _ _ _ _ _ h]

/-- Four columns and three rows of 1 radian, from 0 and from -1.5, and two points; the arrays hold 7 and 8 before. -/
example (data mask : Nat → Nat → ℝ) : solo (fun i => i - 1) (fun j => j - 2.5) 4 3 data mask [(3.8, 0.2), (-1, 2)] [(7, 1), (8, 1)] = some [(7, 1), (8, 1)] := by
  refine C151_not_called_wrong _ _ _ _ _ _ _ _ ⟨by norm_num, by norm_num, ?_, ?_, ?_, ?_, ?_⟩
  · intro i _ _; push_cast; linarith
  · intro i _ _; push_cast; linarith
  · norm_num
  · push_cast; linarith [Real.two_le_pi]
  · have := Real.two_le_pi
    intro p hp
    simp only [List.mem_cons, List.not_mem_nil, or_false] at hp
    rcases hp with rfl | rfl
    · constructor <;> norm_num <;> linarith
    · constructor <;> norm_num <;> linarith

/-- One column of data: `array(2)` of an array with one element is read. -/
theorem C151_one_column_wrong (a : Nat → ℝ) : indp (a 1) a 1 = none := by
  unfold indp
  rw [if_neg (by rintro ⟨i, h1, h2, _⟩; omega), if_neg (lt_irrefl _), if_neg (lt_irrefl _)]
  rfl

end Verif
