import Verif.Model.Extrapolate
import Verif.Spec.Extrapolate
import Mathlib.Tactic.Linarith
import Mathlib.Tactic.Ring
import Mathlib.Tactic.FieldSimp
import Mathlib.Tactic.Positivity
/-
Lemmas for the extrapolation of missing values.
-/
namespace Verif.Extrapolate

open Verif.Spec.Ext

variable {K : Type} [Field K] [LinearOrder K] [IsStrictOrderedRing K]

theorem du_pos {n : Nat} {x : Nat → K} (hn : 2 ≤ n) (hx : ∀ i, i + 1 < n → x i < x (i + 1)) (i : Nat) : 0 < du n x i := by
  unfold du
  split
  · rename_i h
    linarith [hx i h]
  · have := hx (n - 2) (by omega)
    rw [show n - 2 + 1 = n - 1 by omega] at this
    linarith

theorem dt_pos {n : Nat} {x : Nat → K} (hn : 2 ≤ n) (hx : ∀ i, i + 1 < n → x i < x (i + 1)) (i : Nat) : 0 < dt n x i := by
  unfold dt
  have := du_pos hn hx
  split
  · linarith [this 1, this 0]
  · linarith [this i, this (i - 1)]

theorem cos_latp {cos : K → K} {ni nj : Nat} {lon lat : Nat → K} (g : Grid cos ni nj lon lat) {j : Nat} (hj : j < nj) :
    0 ≤ cos (latp nj lat j) := by
  unfold latp
  split
  · rename_i h
    have := g.north
    rw [show nj - 1 = j by omega, show nj - 2 = j - 1 by omega] at this
    convert this using 2
    ring
  · have := g.side j (by omega)
    convert this using 2
    ring

theorem cos_latm {cos : K → K} {ni nj : Nat} {lon lat : Nat → K} (g : Grid cos ni nj lon lat) {j : Nat} (hj : j < nj) :
    0 ≤ cos (latm lat j) := by
  unfold latm
  split
  · rename_i h
    subst h
    have := g.south
    convert this using 2
    ring
  · have := g.side (j - 1) (by omega)
    rw [show j - 1 + 1 = j by omega] at this
    convert this using 2
    ring

/-- Coefficients of a mean. -/
structure Convex (c : Coef K) : Prop where
  n : 0 ≤ c.n
  s : 0 ≤ c.s
  e : 0 ≤ c.e
  w : 0 ≤ c.w
  sum : c.w + c.e + c.s + c.n = 1

theorem coef_convex {cos : K → K} {ni nj : Nat} {lon lat : Nat → K} (g : Grid cos ni nj lon lat) {j : Nat} (i : Nat)
    (hj : j < nj) : Convex (coef cos ni nj lon lat j i) := by
  have hx := du_pos g.two_columns g.lon_lt
  have hy := du_pos g.two_rows g.lat_lt
  have hxt := dt_pos g.two_columns g.lon_lt i
  have hyt := dt_pos g.two_rows g.lat_lt j
  have hc := g.centre j hj
  have hp := cos_latp g hj
  have hm := cos_latm g hj
  have x1 := hx i
  have x2 := hx (i - 1)
  have y1 := hy j
  have y2 := hy (j - 1)
  unfold coef
  dsimp only
  have n0 : 0 ≤ cos (latp nj lat j) * (1 / cos (lat j)) / (dt nj lat j * du nj lat j) := by positivity
  have s0 : 0 ≤ cos (latm lat j) * (1 / cos (lat j)) / (dt nj lat j * du nj lat (j - 1)) := by positivity
  have e0 : 0 < 1 / cos (lat j) * (1 / cos (lat j)) / (du ni lon i * dt ni lon i) := by positivity
  have w0 : 0 < 1 / cos (lat j) * (1 / cos (lat j)) / (du ni lon (i - 1) * dt ni lon i) := by positivity
  generalize cos (latp nj lat j) * (1 / cos (lat j)) / (dt nj lat j * du nj lat j) = n at *
  generalize cos (latm lat j) * (1 / cos (lat j)) / (dt nj lat j * du nj lat (j - 1)) = s at *
  generalize 1 / cos (lat j) * (1 / cos (lat j)) / (du ni lon i * dt ni lon i) = e at *
  generalize 1 / cos (lat j) * (1 / cos (lat j)) / (du ni lon (i - 1) * dt ni lon i) = w at *
  have ht : 0 < n + s + e + w := by linarith
  refine ⟨by positivity, by positivity, by positivity, by positivity, ?_⟩
  field_simp
  ring

/-- `coef` times the sum, at an inner cell. -/
theorem coef_inner {cos : K → K} {ni nj : Nat} {lon lat : Nat → K} (g : Grid cos ni nj lon lat) {j i : Nat}
    (hj0 : 0 < j) (hj : j + 1 < nj) (hi0 : 0 < i) (hi : i + 1 < ni) (f : Nat → Nat → K) :
    laplacian cos lon lat f j i
      = weight cos lon lat j i * ((coef cos ni nj lon lat j i).w * f j (i - 1) + (coef cos ni nj lon lat j i).e * f j (i + 1)
        + (coef cos ni nj lon lat j i).s * f (j - 1) i + (coef cos ni nj lon lat j i).n * f (j + 1) i - f j i)
    ∧ 0 < weight cos lon lat j i := by
  have hc := g.centre j (by omega)
  have hp := g.side j hj
  have hm := g.side (j - 1) (by omega)
  rw [show j - 1 + 1 = j by omega] at hm
  have x1 := g.lon_lt i hi
  have x0 := g.lon_lt (i - 1) (by omega)
  rw [show i - 1 + 1 = i by omega] at x0
  have y1 := g.lat_lt j hj
  have y0 := g.lat_lt (j - 1) (by omega)
  rw [show j - 1 + 1 = j by omega] at y0
  have e1 : du ni lon i = lon (i + 1) - lon i := by unfold du; rw [if_pos hi]
  have e2 : du ni lon (i - 1) = lon i - lon (i - 1) := by
    unfold du; rw [if_pos (by omega), show i - 1 + 1 = i by omega]
  have e3 : dt ni lon i = (lon (i + 1) - lon (i - 1)) / 2 := by
    unfold dt; rw [if_neg (by omega), e1, e2]; ring
  have f1 : du nj lat j = lat (j + 1) - lat j := by unfold du; rw [if_pos hj]
  have f2 : du nj lat (j - 1) = lat j - lat (j - 1) := by
    unfold du; rw [if_pos (by omega), show j - 1 + 1 = j by omega]
  have f3 : dt nj lat j = (lat (j + 1) - lat (j - 1)) / 2 := by
    unfold dt; rw [if_neg (by omega), f1, f2]; ring
  have g1 : latp nj lat j = (lat j + lat (j + 1)) / 2 := by unfold latp; rw [if_neg (by omega)]; ring
  have g2 : latm lat j = (lat (j - 1) + lat j) / 2 := by unfold latm; rw [if_neg (by omega)]; ring
  unfold laplacian weight coef
  dsimp only
  rw [e1, e2, e3, f1, f2, f3, g1, g2]
  generalize cos ((lat j + lat (j + 1)) / 2) = cp at *
  generalize cos ((lat (j - 1) + lat j) / 2) = cm at *
  generalize cos (lat j) = cc at *
  have a1 : 0 < lon (i + 1) - lon i := by linarith
  have a2 : 0 < lon i - lon (i - 1) := by linarith
  have a3 : lon (i + 1) - lon (i - 1) = (lon (i + 1) - lon i) + (lon i - lon (i - 1)) := by ring
  have b1 : 0 < lat (j + 1) - lat j := by linarith
  have b2 : 0 < lat j - lat (j - 1) := by linarith
  have b3 : lat (j + 1) - lat (j - 1) = (lat (j + 1) - lat j) + (lat j - lat (j - 1)) := by ring
  rw [a3, b3]
  generalize lon (i + 1) - lon i = p1 at *
  generalize lon i - lon (i - 1) = p2 at *
  generalize lat (j + 1) - lat j = q1 at *
  generalize lat j - lat (j - 1) = q2 at *
  have hw : (1 / p1 + 1 / p2) / ((p1 + p2) / 2 * cc ^ 2) + (cp / q1 + cm / q2) / ((q1 + q2) / 2 * cc)
      = cp * (1 / cc) / ((q1 + q2) / 2 * q1) + cm * (1 / cc) / ((q1 + q2) / 2 * q2)
        + 1 / cc * (1 / cc) / (p1 * ((p1 + p2) / 2)) + 1 / cc * (1 / cc) / (p2 * ((p1 + p2) / 2)) := by
    field_simp
    ring
  have hpos : 0 < (1 / p1 + 1 / p2) / ((p1 + p2) / 2 * cc ^ 2) + (cp / q1 + cm / q2) / ((q1 + q2) / 2 * cc) := by positivity
  refine ⟨?_, hpos⟩
  rw [← hw]
  generalize hT : (1 / p1 + 1 / p2) / ((p1 + p2) / 2 * cc ^ 2) + (cp / q1 + cm / q2) / ((q1 + q2) / 2 * cc) = T at *
  have hTne : T ≠ 0 := hpos.ne'
  have key : ∀ a b c d z : K, T * (a * (1 / T) * f j (i - 1) + b * (1 / T) * f j (i + 1) + c * (1 / T) * f (j - 1) i
      + d * (1 / T) * f (j + 1) i - z) = a * f j (i - 1) + b * f j (i + 1) + c * f (j - 1) i + d * f (j + 1) i - T * z := by
    intro a b c d z
    field_simp
  rw [key, ← hT]
  field_simp
  ring

/-! ### Invariants of the iteration -/

/-- Rows and columns where `sor` is between 0 and 1. -/
theorem relax_range {ni nj : Nat} {c : Nat → Nat → Coef K} {sor t : Nat → Nat → K} {lo hi : K}
    (hc : ∀ j i, j < nj → i < ni → Convex (c j i)) (hs : ∀ j i, 0 ≤ sor j i ∧ sor j i ≤ 1)
    (ht : ∀ j i, lo ≤ t j i ∧ t j i ≤ hi) (j i : Nat) :
    lo ≤ relax ni nj c sor t j i ∧ relax ni nj c sor t j i ≤ hi := by
  unfold relax
  split
  · rename_i h
    obtain ⟨cn, cs, ce, cw, sum⟩ := hc (j - 1) (i - 1) (by omega) (by omega)
    obtain ⟨s0, s1⟩ := hs (j - 1) (i - 1)
    unfold change
    have t1 := ht (j - 1 + 1) (i - 1)
    have t2 := ht (j - 1 + 1) (i - 1 + 2)
    have t3 := ht (j - 1) (i - 1 + 1)
    have t4 := ht (j - 1 + 2) (i - 1 + 1)
    have t5 := ht j i
    rw [show t (j - 1 + 1) (i - 1 + 1) = t j i by rw [show j - 1 + 1 = j by omega, show i - 1 + 1 = i by omega]]
    have hm : lo ≤ (c (j - 1) (i - 1)).w * t (j - 1 + 1) (i - 1) + (c (j - 1) (i - 1)).e * t (j - 1 + 1) (i - 1 + 2)
          + (c (j - 1) (i - 1)).s * t (j - 1) (i - 1 + 1) + (c (j - 1) (i - 1)).n * t (j - 1 + 2) (i - 1 + 1)
        ∧ (c (j - 1) (i - 1)).w * t (j - 1 + 1) (i - 1) + (c (j - 1) (i - 1)).e * t (j - 1 + 1) (i - 1 + 2)
          + (c (j - 1) (i - 1)).s * t (j - 1) (i - 1 + 1) + (c (j - 1) (i - 1)).n * t (j - 1 + 2) (i - 1 + 1) ≤ hi := by
      generalize (c (j - 1) (i - 1)).w = w at *
      generalize (c (j - 1) (i - 1)).e = e at *
      generalize (c (j - 1) (i - 1)).s = s at *
      generalize (c (j - 1) (i - 1)).n = n at *
      have e1 : lo = w * lo + e * lo + s * lo + n * lo := by rw [← add_mul, ← add_mul, ← add_mul, sum, one_mul]
      have e2 : hi = w * hi + e * hi + s * hi + n * hi := by rw [← add_mul, ← add_mul, ← add_mul, sum, one_mul]
      constructor
      · have := mul_le_mul_of_nonneg_left t1.1 cw
        have := mul_le_mul_of_nonneg_left t2.1 ce
        have := mul_le_mul_of_nonneg_left t3.1 cs
        have := mul_le_mul_of_nonneg_left t4.1 cn
        linarith
      · have := mul_le_mul_of_nonneg_left t1.2 cw
        have := mul_le_mul_of_nonneg_left t2.2 ce
        have := mul_le_mul_of_nonneg_left t3.2 cs
        have := mul_le_mul_of_nonneg_left t4.2 cn
        linarith
    generalize (c (j - 1) (i - 1)).w * t (j - 1 + 1) (i - 1) + (c (j - 1) (i - 1)).e * t (j - 1 + 1) (i - 1 + 2)
          + (c (j - 1) (i - 1)).s * t (j - 1) (i - 1 + 1) + (c (j - 1) (i - 1)).n * t (j - 1 + 2) (i - 1 + 1) = m at *
    generalize sor (j - 1) (i - 1) = r at *
    have hr : 0 ≤ 1 - r := by linarith
    have e3 : t j i + (m - t j i) * r = r * m + (1 - r) * t j i := by ring
    rw [e3]
    constructor
    · have := mul_le_mul_of_nonneg_left hm.1 s0
      have := mul_le_mul_of_nonneg_left t5.1 hr
      linarith
    · have := mul_le_mul_of_nonneg_left hm.2 s0
      have := mul_le_mul_of_nonneg_left t5.2 hr
      linarith
  · exact ht j i

omit [IsStrictOrderedRing K] in
theorem fill_range {ni nj : Nat} {cyc : Bool} {t : Nat → Nat → K} {lo hi : K}
    (ht : ∀ j i, lo ≤ t j i ∧ t j i ≤ hi) (j i : Nat) : lo ≤ fill ni nj cyc t j i ∧ fill ni nj cyc t j i ≤ hi := by
  unfold fill
  split
  · split
    · exact ht _ _
    · split <;> exact ht _ _
  · exact ht _ _

/-- The result of the loop comes from one last pass over a filled array. -/
theorem iterate_last {ni nj : Nat} {cyc : Bool} {c : Nat → Nat → Coef K} {sor : Nat → Nat → K} {stop : K}
    (Q : (Nat → Nat → K) → Prop) (hQ : ∀ t, Q t → Q (fill ni nj cyc (relax ni nj c sor t))) :
    ∀ (k : Nat) (t0 : Nat → Nat → K), 1 ≤ k → Q (fill ni nj cyc t0) →
    ∃ t1, Q (fill ni nj cyc t1)
      ∧ iterate ni nj cyc c sor stop k (fill ni nj cyc t0)
        = (relax ni nj c sor (fill ni nj cyc t1), resmax ni nj c sor (fill ni nj cyc t1)) := by
  intro k
  induction k with
  | zero => intro _ h; omega
  | succ k ih =>
    intro t0 _ h0
    unfold iterate
    dsimp only
    split
    · exact ⟨t0, h0, rfl⟩
    · rename_i h
      push Not at h
      exact ih _ (by omega) (hQ _ h0)

theorem foldl_max_ge {β : Type} (f : β → K) (l : List β) (r : K) :
    r ≤ l.foldl (fun r b => max (f b) r) r ∧ ∀ b ∈ l, f b ≤ l.foldl (fun r b => max (f b) r) r := by
  induction l generalizing r with
  | nil => simp
  | cons a l ih =>
    obtain ⟨h1, h2⟩ := ih (max (f a) r)
    simp only [List.foldl_cons]
    refine ⟨le_trans (le_max_right _ _) h1, ?_⟩
    intro b hb
    rcases List.mem_cons.1 hb with rfl | hb
    · exact le_trans (le_max_left _ _) h1
    · exact h2 b hb

theorem foldl_mono {β : Type} (g : K → β → K) (hg : ∀ r b, r ≤ g r b) (l : List β) (r : K) : r ≤ l.foldl g r := by
  induction l generalizing r with
  | nil => exact le_refl _
  | cons a l ih => exact le_trans (hg r a) (ih _)

theorem resmax_ge {ni nj : Nat} (c : Nat → Nat → Coef K) (sor t : Nat → Nat → K) {j i : Nat} (hj : j < nj) (hi : i < ni) :
    |change c sor t j i| ≤ resmax ni nj c sor t := by
  unfold resmax
  have main : ∀ (l : List Nat) (r : K), j ∈ l →
      |change c sor t j i| ≤ l.foldl (fun r j => (List.range ni).foldl (fun r i => max (|change c sor t j i|) r) r) r := by
    intro l
    induction l with
    | nil => intro r h; simp at h
    | cons a l ih =>
      intro r h
      simp only [List.foldl_cons]
      rcases List.mem_cons.1 h with rfl | h
      · refine le_trans ((foldl_max_ge (fun i => |change c sor t j i|) (List.range ni) r).2 i (List.mem_range.2 hi)) ?_
        exact foldl_mono _ (fun r b => (foldl_max_ge (fun i => |change c sor t b i|) (List.range ni) r).1) _ _
      · exact ih _ h
  exact main _ _ (List.mem_range.2 hj)

end Verif.Extrapolate
