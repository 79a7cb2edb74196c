import Verif.Props.LinAlg
import Mathlib.Tactic.Linarith
import Mathlib.Tactic.Positivity
/-
C49: the intersection of two great circle arcs.
-/
namespace Verif.Vec3
open Verif.Spec

/-- The four end points lie in one open half of space, as for two cells that are close together. -/
def OneHalf (a1 a2 q1 q2 : V ℝ) : Prop :=
  ∃ n : V ℝ, 0 < inner3 n a1 ∧ 0 < inner3 n a2 ∧ 0 < inner3 n q1 ∧ 0 < inner3 n q2

theorem snap_mid {eps u : ℝ} (h0 : 0 < snap eps u) (h1 : snap eps u < 1) : snap eps u = u := by
  unfold snap at *
  dsimp only at *
  by_cases h : |u| < eps
  · simp only [if_pos h] at h0 h1 ⊢
    split at h0
    · rename_i h2; simp only [if_pos h2] at h1; linarith
    · linarith
  · simp only [if_neg h] at h0 h1 ⊢
    split at h1
    · linarith
    · rename_i h2; rw [if_neg h2]

theorem snap_range {eps u : ℝ} (h0 : 0 ≤ u) (h1 : u ≤ 1) : 0 ≤ snap eps u ∧ snap eps u ≤ 1 := by
  unfold snap
  dsimp only
  split <;> split <;> constructor <;> linarith

theorem samePoint_false {eps : ℝ} {p q : V ℝ} (h : ∃ i, eps < |p i - q i|) : samePoint eps p q = false := by
  obtain ⟨i, hi⟩ := h
  unfold samePoint
  rw [if_pos]
  fin_cases i
  · exact Or.inl hi
  · exact Or.inr (Or.inl hi)
  · exact Or.inr (Or.inr hi)

theorem metric_nonneg (p : V ℝ) : 0 ≤ metric p := Real.sqrt_nonneg _

theorem metric_sq (p : V ℝ) : metric p * metric p = inner3 p p := by
  unfold metric inner3
  exact Real.mul_self_sqrt (by nlinarith [mul_self_nonneg (p 0), mul_self_nonneg (p 1), mul_self_nonneg (p 2)])

theorem metric_pos {p : V ℝ} (h : p ≠ 0) : 0 < metric p := by
  rcases (metric_nonneg p).lt_or_eq with h1 | h1
  · exact h1
  · exfalso
    have := metric_sq p
    rw [← h1] at this
    unfold inner3 at this
    apply h
    funext i
    have e0 : p 0 = 0 := by nlinarith [mul_self_nonneg (p 0), mul_self_nonneg (p 1), mul_self_nonneg (p 2)]
    have e1 : p 1 = 0 := by nlinarith [mul_self_nonneg (p 0), mul_self_nonneg (p 1), mul_self_nonneg (p 2)]
    have e2 : p 2 = 0 := by nlinarith [mul_self_nonneg (p 0), mul_self_nonneg (p 1), mul_self_nonneg (p 2)]
    fin_cases i
    · exact e0
    · exact e1
    · exact e2

/-- The point of the chord. -/
def chord (a1 a2 : V ℝ) (u : ℝ) : V ℝ := (1 - u) • a1 + u • a2

theorem volume_zero {a b c : V ℝ} {s t : ℝ} (h : s • a + t • b = 0) (hst : s ≠ 0 ∨ t ≠ 0) :
    volume3 c a b = 0 := by
  have g0 := congrFun h 0
  have g1 := congrFun h 1
  have g2 := congrFun h 2
  simp at g0 g1 g2
  unfold volume3
  rcases hst with hs | ht
  · have : s * (c 0 * (a 1 * b 2 - a 2 * b 1) - c 1 * (a 0 * b 2 - a 2 * b 0) + c 2 * (a 0 * b 1 - a 1 * b 0)) = 0 := by
      linear_combination (c 0 * b 2 - c 2 * b 0) * g1 + (c 1 * b 0 - c 0 * b 1) * g2 + (c 2 * b 1 - c 1 * b 2) * g0
    exact (mul_eq_zero.1 this).resolve_left hs
  · have : t * (c 0 * (a 1 * b 2 - a 2 * b 1) - c 1 * (a 0 * b 2 - a 2 * b 0) + c 2 * (a 0 * b 1 - a 1 * b 0)) = 0 := by
      linear_combination (c 0 * a 1 - c 1 * a 0) * g2 + (c 2 * a 0 - c 0 * a 2) * g1 + (c 1 * a 2 - c 2 * a 1) * g0
    exact (mul_eq_zero.1 this).resolve_left ht

/-- C49. A crossing in the interior of both arcs: the point returned is on the unit sphere, on the first arc at the
returned parameter, and on the great circle of the second one. If the four end points lie in one half of space it is
on the second arc. -/
theorem C49_point_partial (eps8 eps10 eps15 eps30 : ℝ) (h15 : 0 < eps15) (a1 a2 q1 q2 q3 : V ℝ) (hit : Hit)
    (h : lineIntersect eps8 eps10 eps15 eps30 a1 a2 q1 q2 q3 = some hit)
    (hua : 0 < hit.ua ∧ hit.ua < 1) (huq : 0 < hit.uq ∧ hit.uq < 1) :
    OnArc a1 a2 hit.point ∧ (∃ s : ℝ, 0 < s ∧ hit.point = s • chord a1 a2 hit.ua) ∧
    volume3 q1 q2 hit.point = 0 ∧ (OneHalf a1 a2 q1 q2 → OnArc q1 q2 hit.point) := by
  unfold lineIntersect at h
  split at h
  · simp only [Option.some.injEq] at h; subst h; exact absurd hua.1 (lt_irrefl _)
  split at h
  · simp only [Option.some.injEq] at h; subst h; exact absurd hua.1 (lt_irrefl _)
  split at h
  · simp only [Option.some.injEq] at h; subst h; exact absurd hua.2 (lt_irrefl _)
  split at h
  · simp only [Option.some.injEq] at h; subst h; exact absurd hua.2 (lt_irrefl _)
  cases ea : intersectTri eps15 q1 q2 0 a1 a2 with
  | none => rw [ea] at h; exact absurd h (by simp)
  | some ra =>
  obtain ⟨ta, xa, ya⟩ := ra
  rw [ea] at h
  dsimp only at h
  split at h
  · exact absurd h (by simp)
  cases eq : intersectTri eps15 a1 a2 0 q1 q2 with
  | none => rw [eq] at h; exact absurd h (by simp)
  | some rq =>
  obtain ⟨tq, xq, yq⟩ := rq
  rw [eq] at h
  dsimp only at h
  split at h
  · exact absurd h (by simp)
  split at h
  · exact absurd h (by simp)
  simp only [Option.some.injEq] at h
  subst h
  dsimp only at hua huq ⊢
  have hta := snap_mid hua.1 hua.2
  have htq := snap_mid huq.1 huq.2
  rw [hta] at hua ⊢
  rw [htq] at huq
  obtain ⟨sa, -⟩ := C34_line_plane eps15 h15 q1 q2 0 a1 a2
  obtain ⟨sq, nq⟩ := C34_line_plane eps15 h15 a1 a2 0 q1 q2
  have pa := (sa ta xa ya ea ta xa ya).2 ⟨rfl, rfl, rfl⟩
  have pq := (sq tq xq yq eq tq xq yq).2 ⟨rfl, rfl, rfl⟩
  have hvol : volume3 (q1 - q2) (a2 - a1) (0 - a1) ≠ 0 := by
    intro e
    have : intersectTri eps15 a1 a2 0 q1 q2 = none := nq.2 (by rw [e, abs_zero]; exact h15)
    rw [this] at eq; exact absurd eq (by simp)
  have hP : (![a1 0 + ta * (a2 0 - a1 0), a1 1 + ta * (a2 1 - a1 1), a1 2 + ta * (a2 2 - a1 2)] : V ℝ) =
      chord a1 a2 ta := by
    funext i; fin_cases i <;> simp [chord] <;> ring
  have hPa : chord a1 a2 ta = (1 - xa - ya) • q1 + xa • q2 := by
    have g := fun i => congrFun pa i
    simp at g
    funext i
    simp [chord]
    linear_combination g i
  have hQa : chord q1 q2 tq = (1 - xq - yq) • a1 + xq • a2 := by
    have g := fun i => congrFun pq i
    simp at g
    funext i
    simp [chord]
    linear_combination g i
  set P := chord a1 a2 ta with hPdef
  have hP0 : P ≠ 0 := by
    intro e
    apply hvol
    have e' : (1 - ta) • a1 + ta • a2 = 0 := e
    have := volume_zero (c := q1 - q2) e' (by
      by_contra hc
      push Not at hc
      have := hc.1; have := hc.2; linarith)
    have e2 : volume3 (q1 - q2) (a2 - a1) (0 - a1) = volume3 (q1 - q2) a1 a2 := by
      simp [volume3]; ring
    rw [e2]; exact this
  have hn := metric_pos hP0
  have hpt : ∀ (W : V ℝ), W = P → (![W 0 / metric W, W 1 / metric W, W 2 / metric W] : V ℝ) = (1 / metric P) • P := by
    intro W hW
    rw [hW]
    funext i; fin_cases i <;> simp <;> ring
  have hpoint := hpt _ hP
  simp only [Matrix.cons_val_zero, Matrix.cons_val_one, Matrix.cons_val] at hpoint ⊢
  rw [hpoint]
  have hs : 0 < 1 / metric P := by positivity
  have sph : OnSphere ((1 / metric P) • P) := by
    unfold OnSphere
    have := metric_sq P
    have e : inner3 ((1 / metric P) • P) ((1 / metric P) • P) = (1 / metric P) * (1 / metric P) * inner3 P P := by
      simp [inner3]; ring
    rw [e, ← this]
    field_simp
  refine ⟨⟨sph, (1 / metric P) * (1 - ta), (1 / metric P) * ta, by nlinarith, by nlinarith, ?_⟩, ⟨1 / metric P, hs, rfl⟩, ?_, ?_⟩
  · rw [mul_smul, mul_smul, ← smul_add]; rfl
  · rw [hPa]; simp [volume3]; ring
  · rintro ⟨n, na1, na2, nq1, nq2⟩
    -- a point of the line through `a1`, `a2` in the plane of `q1`, `q2` has the parameter `ta`
    have uniq : ∀ t c1 c2 : ℝ, chord a1 a2 t = c1 • q1 + c2 • q2 → t = ta := by
      intro t c1 c2 e
      refine ((sa ta xa ya ea t c2 (1 - c1 - c2)).1 ?_).1
      have g := fun i => congrFun e i
      simp [chord] at g
      funext i
      simp
      linear_combination g i
    have nP : 0 < inner3 n P := by
      have : inner3 n P = (1 - ta) * inner3 n a1 + ta * inner3 n a2 := by
        rw [hPdef]; simp [inner3, chord]; ring
      rw [this]; nlinarith
    have nQ : 0 < inner3 n (chord q1 q2 tq) := by
      have : inner3 n (chord q1 q2 tq) = (1 - tq) * inner3 n q1 + tq * inner3 n q2 := by
        simp [inner3, chord]; ring
      rw [this]; nlinarith
    have hsum : (1 - xq - yq) + xq ≠ 0 := by
      intro e0
      have e1 : 1 - xq - yq = -xq := by linarith
      rw [e1] at hQa
      have := uniq (ta + xq) (1 - xa - ya + (1 - tq)) (xa + tq) (by
        have g1 := fun i => congrFun hPa i
        have g2 := fun i => congrFun hQa i
        rw [hPdef] at g1
        simp [chord] at g1 g2
        funext i
        simp [chord]
        linear_combination g1 i - g2 i)
      have hx : xq = 0 := by linarith
      rw [hQa, hx] at nQ
      simp [inner3] at nQ
    set σ := (1 - xq - yq) + xq with hσ
    have hQP : chord q1 q2 tq = σ • P := by
      have := uniq (xq / σ) ((1 - tq) / σ) (tq / σ) (by
        have g2 := fun i => congrFun hQa i
        simp [chord] at g2
        funext i
        simp [chord]
        field_simp
        rw [hσ]
        linear_combination -g2 i)
      rw [hQa, hPdef, ← this]
      funext i
      simp [chord]
      field_simp
      rw [hσ]
      ring
    have hσ0 : 0 < σ := by
      rw [hQP] at nQ
      have : inner3 n (σ • P) = σ * inner3 n P := by simp [inner3]; ring
      rw [this] at nQ
      exact (pos_iff_pos_of_mul_pos nQ).2 nP
    have hPq : P = (1 / σ) • chord q1 q2 tq := by
      rw [hQP, smul_smul, one_div, inv_mul_cancel₀ hσ0.ne', one_smul]
    have h0 : 0 < 1 / metric P * (1 / σ) := by positivity
    refine ⟨sph, 1 / metric P * (1 / σ) * (1 - tq), 1 / metric P * (1 / σ) * tq, ?_, ?_, ?_⟩
    · exact mul_nonneg h0.le (by linarith)
    · exact mul_nonneg h0.le (by linarith)
    · generalize metric P = m
      rw [hPq]
      funext i
      simp [chord]
      ring

theorem lineIntersect_some (eps8 eps10 eps15 eps30 : ℝ) (h15 : 0 < eps15) (a1 a2 q1 q2 q3 : V ℝ)
    (h1 : ∃ i, eps10 < |a1 i - q1 i|) (h2 : ∃ i, eps10 < |a1 i - q2 i|) (h3 : ∃ i, eps10 < |a2 i - q1 i|)
    (h4 : ∃ i, eps10 < |a2 i - q2 i|) (hv1 : eps15 ≤ |volume3 (a1 - a2) q1 q2|)
    (hv2 : eps15 ≤ |volume3 (q1 - q2) a1 a2|) (hc : eps30 ≤ metric (cross (cross a1 a2) (cross q1 q2)))
    (s t s' t' : ℝ) (hst : s + t ≠ 0) (hst' : s' + t' ≠ 0) (ra : 0 ≤ t / (s + t) ∧ t / (s + t) ≤ 1)
    (rq : 0 ≤ t' / (s' + t') ∧ t' / (s' + t') ≤ 1)
    (hcommon : s • a1 + t • a2 = s' • q1 + t' • q2) :
    ∃ hit, lineIntersect eps8 eps10 eps15 eps30 a1 a2 q1 q2 q3 = some hit ∧
      hit.ua = snap eps8 (t / (s + t)) ∧ hit.uq = snap eps8 (t' / (s' + t')) ∧
      hit.inbound = inboundOf a1 a2 q1 q2 q3 hit.uq := by
  have solve : ∀ (a1 a2 q1 q2 : V ℝ) (s t s' t' : ℝ), s + t ≠ 0 → s • a1 + t • a2 = s' • q1 + t' • q2 →
      eps15 ≤ |volume3 (a1 - a2) q1 q2| → ∃ x y, intersectTri eps15 q1 q2 0 a1 a2 = some (t / (s + t), x, y) := by
    intro a1 a2 q1 q2 s t s' t' hst e hv
    obtain ⟨k1, k2⟩ := C34_line_plane eps15 h15 q1 q2 0 a1 a2
    cases r : intersectTri eps15 q1 q2 0 a1 a2 with
    | none =>
      have := k2.1 r
      have e2 : volume3 (a1 - a2) (q2 - q1) (0 - q1) = volume3 (a1 - a2) q1 q2 := by simp [volume3]; ring
      rw [e2] at this; linarith
    | some r' =>
      obtain ⟨τ, x, y⟩ := r'
      have := (k1 τ x y r (t / (s + t)) (t' / (s + t)) (1 - (s' + t') / (s + t))).1 (by
        have g := fun i => congrFun e i
        simp at g
        funext i
        simp
        field_simp
        linear_combination g i)
      exact ⟨x, y, by rw [this.1]⟩
  obtain ⟨xa, ya, ea⟩ := solve a1 a2 q1 q2 s t s' t' hst hcommon hv1
  obtain ⟨xq, yq, eq⟩ := solve q1 q2 a1 a2 s' t' s t hst' hcommon.symm hv2
  have ra := snap_range (eps := eps8) ra.1 ra.2
  have rq := snap_range (eps := eps8) rq.1 rq.2
  unfold lineIntersect
  rw [samePoint_false h1, samePoint_false h2, samePoint_false h3, samePoint_false h4]
  simp only [ea, eq, Bool.false_eq_true, if_false]
  rw [if_neg (by rintro (h | h) <;> linarith [ra.1, ra.2]), if_neg (by rintro (h | h) <;> linarith [rq.1, rq.2]),
    if_neg (by rw [abs_of_nonneg (metric_nonneg _)]; linarith)]
  exact ⟨_, rfl, rfl, rfl, rfl⟩

/-- C49. Conversely, arcs with a common direction are found, if no two end points coincide to within the tolerance
and the determinants reach the thresholds. -/
theorem C49_found (eps8 eps10 eps15 eps30 : ℝ) (h15 : 0 < eps15) (a1 a2 q1 q2 q3 : V ℝ)
    (h1 : ∃ i, eps10 < |a1 i - q1 i|) (h2 : ∃ i, eps10 < |a1 i - q2 i|) (h3 : ∃ i, eps10 < |a2 i - q1 i|)
    (h4 : ∃ i, eps10 < |a2 i - q2 i|) (hv1 : eps15 ≤ |volume3 (a1 - a2) q1 q2|)
    (hv2 : eps15 ≤ |volume3 (q1 - q2) a1 a2|) (hc : eps30 ≤ metric (cross (cross a1 a2) (cross q1 q2)))
    (p : V ℝ) (hpa : OnArc a1 a2 p) (hpq : OnArc q1 q2 p) :
    ∃ hit, lineIntersect eps8 eps10 eps15 eps30 a1 a2 q1 q2 q3 = some hit := by
  obtain ⟨sph, s, t, hs, ht, e⟩ := hpa
  obtain ⟨-, s', t', hs', ht', e'⟩ := hpq
  have hp0 : p ≠ 0 := by rintro rfl; simp [OnSphere, inner3] at sph
  have pos : ∀ (s t : ℝ) (a b : V ℝ), 0 ≤ s → 0 ≤ t → p = s • a + t • b → 0 < s + t := by
    intro s t a b hs ht e
    rcases hs.lt_or_eq with h | h
    · linarith
    · rcases ht.lt_or_eq with h' | h'
      · linarith
      · exfalso; apply hp0; rw [e, ← h, ← h']; simp
  have k1 := pos s t a1 a2 hs ht e
  have k2 := pos s' t' q1 q2 hs' ht' e'
  obtain ⟨hit, h, -⟩ := lineIntersect_some eps8 eps10 eps15 eps30 h15 a1 a2 q1 q2 q3 h1 h2 h3 h4 hv1 hv2 hc s t s' t'
    k1.ne' k2.ne' ⟨by positivity, by rw [div_le_one k1]; linarith⟩ ⟨by positivity, by rw [div_le_one k2]; linarith⟩
    (by rw [← e, ← e'])
  exact ⟨hit, h⟩

theorem samePoint_iff (eps : ℝ) (p q : V ℝ) : samePoint eps p q = true ↔ ∀ i, |p i - q i| ≤ eps := by
  unfold samePoint
  constructor
  · intro h
    split at h
    · exact absurd h (by simp)
    · rename_i hn
      push Not at hn
      intro i
      fin_cases i
      · exact hn.1
      · exact hn.2.1
      · exact hn.2.2
  · intro h
    rw [if_neg]
    rintro (h' | h' | h')
    · exact absurd (h 0) (not_le.2 h')
    · exact absurd (h 1) (not_le.2 h')
    · exact absurd (h 2) (not_le.2 h')

/-- C49. If an end point of one arc coincides with one of the other to within the tolerance in all coordinates, an end
point of the first arc is reported as the intersection, with the parameters of that end on both arcs. -/
theorem C49_common_end (eps8 eps10 eps15 eps30 : ℝ) (a1 a2 q1 q2 q3 : V ℝ)
    (h : ∃ a q, (a = a1 ∨ a = a2) ∧ (q = q1 ∨ q = q2) ∧ ∀ i, |a i - q i| ≤ eps10) :
    ∃ hit, lineIntersect eps8 eps10 eps15 eps30 a1 a2 q1 q2 q3 = some hit ∧ hit.inbound = 0 ∧
      ((hit.ua = 0 ∧ hit.point = a1) ∨ (hit.ua = 1 ∧ hit.point = a2)) ∧
      ((hit.uq = 0 ∧ ∀ i, |hit.point i - q1 i| ≤ eps10) ∨ (hit.uq = 1 ∧ ∀ i, |hit.point i - q2 i| ≤ eps10)) := by
  unfold lineIntersect
  by_cases h1 : samePoint eps10 a1 q1 = true
  · rw [if_pos h1]
    exact ⟨_, rfl, rfl, Or.inl ⟨rfl, rfl⟩, Or.inl ⟨rfl, (samePoint_iff _ _ _).1 h1⟩⟩
  rw [if_neg h1]
  by_cases h2 : samePoint eps10 a1 q2 = true
  · rw [if_pos h2]
    exact ⟨_, rfl, rfl, Or.inl ⟨rfl, rfl⟩, Or.inr ⟨rfl, (samePoint_iff _ _ _).1 h2⟩⟩
  rw [if_neg h2]
  by_cases h3 : samePoint eps10 a2 q1 = true
  · rw [if_pos h3]
    exact ⟨_, rfl, rfl, Or.inr ⟨rfl, rfl⟩, Or.inl ⟨rfl, (samePoint_iff _ _ _).1 h3⟩⟩
  rw [if_neg h3]
  by_cases h4 : samePoint eps10 a2 q2 = true
  · rw [if_pos h4]
    exact ⟨_, rfl, rfl, Or.inr ⟨rfl, rfl⟩, Or.inr ⟨rfl, (samePoint_iff _ _ _).1 h4⟩⟩
  exfalso
  obtain ⟨a, q, ha, hq, hc⟩ := h
  have hc := (samePoint_iff _ _ _).2 hc
  rcases ha with rfl | rfl <;> rcases hq with rfl | rfl
  · exact h1 hc
  · exact h2 hc
  · exact h3 hc
  · exact h4 hc

theorem snap_far {eps u : ℝ} (h0 : eps ≤ |u|) (h1 : eps ≤ |u - 1|) : snap eps u = u := by
  unfold snap
  simp only [if_neg (not_lt.2 h0), if_neg (not_lt.2 h1)]

theorem le_metric {p : V ℝ} {d : ℝ} (i : Fin 3) (h : d ≤ |p i|) : d ≤ metric p := by
  refine le_trans h ?_
  unfold metric
  apply Real.le_sqrt_of_sq_le
  rw [sq_abs]
  fin_cases i <;> simp <;> nlinarith [mul_self_nonneg (p 0), mul_self_nonneg (p 1), mul_self_nonneg (p 2)]

theorem third (a b c : ℝ) : (![a, b, c] : V ℝ) 2 = c := rfl

/-- C49. Without the condition on the half space the claim is false: two arcs on opposite sides of the sphere, with no
point in common, are reported to cross, with the thresholds of the source. -/
theorem C49_antipodal_wrong : ∃ a1 a2 q1 q2 : V ℝ, OnSphere a1 ∧ OnSphere a2 ∧ OnSphere q1 ∧ OnSphere q2 ∧
    (∀ q3, ∃ hit, lineIntersect (1 / 10 ^ 8) (1 / 10 ^ 10) (1 / 10 ^ 15) (1 / 10 ^ 30) a1 a2 q1 q2 q3 = some hit ∧
      hit.ua = 1 / 2 ∧ hit.uq = 1 / 2) ∧
    ¬∃ p, OnArc a1 a2 p ∧ OnArc q1 q2 p := by
  refine ⟨![3 / 5, 0, 4 / 5], ![3 / 5, 0, -(4 / 5)], ![-(3 / 5), 4 / 5, 0], ![-(3 / 5), -(4 / 5), 0], ?_, ?_, ?_, ?_,
    ?_, ?_⟩
  · norm_num [OnSphere, inner3, third]
  · norm_num [OnSphere, inner3, third]
  · norm_num [OnSphere, inner3, third]
  · norm_num [OnSphere, inner3, third]
  · intro q3
    obtain ⟨hit, h, h1, h2, -⟩ := lineIntersect_some (1 / 10 ^ 8) (1 / 10 ^ 10) (1 / 10 ^ 15) (1 / 10 ^ 30) (by norm_num)
      ![3 / 5, 0, 4 / 5] ![3 / 5, 0, -(4 / 5)] ![-(3 / 5), 4 / 5, 0] ![-(3 / 5), -(4 / 5), 0] q3
      ⟨0, by norm_num⟩ ⟨0, by norm_num⟩ ⟨0, by norm_num⟩ ⟨0, by norm_num⟩ (by norm_num [volume3, third])
      (by norm_num [volume3, third]) (le_metric 0 (by norm_num [cross, third])) 1 1 (-1) (-1)
      (by norm_num) (by norm_num) (by norm_num) (by norm_num)
      (by funext i; fin_cases i <;> norm_num)
    refine ⟨hit, h, ?_, ?_⟩
    · rw [h1, snap_far] <;> norm_num
    · rw [h2, snap_far] <;> norm_num
  · rintro ⟨p, ⟨sph, s, t, hs, ht, e⟩, -, s', t', hs', ht', e'⟩
    have g0 := congrFun e 0
    have g0' := congrFun e' 0
    simp at g0 g0'
    have hs0 : s = 0 := by linarith
    have ht0 : t = 0 := by linarith
    rw [e, hs0, ht0] at sph
    simp [OnSphere, inner3] at sph

/-- C49. The direction of the crossing is decided with chords instead of great circles and can be wrong: here the
first arc goes from outside to the side of `q3`, in one half of space, and `inbound` is 1 (outward). -/
theorem C49_inbound_wrong : ∃ a1 a2 q1 q2 q3 : V ℝ, OnSphere a1 ∧ OnSphere a2 ∧ OnSphere q1 ∧ OnSphere q2 ∧
    OnSphere q3 ∧ OneHalf a1 a2 q1 q2 ∧
    volume3 q1 q2 a1 < 0 ∧ 0 < volume3 q1 q2 a2 ∧ 0 < volume3 q1 q2 q3 ∧
    ∃ hit, lineIntersect (1 / 10 ^ 8) (1 / 10 ^ 10) (1 / 10 ^ 15) (1 / 10 ^ 30) a1 a2 q1 q2 q3 = some hit ∧
      0 < hit.ua ∧ hit.ua < 1 ∧ 0 < hit.uq ∧ hit.uq < 1 ∧ hit.inbound = 1 := by
  refine ⟨![100 / 141, 80 / 141, 59 / 141], ![8 / 21, 16 / 21, 11 / 21], ![200 / 489, 320 / 489, 311 / 489],
    ![180 / 361, 300 / 361, 89 / 361], ![0, 0, 1], ?_, ?_, ?_, ?_, ?_, ⟨![0, 0, 1], ?_, ?_, ?_, ?_⟩, ?_, ?_, ?_, ?_⟩
  · norm_num [OnSphere, inner3, third]
  · norm_num [OnSphere, inner3, third]
  · norm_num [OnSphere, inner3, third]
  · norm_num [OnSphere, inner3, third]
  · norm_num [OnSphere, inner3, third]
  · norm_num [inner3, third]
  · norm_num [inner3, third]
  · norm_num [inner3, third]
  · norm_num [inner3, third]
  · norm_num [volume3, third]
  · norm_num [volume3, third]
  · norm_num [volume3, third]
  obtain ⟨hit, h, h1, h2, h3⟩ := lineIntersect_some (1 / 10 ^ 8) (1 / 10 ^ 10) (1 / 10 ^ 15) (1 / 10 ^ 30)
    (by norm_num) ![100 / 141, 80 / 141, 59 / 141] ![8 / 21, 16 / 21, 11 / 21] ![200 / 489, 320 / 489, 311 / 489]
    ![180 / 361, 300 / 361, 89 / 361] ![0, 0, 1]
    ⟨0, by norm_num⟩ ⟨0, by norm_num⟩ ⟨0, by norm_num⟩ ⟨0, by norm_num⟩ (by norm_num [volume3, third])
    (by norm_num [volume3, third]) (le_metric 0 (by norm_num [cross, third])) 3948 16275 13203 7220
    (by norm_num) (by norm_num) (by norm_num) (by norm_num)
    (by funext i; fin_cases i <;> norm_num)
  have e1 : hit.ua = 16275 / (3948 + 16275) := by rw [h1, snap_far] <;> norm_num
  have e2 : hit.uq = 7220 / (13203 + 7220) := by rw [h2, snap_far] <;> norm_num
  refine ⟨hit, h, by rw [e1]; norm_num, by rw [e1]; norm_num, by rw [e2]; norm_num, by rw [e2]; norm_num, ?_⟩
  rw [h3, e2]
  norm_num [inboundOf, dot, cross, third]

/-- Two arcs through (1, 0, 0) that meet the hypotheses of `C49_point_partial` and `C49_found`. -/
example : OneHalf ![3 / 5, 0, 4 / 5] ![3 / 5, 0, -(4 / 5)] ![3 / 5, 4 / 5, 0] ![3 / 5, -(4 / 5), 0] ∧
    ∃ hit, lineIntersect (1 / 10 ^ 8) (1 / 10 ^ 10) (1 / 10 ^ 15) (1 / 10 ^ 30) ![3 / 5, 0, 4 / 5] ![3 / 5, 0, -(4 / 5)]
      ![3 / 5, 4 / 5, 0] ![3 / 5, -(4 / 5), 0] ![0, 0, 1] = some hit ∧ hit.ua = 1 / 2 ∧ hit.uq = 1 / 2 := by
  refine ⟨⟨![1, 0, 0], by norm_num [inner3, third], by norm_num [inner3, third], by norm_num [inner3, third],
    by norm_num [inner3, third]⟩, ?_⟩
  obtain ⟨hit, h, h1, h2, -⟩ := lineIntersect_some (1 / 10 ^ 8) (1 / 10 ^ 10) (1 / 10 ^ 15) (1 / 10 ^ 30) (by norm_num)
    ![3 / 5, 0, 4 / 5] ![3 / 5, 0, -(4 / 5)] ![3 / 5, 4 / 5, 0] ![3 / 5, -(4 / 5), 0] ![0, 0, 1]
    ⟨1, by norm_num⟩ ⟨1, by norm_num⟩ ⟨1, by norm_num⟩ ⟨1, by norm_num⟩ (by norm_num [volume3, third])
    (by norm_num [volume3, third]) (le_metric 0 (by norm_num [cross, third])) 1 1 1 1
    (by norm_num) (by norm_num) (by norm_num) (by norm_num)
    (by funext i; fin_cases i <;> norm_num)
  refine ⟨hit, h, ?_, ?_⟩
  · rw [h1, snap_far] <;> norm_num
  · rw [h2, snap_far] <;> norm_num

end Verif.Vec3
