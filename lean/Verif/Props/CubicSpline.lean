import Verif.Lemmas.CubicSpline
import Verif.Props.Spline
/-
C26: `cubic_spline` computes the cubic spline with natural or given end slopes.
-/
namespace Verif
open Interp Spec

variable {K : Type} [Field K] [LinearOrder K] [IsStrictOrderedRing K]

theorem csPieces_eval (n m : Nat) (x y g : Nat → K) (yp1 ypn : Option K) (h3 : 3 ≤ n) (hx : Increasing x n)
    (hg : InRange x n g m) :
    ∃ r, cubicSpline n x y yp1 ypn m g = .ok r ∧
      IsPiecewise x n (csPiece x y (csY2 n x y yp1 ypn)) g m r := by
  unfold cubicSpline
  rw [(increasing_iff x n).2 hx, (outside_iff x n g m).2 hg]
  simp only [Bool.false_eq_true, if_false]
  rw [if_neg (by omega), if_neg (by omega)]
  exact eval_all hx (by omega) _
    (fun j hj => ⟨csPiece_left j (ne_of_gt (step_pos hx j hj)), csPiece_right j (ne_of_gt (step_pos hx j hj))⟩)
    (csEval n x y yp1 ypn) (fun v => rfl) g m hg

/-- C26. For increasing nodes (three or more) and targets in their range, the routine gives the values of
a cubic spline through the data; `none` asks for a natural end, `some s` for slope `s`. -/
theorem C26_spline (n : Nat) (x y : Nat → K) (yp1 ypn : Option K) (h3 : 3 ≤ n) (hx : Increasing x n) :
    ∃ p, IsCubicSpline x y n yp1 ypn p ∧ ∀ (m : Nat) (g : Nat → K), InRange x n g m →
      ∃ r, cubicSpline n x y yp1 ypn m g = .ok r ∧ IsPiecewise x n p g m r := by
  have h6 : (6 : K) ≠ 0 := by norm_num
  have hne : ∀ j, j + 1 < n → x (j + 1) - x j ≠ 0 := fun j hj => ne_of_gt (step_pos hx j hj)
  refine ⟨csPiece x y (csY2 n x y yp1 ypn), ⟨?_, ?_, ?_, ?_⟩,
    fun m g hg => csPieces_eval n m x y g yp1 ypn h3 hx hg⟩
  · intro j hj
    refine ⟨?_, csPiece_left j (hne j hj), csPiece_right j (hne j hj)⟩
    generalize csY2 n x y yp1 ypn = M
    let A := y j
    let B := (y (j + 1) - y j) / (x (j + 1) - x j) - (x (j + 1) - x j) * (2 * M j + M (j + 1)) / 6
    let C := M j * 3 / 6
    let D := (M (j + 1) - M j) / (6 * (x (j + 1) - x j))
    refine ⟨A - B * x j + C * x j ^ 2 - D * x j ^ 3, B - 2 * C * x j + 3 * D * x j ^ 2, C - 3 * D * x j, D, ?_⟩
    intro v
    rw [csPiece_expand_left j (hne j hj) h6]
    show A + B * (v - x j) + C * (v - x j) ^ 2 + D * (v - x j) ^ 3 = _
    ring
  · intro j hj
    have e := csY2_inner (y := y) hx yp1 ypn j hj
    generalize csY2 n x y yp1 ypn = M at *
    refine ⟨(M (j + 2) - M (j + 1)) / (6 * (x (j + 2) - x (j + 1))) -
      (M (j + 1) - M j) / (6 * (x (j + 1) - x j)), ?_⟩
    intro v
    rw [csPiece_expand_left (j + 1) (hne (j + 1) hj) h6, csPiece_expand_right j (hne j (by omega)) h6]
    have e2 : j + 1 + 1 = j + 2 := rfl
    rw [e2]
    have es : (y (j + 2) - y (j + 1)) / (x (j + 2) - x (j + 1)) -
        (x (j + 2) - x (j + 1)) * (2 * M (j + 1) + M (j + 2)) / 6 =
        (y (j + 1) - y j) / (x (j + 1) - x j) + (x (j + 1) - x j) * (M j + 2 * M (j + 1)) / 6 := by
      linear_combination (-1 / 6) * e
    rw [es]
    ring
  · have e := csY2_step (n := n) (x := x) (y := y) yp1 ypn 0 (by omega)
    constructor
    · rintro rfl
      have e0 : csY2 n x y none ypn 0 = 0 := by rw [e]; simp [csForward]
      refine ⟨y 0, (y 1 - y 0) / (x 1 - x 0) - (x 1 - x 0) * (csY2 n x y none ypn 1) / 6,
        csY2 n x y none ypn 1 / (6 * (x 1 - x 0)), fun v => ?_⟩
      · rw [csPiece_expand_left 0 (hne 0 (by omega)) h6, e0]
        ring
    · rintro s rfl
      simp only [csForward] at e
      have h0 := hne 0 (by omega)
      have z : 0 + 1 = 1 := rfl
      rw [z] at e h0
      refine ⟨y 0, csY2 n x y (some s) ypn 0 * 3 / 6,
        (csY2 n x y (some s) ypn 1 - csY2 n x y (some s) ypn 0) / (6 * (x 1 - x 0)), fun v => ?_⟩
      rw [csPiece_expand_left 0 h0 h6]
      have es : (y 1 - y 0) / (x 1 - x 0) -
          (x 1 - x 0) * (2 * csY2 n x y (some s) ypn 0 + csY2 n x y (some s) ypn 1) / 6 = s := by
        rw [e]
        generalize csY2 n x y (some s) ypn 1 = M
        field_simp
        ring
      rw [z, es]
  · have el := csY2_last (n := n) (x := x) (y := y) yp1 ypn
    have e := csY2_step (n := n) (x := x) (y := y) yp1 ypn (n - 2) (by omega)
    have z : n - 2 + 1 = n - 1 := by omega
    have h0 := hne (n - 2) (by omega)
    constructor
    · rintro rfl
      have e0 : csY2 n x y yp1 none (n - 2 + 1) = 0 := by
        rw [z, el]; simp [csLast, csEnd]
      refine ⟨y (n - 1), (y (n - 1) - y (n - 2)) / (x (n - 1) - x (n - 2)) +
          (x (n - 1) - x (n - 2)) * (csY2 n x y yp1 none (n - 2)) / 6,
        - csY2 n x y yp1 none (n - 2) / (6 * (x (n - 1) - x (n - 2))), fun v => ?_⟩
      · rw [csPiece_expand_right (n - 2) h0 h6, e0, z]
        ring
    · rintro s rfl
      have hmem := csForward_mem (y := y) hx yp1 (n - 2) (by omega)
      simp only [csLast, csEnd] at el
      rw [z] at e h0
      have hden : 1 / 2 * (csForward x y yp1 (n - 2)).1 + 1 ≠ 0 := by
        apply ne_of_gt; linarith [hmem.1]
      refine ⟨y (n - 1), csY2 n x y yp1 (some s) (n - 1) * 3 / 6,
        (csY2 n x y yp1 (some s) (n - 1) - csY2 n x y yp1 (some s) (n - 2)) / (6 * (x (n - 1) - x (n - 2))),
        fun v => ?_⟩
      rw [csPiece_expand_right (n - 2) (by rw [z]; exact h0) h6, z]
      have el' := (eq_div_iff hden).1 el
      have es : (y (n - 1) - y (n - 2)) / (x (n - 1) - x (n - 2)) + (x (n - 1) - x (n - 2)) *
          (csY2 n x y yp1 (some s) (n - 2) + 2 * csY2 n x y yp1 (some s) (n - 1)) / 6 = s := by
        have key : csY2 n x y yp1 (some s) (n - 2) + 2 * csY2 n x y yp1 (some s) (n - 1) =
            2 * (3 / (x (n - 1) - x (n - 2)) * (s - (y (n - 1) - y (n - 2)) / (x (n - 1) - x (n - 2)))) := by
          rw [e]
          linear_combination 2 * el'
        rw [key]
        field_simp
        ring
      rw [es]

/-! ### Uniqueness -/

/-- Recursion of slopes and second derivatives of a spline through zeros. -/
theorem zero_spline {n : Nat} {x : Nat → K} (h2 : 2 ≤ n) (hx : Increasing x n) (q : Nat → K → K)
    (hi : ∀ j, j + 1 < n → q j (x j) = 0 ∧ q j (x (j + 1)) = 0) (hj : JoinsC2 x n q)
    (s0 m0 c0 : K) (h0 : ∀ v, q 0 v = s0 * (v - x 0) + m0 * (v - x 0) ^ 2 + c0 * (v - x 0) ^ 3)
    (hs : 0 ≤ s0 * m0)
    (hl : ∀ s m c : K, (∀ v, q (n - 2) v = s * (v - x (n - 1)) + m * (v - x (n - 1)) ^ 2 +
      c * (v - x (n - 1)) ^ 3) → s = 0 ∨ m = 0) : ∀ j, j + 1 < n → ∀ v, q j v = 0 := by
  -- going up
  have up : ∀ j, j + 1 < n → ∃ s m c : K, 0 ≤ s * m ∧
      ∀ v, q j v = s * (v - x j) + m * (v - x j) ^ 2 + c * (v - x j) ^ 3 := by
    intro j
    induction j with
    | zero => intro _; exact ⟨s0, m0, c0, hs, h0⟩
    | succ j ih =>
      intro hj1
      obtain ⟨s, m, c, hsm, hq⟩ := ih (by omega)
      obtain ⟨c', hc'⟩ := hj j (by omega)
      have hp := step_pos hx j (by omega)
      have hz := (hi j (by omega)).2
      rw [hq] at hz
      generalize hH : x (j + 1) - x j = H at *
      have hz' : s + m * H + c * H ^ 2 = 0 := by
        have : H * (s + m * H + c * H ^ 2) = 0 := by linear_combination hz
        rcases mul_eq_zero.1 this with h | h
        · exact absurd h (ne_of_gt hp)
        · exact h
      refine ⟨-2 * s - m * H, m + 3 * c * H, c + c', ?_, ?_⟩
      · have e : m + 3 * c * H = -2 * m - 3 * s / H := by
          field_simp
          linear_combination 3 * hz'
        rw [e]
        have e2 : (-2 * s - m * H) * (-2 * m - 3 * s / H) = 7 * (s * m) + 6 * s ^ 2 / H + 2 * m ^ 2 * H := by
          field_simp
          ring
        rw [e2]
        positivity
      · intro v
        have := hc' v
        have e : q (j + 1) v = q j v + c' * (v - x (j + 1)) ^ 3 := by linear_combination this
        rw [e, hq]
        have ev : v - x j = (v - x (j + 1)) + H := by rw [← hH]; ring
        rw [ev]
        linear_combination (H + 3 * (v - x (j + 1))) * hz'
  -- expansion about the right node
  have right : ∀ j, j + 1 < n → ∀ s m c : K,
      (∀ v, q j v = s * (v - x j) + m * (v - x j) ^ 2 + c * (v - x j) ^ 3) →
      s + m * (x (j + 1) - x j) + c * (x (j + 1) - x j) ^ 2 = 0 ∧
      ∀ v, q j v = (-2 * s - m * (x (j + 1) - x j)) * (v - x (j + 1)) +
        (m + 3 * c * (x (j + 1) - x j)) * (v - x (j + 1)) ^ 2 + c * (v - x (j + 1)) ^ 3 := by
    intro j hj1 s m c hq
    have hp := step_pos hx j hj1
    have hz := (hi j hj1).2
    rw [hq] at hz
    generalize hH : x (j + 1) - x j = H at *
    have hz' : s + m * H + c * H ^ 2 = 0 := by
      have : H * (s + m * H + c * H ^ 2) = 0 := by linear_combination hz
      rcases mul_eq_zero.1 this with h | h
      · exact absurd h (ne_of_gt hp)
      · exact h
    refine ⟨hz', ?_⟩
    intro v
    rw [hq]
    have ev : v - x j = (v - x (j + 1)) + H := by rw [← hH]; ring
    rw [ev]
    linear_combination (H + 3 * (v - x (j + 1))) * hz'
  -- the last piece vanishes
  have last : ∀ v, q (n - 2) v = 0 := by
    obtain ⟨s, m, c, hsm, hq⟩ := up (n - 2) (by omega)
    obtain ⟨hz, hr⟩ := right (n - 2) (by omega) s m c hq
    have hp := step_pos hx (n - 2) (by omega)
    have e1 : n - 2 + 1 = n - 1 := by omega
    rw [e1] at hz hr hp
    generalize x (n - 1) - x (n - 2) = H at *
    have hzero : s = 0 ∧ m = 0 := by
      have hm' : m + 3 * c * H = -2 * m - 3 * s / H := by
        field_simp
        linear_combination 3 * hz
      rcases hl _ _ _ hr with h | h
      · -- -2s - mH = 0
        have : 2 * s ^ 2 + (s * m) * H = 0 := by linear_combination (-s) * h
        have hs2 : s = 0 := by
          by_contra hne
          have : 0 < s ^ 2 := by positivity
          have := mul_nonneg hsm (le_of_lt hp)
          linarith
        refine ⟨hs2, ?_⟩
        rw [hs2] at h
        have : m * H = 0 := by linear_combination -h
        rcases mul_eq_zero.1 this with h | h
        · exact h
        · exact absurd h (ne_of_gt hp)
      · rw [hm'] at h
        have h' : 2 * m * H + 3 * s = 0 := by
          field_simp at h
          linear_combination -h
        have : 3 * s ^ 2 + 2 * (s * m) * H = 0 := by linear_combination s * h'
        have hs2 : s = 0 := by
          by_contra hne
          have : 0 < s ^ 2 := by positivity
          have := mul_nonneg hsm (le_of_lt hp)
          linarith
        refine ⟨hs2, ?_⟩
        rw [hs2] at h'
        have : m * H = 0 := by linear_combination h' / 2
        rcases mul_eq_zero.1 this with h | h
        · exact h
        · exact absurd h (ne_of_gt hp)
    obtain ⟨rfl, rfl⟩ := hzero
    have hc : c = 0 := by
      have : c * H ^ 2 = 0 := by linear_combination hz
      rcases mul_eq_zero.1 this with h | h
      · exact h
      · exact absurd h (by positivity)
    intro v
    rw [hq, hc]; ring
  -- going down
  have down : ∀ i, i + 2 ≤ n → ∀ v, q (n - 2 - i) v = 0 := by
    intro i
    induction i with
    | zero => intro _; exact last
    | succ i ih =>
      intro hi1
      obtain ⟨j, hjd⟩ : ∃ j, j = n - 2 - (i + 1) := ⟨_, rfl⟩
      have e1 : n - 2 - i = j + 1 := by omega
      rw [← hjd]
      have hz := ih (by omega)
      rw [e1] at hz
      obtain ⟨c', hc'⟩ := hj j (by omega)
      have hq : ∀ v, q j v = -c' * (v - x (j + 1)) ^ 3 := by
        intro v
        have := hc' v
        rw [hz v] at this
        linear_combination -this
      have hp := step_pos hx j (by omega)
      have h00 := (hi j (by omega)).1
      rw [hq] at h00
      have hc0 : c' = 0 := by
        have : c' * (x (j + 1) - x j) ^ 3 = 0 := by linear_combination h00
        rcases mul_eq_zero.1 this with h | h
        · exact h
        · exact absurd h (by positivity)
      intro v
      rw [hq, hc0]; ring
  intro j hj1
  have e1 : n - 2 - (n - 2 - j) = j := by omega
  have := down (n - 2 - j) (by omega)
  rwa [e1] at this

omit [LinearOrder K] [IsStrictOrderedRing K] in
theorem cubic_expand {p : K → K} (hp : IsCubic p) (x0 : K) :
    ∃ s m c, ∀ v, p v = p x0 + s * (v - x0) + m * (v - x0) ^ 2 + c * (v - x0) ^ 3 := by
  obtain ⟨a, b, c, d, h⟩ := hp
  refine ⟨b + 2 * c * x0 + 3 * d * x0 ^ 2, c + 3 * d * x0, d, ?_⟩
  intro v
  rw [h, h x0]; ring

/-- End condition of a difference. -/
theorem endCond_diff {o : Option K} {p p' : K → K} {x0 s m c : K} (h : EndCond o p x0)
    (h' : EndCond o p' x0)
    (hd : ∀ v, p v - p' v = s * (v - x0) + m * (v - x0) ^ 2 + c * (v - x0) ^ 3) : s = 0 ∨ m = 0 := by
  cases o with
  | none =>
    right
    obtain ⟨a, b, e, h1⟩ := h.1 rfl
    obtain ⟨a', b', e', h2⟩ := h'.1 rfl
    have k0 := hd x0
    have k1 := hd (x0 + 1)
    have k2 := hd (x0 - 1)
    rw [h1, h2] at k0 k1 k2
    linear_combination k0 - (k1 + k2) / 2
  | some t =>
    left
    obtain ⟨a, b, e, h1⟩ := h.2 t rfl
    obtain ⟨a', b', e', h2⟩ := h'.2 t rfl
    have k1 := hd (x0 + 1)
    have k2 := hd (x0 - 1)
    have k3 := hd (x0 + 2)
    have k4 := hd (x0 - 2)
    rw [h1, h2] at k1 k2 k3 k4
    linear_combination (-2 / 3) * (k1 - k2) + (1 / 12) * (k3 - k4)

/-- C26. There is only one such spline: with the same data and end conditions the pieces are the same. So
`C26_spline` determines the result. -/
theorem C26_unique (n : Nat) (x y : Nat → K) (first last : Option K) (p p' : Nat → K → K) (h2 : 2 ≤ n)
    (hx : Increasing x n) (hp : IsCubicSpline x y n first last p) (hp' : IsCubicSpline x y n first last p') :
    ∀ j, j + 1 < n → ∀ v, p j v = p' j v := by
  obtain ⟨i1, c1, f1, l1⟩ := hp
  obtain ⟨i2, c2, f2, l2⟩ := hp'
  obtain ⟨s, m, c, h⟩ := cubic_expand (i1 0 (by omega)).1 (x 0)
  obtain ⟨s', m', c', h'⟩ := cubic_expand (i2 0 (by omega)).1 (x 0)
  have hd : ∀ v, p 0 v - p' 0 v = (s - s') * (v - x 0) + (m - m') * (v - x 0) ^ 2 +
      (c - c') * (v - x 0) ^ 3 := by
    intro v
    rw [h, h', (i1 0 (by omega)).2.1, (i2 0 (by omega)).2.1]; ring
  have hz := zero_spline h2 hx (fun j v => p j v - p' j v)
    (fun j hj => ⟨by
      show p j (x j) - p' j (x j) = 0
      rw [(i1 j hj).2.1, (i2 j hj).2.1]; ring, by
      show p j (x (j + 1)) - p' j (x (j + 1)) = 0
      rw [(i1 j hj).2.2, (i2 j hj).2.2]; ring⟩)
    (by
      intro j hj
      obtain ⟨d, hd⟩ := c1 j hj
      obtain ⟨d', hd'⟩ := c2 j hj
      refine ⟨d - d', fun v => ?_⟩
      linear_combination hd v - hd' v)
    (s - s') (m - m') (c - c') hd
    (by rcases endCond_diff f1 f2 hd with h | h <;> rw [h] <;> simp)
    (fun s m c hq => endCond_diff l1 l2 hq)
  intro j hj v
  have := hz j hj v
  linear_combination this

/-! ### Consequences -/

/-- C26. Node values are reproduced. -/
theorem C26_nodes (n m : Nat) (x y g : Nat → K) (yp1 ypn : Option K) (h3 : 3 ≤ n) (hx : Increasing x n)
    (hg : InRange x n g m) :
    ∃ r, cubicSpline n x y yp1 ypn m g = .ok r ∧ r.length = m ∧
      ∀ k j, k < m → j < n → g k = x j → r[k]? = some (y j) := by
  obtain ⟨p, ⟨hp, _⟩, h⟩ := C26_spline n x y yp1 ypn h3 hx
  obtain ⟨r, hr, hl, hv⟩ := h m g hg
  refine ⟨r, hr, hl, ?_⟩
  intro k j hk hj he
  obtain ⟨z, hz, hz'⟩ := hv k hk
  rw [hz]
  congr 1
  rcases Nat.lt_or_ge (j + 1) n with h | h
  · rw [hz' j h (by rw [he]) (by rw [he]; exact le_of_lt (hx j (j + 1) (by omega) h)), he]
    exact (hp j h).2.1
  · obtain ⟨i, rfl⟩ : ∃ i, j = i + 1 := ⟨j - 1, by omega⟩
    rw [hz' i hj (by rw [he]; exact le_of_lt (hx i (i + 1) (by omega) hj)) (by rw [he]), he]
    exact (hp i hj).2.2

/-- C26. Affine data are reproduced with natural ends, or with the right slope at the ends. -/
theorem C26_affine (n m : Nat) (x y g : Nat → K) (yp1 ypn : Option K) (a b : K) (h3 : 3 ≤ n)
    (hx : Increasing x n) (hg : InRange x n g m) (hy : ∀ k, k < n → y k = a * x k + b)
    (h1 : yp1 = none ∨ yp1 = some a) (hn : ypn = none ∨ ypn = some a) :
    cubicSpline n x y yp1 ypn m g = .ok ((List.range m).map fun k => a * g k + b) := by
  obtain ⟨p, hp, h⟩ := C26_spline n x y yp1 ypn h3 hx
  have haff : IsCubicSpline x y n yp1 ypn (fun _ v => a * v + b) := by
    have hend : ∀ (o : Option K) (x0 : K), (o = none ∨ o = some a) → EndCond o (fun v => a * v + b) x0 := by
      intro o x0 ho
      constructor
      · intro _
        exact ⟨a * x0 + b, a, 0, fun v => by ring⟩
      · intro s hs
        rcases ho with rfl | rfl
        · cases hs
        · cases hs
          exact ⟨a * x0 + b, 0, 0, fun v => by ring⟩
    refine ⟨?_, ?_, hend _ _ h1, hend _ _ hn⟩
    · intro j hj
      exact ⟨⟨b, a, 0, 0, fun v => by ring⟩, (hy j (by omega)).symm, (hy (j + 1) hj).symm⟩
    · intro j hj
      exact ⟨0, fun v => by ring⟩
  obtain ⟨r, hr, hl, hv⟩ := h m g hg
  rw [hr]
  congr 1
  apply List.ext_getElem?
  intro k
  by_cases hk : k < m
  · obtain ⟨z, hz, hz'⟩ := hv k hk
    obtain ⟨j, j1, j2, j3⟩ := exists_interval (by omega) hx (hg k hk).1 (hg k hk).2
    rw [hz, hz' j j1 j2 j3, C26_unique n x y yp1 ypn p _ (by omega) hx hp haff j j1]
    simp [hk]
  · rw [List.getElem?_eq_none (by omega), List.getElem?_eq_none (by simp; omega)]

/-- With two nodes the result is the straight line, whatever the end conditions. -/
theorem C26_two_nodes (m : Nat) (x y g : Nat → K) (yp1 ypn : Option K) (hx : Increasing x 2)
    (hg : InRange x 2 g m) :
    cubicSpline 2 x y yp1 ypn m g =
      .ok ((List.range m).map fun k => lineAt (x 0) (y 0) (x 1) (y 1) (g k)) := by
  unfold cubicSpline
  rw [(increasing_iff x 2).2 hx, (outside_iff x 2 g m).2 hg]
  simp only [Bool.false_eq_true, if_false]
  rw [if_neg (by omega), if_pos trivial]
  congr 2
  funext k
  unfold twoPoint lineAt
  ring

/-! ### Concrete cases -/

example : cubicSpline 4 exSx exSy none none 3 (fun k => [1, 2, 4].getD k 0) = .ok [2, 13 / 4, 1] := by
  decide +kernel
example : cubicSpline 3 exSx (fun k => 2 * exSx k + 1) (some 2) none 2 (fun k => [1 / 2, 2].getD k 0) =
    .ok [2, 5] := by
  decide +kernel

/-- The comment at the head of the routine (interp.c 152-175) says that slope 0 at an end makes it natural.
It does not: slope 0 is taken as it is, and affine data are not reproduced. -/
theorem C26_zero_is_not_natural :
    cubicSpline 3 (fun k => (k : ℚ)) (fun k => (k : ℚ)) (some 0) none 1 (fun _ => 1 / 2) ≠ .ok [1 / 2] := by
  decide +kernel

end Verif
