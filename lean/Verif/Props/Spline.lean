import Verif.Lemmas.Spline
import Verif.Props.Vertical
/-
C25: the monotone cubic spline `cubic_spline_sp`.

The statement excludes a flat first or last interval next to one that is not flat;
`C25_flat_end_overshoot` shows that this is needed.
-/
namespace Verif
open Interp Spec

variable {K : Type} [Field K] [LinearOrder K] [IsStrictOrderedRing K]

omit [IsStrictOrderedRing K] in
theorem twoPoint_piecewise (x y : Nat → K) (g : Nat → K) (m : Nat) :
    IsPiecewise x 2 (fun _ v => twoPoint x y v) g m ((List.range m).map fun k => twoPoint x y (g k)) := by
  refine ⟨by simp, ?_⟩
  intro k hk
  exact ⟨twoPoint x y (g k), by simp [hk], fun _ _ _ _ => rfl⟩

theorem twoPoint_interpolates {x y : Nat → K} (hx : Increasing x 2) :
    Interpolates x y 2 (fun _ v => twoPoint x y v) := by
  intro j hj
  have : j = 0 := by omega
  subst this
  have hne : x 1 - x 0 ≠ 0 := by
    have := hx 0 1 (by omega) (by omega)
    intro e; linarith
  refine ⟨⟨y 0 - (y 1 - y 0) / (x 1 - x 0) * x 0, (y 1 - y 0) / (x 1 - x 0), 0, 0, ?_⟩, ?_, ?_⟩
  · intro v; unfold twoPoint; ring
  · show twoPoint x y (x 0) = y 0
    unfold twoPoint; ring
  · show twoPoint x y (x 1) = y 1
    unfold twoPoint; field_simp; ring

/-- The pieces of the result. -/
def spPieces (n : Nat) (x y : Nat → K) : Nat → K → K :=
  if n = 2 then fun _ v => twoPoint x y v else spPiece n x y

theorem spPieces_eval (n m : Nat) (x y g : Nat → K) (h2 : 2 ≤ n) (hx : Increasing x n)
    (hg : InRange x n g m) :
    ∃ r, cubicSplineSp n x y m g = .ok r ∧ IsPiecewise x n (spPieces n x y) g m r := by
  unfold cubicSplineSp spPieces
  rw [(increasing_iff x n).2 hx, (outside_iff x n g m).2 hg]
  simp only [Bool.false_eq_true, if_false]
  rw [if_neg (by omega)]
  by_cases h : n = 2
  · subst h
    simp only [if_true]
    exact ⟨_, rfl, twoPoint_piecewise x y g m⟩
  · rw [if_neg h, if_neg h]
    exact eval_all hx h2 (spPiece n x y)
      (fun j hj => ⟨spPiece_left j, spPiece_right hx j hj⟩) (spEval n x y) (fun v => rfl) g m hg

/-- C25. The result is the same piecewise cubic for all targets; it passes through the nodes and has a
continuous derivative. -/
theorem C25_spline (n : Nat) (x y : Nat → K) (h2 : 2 ≤ n) (hx : Increasing x n) :
    ∃ p, Interpolates x y n p ∧ JoinsC1 x n p ∧ ∀ (m : Nat) (g : Nat → K), InRange x n g m →
      ∃ r, cubicSplineSp n x y m g = .ok r ∧ IsPiecewise x n p g m r := by
  refine ⟨spPieces n x y, ?_, ?_, fun m g hg => spPieces_eval n m x y g h2 hx hg⟩
  · unfold spPieces
    by_cases h : n = 2
    · subst h; rw [if_pos rfl]; exact twoPoint_interpolates hx
    · rw [if_neg h]
      intro j hj
      refine ⟨?_, spPiece_left j, spPiece_right hx j hj⟩
      refine ⟨y j - spSlope n x y j * x j + spC n x y j * x j ^ 2 - spB n x y j * x j ^ 3,
        spSlope n x y j - 2 * spC n x y j * x j + 3 * spB n x y j * x j ^ 2,
        spC n x y j - 3 * spB n x y j * x j, spB n x y j, ?_⟩
      intro v
      unfold spPiece
      ring
  · unfold spPieces
    intro j hj
    rw [if_neg (by omega)]
    -- left piece around its right node
    have hp := ne_of_gt (spDh_pos hx j (by omega))
    have he : y (j + 1) - y j = spDelta x y j * spDh x j := by
      unfold spDelta; field_simp
    have hxx : x (j + 1) = x j + spDh x j := by unfold spDh; ring
    refine ⟨spC n x y (j + 1) - spC n x y j - 3 * spB n x y j * spDh x j -
        (spB n x y (j + 1) - spB n x y j) * x (j + 1), spB n x y (j + 1) - spB n x y j, ?_⟩
    intro v
    have hleft : spPiece n x y j v = y (j + 1) + spSlope n x y (j + 1) * (v - x (j + 1)) +
        (spC n x y j + 3 * spB n x y j * spDh x j) * (v - x (j + 1)) ^ 2 +
        spB n x y j * (v - x (j + 1)) ^ 3 := by
      have hy : y (j + 1) = y j + spDelta x y j * spDh x j := by linarith
      rw [hy, hxx]
      unfold spPiece spC spB
      field_simp
      ring
    rw [hleft]
    unfold spPiece
    ring

/-- C25. Node values are reproduced. -/
theorem C25_nodes (n m : Nat) (x y g : Nat → K) (h2 : 2 ≤ n) (hx : Increasing x n)
    (hg : InRange x n g m) :
    ∃ r, cubicSplineSp n x y m g = .ok r ∧ r.length = m ∧
      ∀ k j, k < m → j < n → g k = x j → r[k]? = some (y j) := by
  obtain ⟨p, hp, _, h⟩ := C25_spline n x y h2 hx
  obtain ⟨r, hr, hl, hv⟩ := h m g hg
  refine ⟨r, hr, hl, ?_⟩
  intro k j hk hj he
  obtain ⟨z, hz, hz'⟩ := hv k hk
  rw [hz]
  congr 1
  rcases Nat.lt_or_ge (j + 1) n with h | h
  · rw [hz' j h (by rw [he]) (by rw [he]; exact le_of_lt (hx j (j + 1) (by omega) h)), he]
    exact (hp j h).2.1
  · obtain ⟨i, rfl⟩ : ∃ i, j = i + 1 := ⟨j - 1, by omega⟩
    rw [hz' i hj (by rw [he]; exact le_of_lt (hx i (i + 1) (by omega) hj)) (by rw [he]), he]
    exact (hp i hj).2.2

theorem spPieces_mono {n : Nat} {x y : Nat → K} (h2 : 2 ≤ n) (hx : Increasing x n) (hf : FlatEndsOk y n)
    (j : Nat) (hj : j + 1 < n) :
    ∃ u : K → K, (∀ v, x j ≤ v → v ≤ x (j + 1) → 0 ≤ u v ∧ u v ≤ 1 ∧
        spPieces n x y j v = y j + (y (j + 1) - y j) * u v) ∧
      (∀ v v', x j ≤ v → v ≤ v' → v' ≤ x (j + 1) → u v ≤ u v') ∧
      ∀ v v', x j ≤ v → v < v' → v' ≤ x (j + 1) → u v < u v' := by
  have hh := spDh_pos hx j hj
  have t0 : ∀ v, x j ≤ v → 0 ≤ (v - x j) / spDh x j :=
    fun v hv => div_nonneg (by linarith) (le_of_lt hh)
  have t1 : ∀ v, v ≤ x (j + 1) → (v - x j) / spDh x j ≤ 1 := by
    intro v hv
    rw [div_le_one hh]
    unfold spDh
    linarith
  have tm : ∀ v v', v ≤ v' → (v - x j) / spDh x j ≤ (v' - x j) / spDh x j := by
    intro v v' h
    exact (div_le_div_iff_of_pos_right hh).2 (by linarith)
  have ts : ∀ v v', v < v' → (v - x j) / spDh x j < (v' - x j) / spDh x j := by
    intro v v' h
    exact (div_lt_div_iff_of_pos_right hh).2 (by linarith)
  by_cases h : n = 2
  · have e : j = 0 := by omega
    subst h; subst e
    refine ⟨fun v => (v - x 0) / spDh x 0, ?_, fun v v' _ h _ => tm v v' h, fun v v' _ h _ => ts v v' h⟩
    intro v hv hv'
    refine ⟨t0 v hv, t1 v hv', ?_⟩
    unfold spPieces
    rw [if_pos rfl]
    unfold twoPoint
    have : x 1 - x 0 = spDh x 0 := rfl
    rw [this]
    ring
  · obtain ⟨⟨a, a0, a3, ha⟩, ⟨b, b0, b3, hb⟩⟩ := spSlope_ok hx (by omega) hf j hj
    refine ⟨fun v => unitCubic a b ((v - x j) / spDh x j), ?_, ?_, ?_⟩
    · intro v hv hv'
      refine ⟨?_, ?_, ?_⟩
      · have := unitCubic_mono a0 a3 b0 b3 (le_refl 0) (t0 v hv) (t1 v hv')
        rwa [unitCubic_zero] at this
      · have := unitCubic_mono a0 a3 b0 b3 (t0 v hv) (t1 v hv') (le_refl 1)
        rwa [unitCubic_one] at this
      · unfold spPieces
        rw [if_neg h]
        exact spPiece_unit hx j hj ha hb v
    · intro v v' hv hvv hv'
      exact unitCubic_mono a0 a3 b0 b3 (t0 v hv) (tm v v' hvv) (t1 v' hv')
    · intro v v' hv hvv hv'
      exact unitCubic_strict a0 a3 b0 b3 (t0 v hv) (ts v v' hvv) (t1 v' hv')

/-- C25. Between two nodes the result stays between the values at these nodes. -/
theorem C25_between (n m : Nat) (x y g : Nat → K) (h2 : 2 ≤ n) (hx : Increasing x n)
    (hf : FlatEndsOk y n) (hg : InRange x n g m) :
    ∃ r, cubicSplineSp n x y m g = .ok r ∧ r.length = m ∧
      ∀ k, k < m → ∃ z, r[k]? = some z ∧
        ∀ j, j + 1 < n → x j ≤ g k → g k ≤ x (j + 1) → Between (y j) (y (j + 1)) z := by
  obtain ⟨r, hr, hl, hv⟩ := spPieces_eval n m x y g h2 hx hg
  refine ⟨r, hr, hl, ?_⟩
  intro k hk
  obtain ⟨z, hz, hz'⟩ := hv k hk
  refine ⟨z, hz, ?_⟩
  intro j j1 j2 j3
  obtain ⟨u, hu, _⟩ := spPieces_mono h2 hx hf j j1
  obtain ⟨u0, u1, ue⟩ := hu (g k) j2 j3
  rw [hz' j j1 j2 j3, ue]
  unfold Between
  rcases le_total (y j) (y (j + 1)) with h | h
  · left; constructor <;> nlinarith
  · right; constructor <;> nlinarith

/-- Some interval contains the target. -/
theorem exists_interval {n : Nat} {x : Nat → K} (h2 : 2 ≤ n) (hx : Increasing x n) {v : K} (h0 : x 0 ≤ v)
    (h1 : v ≤ x (n - 1)) : ∃ j, j + 1 < n ∧ x j ≤ v ∧ v ≤ x (j + 1) := by
  obtain ⟨k, _, k1, k2, k3, _⟩ := klo_spec hx h2 h0 h1
  exact ⟨k, k1, k2, k3⟩

/-- C25. Non-decreasing data give non-decreasing results. -/
theorem C25_monotone (n m : Nat) (x y g : Nat → K) (h2 : 2 ≤ n) (hx : Increasing x n)
    (hf : FlatEndsOk y n) (hg : InRange x n g m) (hy : NonDecreasing y n) :
    ∃ r, cubicSplineSp n x y m g = .ok r ∧ r.length = m ∧
      ∀ k k', k < m → k' < m → g k ≤ g k' → ∃ z z', r[k]? = some z ∧ r[k']? = some z' ∧ z ≤ z' := by
  obtain ⟨r, hr, hl, hv⟩ := spPieces_eval n m x y g h2 hx hg
  refine ⟨r, hr, hl, ?_⟩
  intro k k' hk hk' hle
  obtain ⟨z, hz, hze⟩ := hv k hk
  obtain ⟨z', hz', hze'⟩ := hv k' hk'
  refine ⟨z, z', hz, hz', ?_⟩
  obtain ⟨j, j1, j2, j3⟩ := exists_interval h2 hx (hg k hk).1 (hg k hk).2
  obtain ⟨i, i1, i2, i3⟩ := exists_interval h2 hx (hg k' hk').1 (hg k' hk').2
  have bound : ∀ q v, q + 1 < n → x q ≤ v → v ≤ x (q + 1) →
      y q ≤ spPieces n x y q v ∧ spPieces n x y q v ≤ y (q + 1) := by
    intro q v q1 q2 q3
    obtain ⟨u, hu, _⟩ := spPieces_mono h2 hx hf q q1
    obtain ⟨u0, u1, ue⟩ := hu v q2 q3
    rw [ue]
    have := hy q (q + 1) (by omega) q1
    constructor <;> nlinarith
  have same : ∀ q, q + 1 < n → x q ≤ g k → g k' ≤ x (q + 1) → z ≤ z' := by
    intro q q1 q2 q3
    obtain ⟨u, hu, hm, _⟩ := spPieces_mono h2 hx hf q q1
    have a1 := (hu (g k) q2 (le_trans hle q3)).2.2
    have a2 := (hu (g k') (le_trans q2 hle) q3).2.2
    rw [hze q q1 q2 (le_trans hle q3), hze' q q1 (le_trans q2 hle) q3, a1, a2]
    have := hm (g k) (g k') q2 hle q3
    have := hy q (q + 1) (by omega) q1
    nlinarith
  rcases Nat.lt_or_ge j i with h | h
  · rw [hze j j1 j2 j3, hze' i i1 i2 i3]
    have b1 := (bound j (g k) j1 j2 j3).2
    have b2 := (bound i (g k') i1 i2 i3).1
    have := hy (j + 1) i (by omega) (by omega)
    linarith
  · have : g k' ≤ x (j + 1) := le_trans i3 (hx.nonDecreasing (i + 1) (j + 1) (by omega) j1)
    exact same j j1 j2 this

/-- C25. Data that increase strictly (`s > 0`) or decrease strictly (`s < 0`) give results that do the same at
different targets. -/
theorem C25_strict (n m : Nat) (x y g : Nat → K) (h2 : 2 ≤ n) (hx : Increasing x n) (hg : InRange x n g m) (s : K)
    (hy : ∀ i j, i < j → j < n → 0 < s * (y j - y i)) :
    ∃ r, cubicSplineSp n x y m g = .ok r ∧ r.length = m ∧
      ∀ k k', k < m → k' < m → g k < g k' →
        ∃ z z', r[k]? = some z ∧ r[k']? = some z' ∧ 0 < s * (z' - z) := by
  have hf : FlatEndsOk y n := by
    intro h3
    constructor
    · intro h
      have := hy 0 1 (by omega) (by omega)
      rw [h] at this; simp at this
    · intro h
      have := hy (n - 2) (n - 1) (by omega) (by omega)
      rw [h] at this; simp at this
  obtain ⟨r, hr, hl, hv⟩ := spPieces_eval n m x y g h2 hx hg
  refine ⟨r, hr, hl, ?_⟩
  intro k k' hk hk' hlt
  obtain ⟨z, hz, hze⟩ := hv k hk
  obtain ⟨z', hz', hze'⟩ := hv k' hk'
  refine ⟨z, z', hz, hz', ?_⟩
  obtain ⟨j, j1, j2, j3⟩ := exists_interval h2 hx (hg k hk).1 (hg k hk).2
  obtain ⟨i, i1, i2, i3⟩ := exists_interval h2 hx (hg k' hk').1 (hg k' hk').2
  have piece : ∀ q v, q + 1 < n → x q ≤ v → v ≤ x (q + 1) →
      0 ≤ s * (spPieces n x y q v - y q) ∧ 0 ≤ s * (y (q + 1) - spPieces n x y q v) := by
    intro q v q1 q2 q3
    obtain ⟨u, hu, _⟩ := spPieces_mono h2 hx hf q q1
    obtain ⟨u0, u1, ue⟩ := hu v q2 q3
    have h := hy q (q + 1) (by omega) q1
    rw [ue]
    constructor
    · have := mul_nonneg h.le u0
      nlinarith
    · have := mul_nonneg h.le (show (0 : K) ≤ 1 - u v by linarith)
      nlinarith
  have same : ∀ q, q + 1 < n → x q ≤ g k → g k' ≤ x (q + 1) → 0 < s * (z' - z) := by
    intro q q1 q2 q3
    obtain ⟨u, hu, _, hs⟩ := spPieces_mono h2 hx hf q q1
    rw [hze q q1 q2 (by linarith), hze' q q1 (by linarith) q3, (hu (g k) q2 (by linarith)).2.2,
      (hu (g k') (by linarith) q3).2.2]
    have h := hy q (q + 1) (by omega) q1
    have := mul_pos h (sub_pos.2 (hs (g k) (g k') q2 hlt q3))
    nlinarith
  rcases Nat.lt_trichotomy j i with h | h | h
  · have a1 := (piece j (g k) j1 j2 j3).2
    have a2 := (piece i (g k') i1 i2 i3).1
    rw [← hze j j1 j2 j3] at a1
    rw [← hze' i i1 i2 i3] at a2
    -- one of the two targets is not the common node
    rcases Nat.lt_or_ge (j + 1) i with hlt' | hge
    · have := hy (j + 1) i hlt' (by omega)
      nlinarith
    · obtain rfl : i = j + 1 := by omega
      rcases lt_or_eq_of_le j3 with hj | hj
      · obtain ⟨u, hu, _, hs⟩ := spPieces_mono h2 hx hf j j1
        have e1 := (hu (g k) j2 j3).2.2
        have e2 := (hu (x (j + 1)) (le_trans j2 j3) (le_refl _)).2
        have hb : 0 < s * (y (j + 1) - z) := by
          rw [hze j j1 j2 j3, e1]
          have h := hy j (j + 1) (by omega) j1
          have := hs (g k) (x (j + 1)) j2 hj (le_refl _)
          have := mul_pos h (sub_pos.2 this)
          have := mul_nonneg h.le (sub_nonneg.2 e2.1)
          nlinarith
        nlinarith
      · exact same (j + 1) i1 (by rw [hj]) i3
  · subst h
    exact same j j1 j2 i3
  · have : g k' ≤ x (j + 1) := le_trans i3 (hx.nonDecreasing (i + 1) (j + 1) (by omega) j1)
    exact same j j1 j2 this

/-- Nodes that do not increase, targets outside and a single node are refused. -/
theorem C25_rejects (n m : Nat) (x y g : Nat → K) :
    (¬ Increasing x n → cubicSplineSp n x y m g = .error .notMonotonic) ∧
    (Increasing x n → ¬ InRange x n g m → cubicSplineSp n x y m g = .error .outside) ∧
    (Increasing x n → InRange x n g m → n < 2 → cubicSplineSp n x y m g = .error .tooSmall) := by
  unfold cubicSplineSp
  refine ⟨?_, ?_, ?_⟩
  · intro h
    have : notIncreasing x n = true := by
      cases hb : notIncreasing x n with
      | true => rfl
      | false => exact absurd ((increasing_iff x n).1 hb) h
    rw [this]; rfl
  · intro h1 h2
    have : someOutside x n g m = true := by
      cases hb : someOutside x n g m with
      | true => rfl
      | false => exact absurd ((outside_iff x n g m).1 hb) h2
    rw [(increasing_iff x n).2 h1, this]; rfl
  · intro h1 h2 h3
    rw [(increasing_iff x n).2 h1, (outside_iff x n g m).2 h2]
    simp only [Bool.false_eq_true, if_false]
    rw [if_pos h3]

/-! ### Concrete cases -/

def exSx : Nat → ℚ := fun k => [0, 1, 3, 4].getD k 0
def exSy : Nat → ℚ := fun k => [0, 2, 3, 1].getD k 0

example : Increasing exSx 4 := by rw [← increasing_iff]; decide +kernel
example : InRange exSx 4 (fun k => [0, 1 / 2, 2, 4].getD k 0) 4 := by
  rw [← outside_iff]; decide +kernel
example : FlatEndsOk exSy 4 := by
  intro _; constructor <;> intro h <;> exact absurd h (by decide +kernel)
example : cubicSplineSp 4 exSx exSy 4 (fun k => [0, 1 / 2, 2, 4].getD k 0) =
    .ok [0, 135 / 112, 19 / 7, 1] := by decide +kernel

/-- With a flat first interval the result leaves the data: the data on the first interval are 0 and 0, the
result in the middle is negative. -/
theorem C25_flat_end_overshoot :
    cubicSplineSp 3 (fun k => (k : ℚ)) (fun k => [0, 0, 1].getD k 0) 1 (fun _ => 1 / 2) =
      .ok [-1 / 16] := by
  decide +kernel

end Verif
