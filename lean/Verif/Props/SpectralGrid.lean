import Verif.Model.LonLatGrid
import Verif.Props.Tripolar
import Mathlib.Analysis.Calculus.Deriv.Mul
import Mathlib.Analysis.Calculus.Deriv.Add
import Mathlib.Analysis.SpecialFunctions.Trigonometric.Inverse
/-
C96: the spectral grid of make_hgrid.
-/
namespace Verif.LonLatGrid

open Verif.Tripolar (r2d r2d_pos r2d_pi)

/-! ### Newton's method -/

/-- Legendre polynomials: their recursion is what the loop over `i` computes. -/
theorem legendre_rec (z : ℝ) (n : Nat) : ((n : ℝ) + 1) * (legendre z (n + 1)).1
    = (2 * n + 1) * z * (legendre z n).1 - n * (legendre z n).2 ∧ (legendre z (n + 1)).2 = (legendre z n).1 := by
  have : (n : ℝ) + 1 ≠ 0 := by positivity
  refine ⟨?_, rfl⟩
  simp only [legendre]
  field_simp
  ring

theorem legendre_deriv (z : ℝ) : ∀ n : Nat, ∃ d e : ℝ, HasDerivAt (fun z => (legendre z n).1) d z ∧
    HasDerivAt (fun z => (legendre z n).2) e z ∧
    (z * z - 1) * d = n * (z * (legendre z n).1 - (legendre z n).2) ∧
    (z * z - 1) * e = n * ((legendre z n).1 - z * (legendre z n).2)
  | 0 => ⟨0, 0, hasDerivAt_const z 1, hasDerivAt_const z 0, by simp, by simp⟩
  | n + 1 => by
    obtain ⟨d, e, h1, h2, h3, h4⟩ := legendre_deriv z n
    have hn : (n : ℝ) + 1 ≠ 0 := by positivity
    obtain ⟨r1, r2⟩ := legendre_rec z n
    have hd : HasDerivAt (fun z => (legendre z (n + 1)).1)
        (((2 * ((n : ℝ) + 1) - 1) * (1 * (legendre z n).1 + z * d) - ((n : ℝ) + 1 - 1) * e) / ((n : ℝ) + 1)) z := by
      have a := (((hasDerivAt_id z).mul h1).const_mul (2 * ((n : ℝ) + 1) - 1)).sub (h2.const_mul ((n : ℝ) + 1 - 1))
      have b := a.div_const ((n : ℝ) + 1)
      refine b.congr_of_eventuallyEq (Filter.Eventually.of_forall fun w => ?_)
      simp only [legendre, id, Pi.mul_apply, Pi.sub_apply]
      ring
    refine ⟨_, d, hd, h1, ?_, ?_⟩
    · rw [r2]
      push_cast
      have k : (z * z - 1) * ((2 * ((n : ℝ) + 1) - 1) * (1 * (legendre z n).1 + z * d) - ((n : ℝ) + 1 - 1) * e)
          = ((n : ℝ) + 1) * (z * (((n : ℝ) + 1) * (legendre z (n + 1)).1) - ((n : ℝ) + 1) * (legendre z n).1) := by
        rw [r1]
        linear_combination (2 * (n : ℝ) + 1) * z * h3 - (n : ℝ) * h4
      rw [mul_div_assoc', div_eq_iff hn, k]
      ring
    · rw [r2]
      push_cast
      linear_combination h3 - r1

/-- The polynomial `P` of the loop is the Legendre polynomial of degree `nj` (`P 0 = 1`, `P 1 = z`, and the recursion of three terms),
`pp` is its derivative, and a round of the loop is a step of Newton's method for its zeros. -/
theorem C96_newton (nj : Nat) {z : ℝ} (hz : z * z ≠ 1) :
    ∃ P : Nat → ℝ → ℝ, (∀ w, P 0 w = 1 ∧ P 1 w = w) ∧
      (∀ (n : Nat) (w : ℝ), ((n : ℝ) + 2) * P (n + 2) w = (2 * n + 3) * w * P (n + 1) w - (n + 1) * P n w) ∧
      HasDerivAt (P nj) (slope nj z) z ∧ newton nj z = z - P nj z / slope nj z := by
  refine ⟨fun n w => (legendre w n).1, fun w => ⟨rfl, ?_⟩, fun n w => ?_, ?_, rfl⟩
  · simp [legendre]; ring
  · obtain ⟨r1, -⟩ := legendre_rec w (n + 1)
    obtain ⟨-, r2⟩ := legendre_rec w n
    rw [r2] at r1
    push_cast at r1
    linear_combination r1
  · obtain ⟨d, e, h1, -, h3, -⟩ := legendre_deriv z nj
    have : z * z - 1 ≠ 0 := fun h => hz (by linarith)
    have : slope nj z = d := by
      unfold slope
      rw [← h3, mul_div_cancel_left₀ _ this]
    rw [this]
    exact h1

theorem newtonLoop_not_failed (step : ℝ → ℝ) (eps : ℝ) {itermax : Nat} (h : 1 ≤ itermax) : ∀ (fuel : Nat) (z : ℝ),
    newtonLoop step eps itermax 1 fuel z ≠ some .failed
  | 0, _ => by simp [newtonLoop]
  | fuel + 1, z => by
    unfold newtonLoop
    rw [if_pos h]
    split_ifs
    · simp
    · exact newtonLoop_not_failed step eps h fuel _

/-- If the loop ends it has found a place where the last step was shorter than the threshold. -/
theorem C96_converged (step : ℝ → ℝ) (eps : ℝ) {itermax : Nat} (h : 1 ≤ itermax) : ∀ (fuel : Nat) (z : ℝ) (r : Ended),
    newtonLoop step eps itermax 1 fuel z = some r →
    ∃ n : Nat, n < fuel ∧ r = .root (step (step^[n] z)) ∧ |step (step^[n] z) - step^[n] z| < eps
  | 0, _, _, e => by simp [newtonLoop] at e
  | fuel + 1, z, r, e => by
    unfold newtonLoop at e
    rw [if_pos h] at e
    split_ifs at e with c
    · exact ⟨0, by omega, by simpa using e.symm, by simpa using c⟩
    · obtain ⟨n, h1, h2, h3⟩ := C96_converged step eps h fuel _ r e
      refine ⟨n + 1, by omega, ?_, ?_⟩
      · rw [Function.iterate_succ_apply]; exact h2
      · rw [Function.iterate_succ_apply]; exact h3

/-- The limit of ten rounds is never applied, for any arithmetic: no run ends with the error for missing convergence, and where
the steps do not get shorter than the threshold the loop never ends. -/
theorem C96_limit_wrong : (∀ (step : ℝ → ℝ) (eps : ℝ) (fuel : Nat) (z : ℝ), newtonLoop step eps 10 1 fuel z ≠ some .failed) ∧
    ∀ (step : ℝ → ℝ) (eps z : ℝ), (∀ n : Nat, eps ≤ |step (step^[n] z) - step^[n] z|) →
      ∀ fuel, newtonLoop step eps 10 1 fuel z = none := by
  refine ⟨fun step eps fuel z => newtonLoop_not_failed step eps (by norm_num) fuel z, fun step eps z h fuel => ?_⟩
  cases e : newtonLoop step eps 10 1 fuel z with
  | none => rfl
  | some r =>
    obtain ⟨n, -, -, h3⟩ := C96_converged step eps (by norm_num) fuel z r e
    exact absurd (h n) (not_le.2 h3)

/-- A step which goes to and fro -/
example : ∀ n : Nat, (1 / 10 ^ 15 : ℝ) ≤ |(fun z : ℝ => 1 - z) ((fun z : ℝ => 1 - z)^[n] 0) - (fun z : ℝ => 1 - z)^[n] 0| := by
  intro n
  have : (fun z : ℝ => 1 - z)^[n] 0 = 0 ∨ (fun z : ℝ => 1 - z)^[n] 0 = 1 := by
    induction n with
    | zero => left; rfl
    | succ n ih =>
      rw [Function.iterate_succ_apply']
      rcases ih with h | h
      · right; rw [h]; norm_num
      · left; rw [h]; norm_num
  rcases this with h | h <;> rw [h] <;> norm_num

/-! ### Latitudes -/

/-- For an even number of rows every row has a latitude and a weight, and those of the two hemispheres correspond. -/
theorem C96_symmetric {nj : Nat} (he : nj % 2 = 0) (hem wts : Nat → ℝ) {j : Nat} (hj : j < nj) :
    ∃ s w, bothHem nj (-1) hem j = some s ∧ bothHem nj (-1) hem (nj - 1 - j) = some (-s) ∧
      bothHem nj 1 wts j = some w ∧ bothHem nj 1 wts (nj - 1 - j) = some w := by
  unfold bothHem
  rcases Nat.lt_or_ge j (nj / 2) with h | h
  · refine ⟨-hem j, wts j, ?_, ?_, ?_, ?_⟩
    · rw [if_neg (by omega), if_pos h]; simp
    · rw [if_pos (by omega), show nj - 1 - (nj - 1 - j) = j by omega]; simp
    · rw [if_neg (by omega), if_pos h]; simp
    · rw [if_pos (by omega), show nj - 1 - (nj - 1 - j) = j by omega]
  · refine ⟨hem (nj - 1 - j), wts (nj - 1 - j), ?_, ?_, ?_, ?_⟩
    · rw [if_pos (by omega)]
    · rw [if_neg (by omega), if_pos (by omega)]; simp
    · rw [if_pos (by omega)]
    · rw [if_neg (by omega), if_pos (by omega)]; simp

/-- For an odd number of rows the one in the middle is never set. -/
theorem C96_odd_wrong {nj : Nat} (ho : nj % 2 = 1) (sgn : ℝ) (hem : Nat → ℝ) : bothHem nj sgn hem (nj / 2) = none := by
  unfold bothHem
  rw [if_neg (by omega), if_neg (by omega)]

theorem foldl_add (wts : Nat → ℝ) (s0 : ℝ) (j : Nat) :
    (List.range j).foldl (fun s k => s + wts k) s0 = s0 + ((List.range j).map wts).sum := by
  induction j with
  | zero => simp
  | succ j ih => rw [List.range_succ, List.foldl_append, ih, List.map_append, List.sum_append]; simp; ring

/-- Bounds of the rows, if `sum_wts` happens to be zero at the start, which the program does not see to: for weights above zero
which add up to 2 they go from -90 to 90, one to the north of the other, and the part of the sphere between two bounds is
half the weight. -/
theorem C96_bounds_partial {nj : Nat} (hn : 1 ≤ nj) (wts : Nat → ℝ) (hw : ∀ k, k < nj → 0 < wts k)
    (hsum : ((List.range nj).map wts).sum = 2) :
    latb nj 0 wts 0 = -90 ∧ latb nj 0 wts nj = 90 ∧ (∀ j, j < nj → latb nj 0 wts j < latb nj 0 wts (j + 1)) ∧
    ∀ j, j < nj → Real.sin (latb nj 0 wts (j + 1) * (Real.pi / 180)) - Real.sin (latb nj 0 wts j * (Real.pi / 180)) = wts j := by
  have part : ∀ j, j ≤ nj → 0 ≤ ((List.range j).map wts).sum := by
    intro j hj
    apply List.sum_nonneg
    intro x hx
    obtain ⟨k, hk, rfl⟩ := List.mem_map.1 hx
    exact (hw k (by have := List.mem_range.1 hk; omega)).le
  have mono : ∀ j, j < nj → ((List.range (j + 1)).map wts).sum = ((List.range j).map wts).sum + wts j := by
    intro j _
    rw [List.range_succ, List.map_append, List.sum_append]; simp
  have up : ∀ m j, j + m = nj → ((List.range j).map wts).sum ≤ 2 := by
    intro m
    induction m with
    | zero => intro j hj; rw [show j = nj by omega, hsum]
    | succ m ih =>
      intro j hj
      have := ih (j + 1) (by omega)
      rw [mono j (by omega)] at this
      linarith [hw j (by omega)]
  have eq : ∀ j, j ≤ nj → latb nj 0 wts j = Real.arcsin (((List.range j).map wts).sum - 1) * r2d := by
    intro j hj
    have hp := r2d_pi
    unfold latb
    by_cases h0 : j = 0
    · rw [if_pos h0, h0]
      simp only [List.range_zero, List.map_nil, List.sum_nil, zero_sub, Real.arcsin_neg_one]
      linarith
    · rw [if_neg h0]
      by_cases h1 : j = nj
      · rw [if_pos h1, h1, hsum, show (2 : ℝ) - 1 = 1 by norm_num, Real.arcsin_one]
        linarith
      · rw [if_neg h1, foldl_add, zero_add]
  have hr : ∀ j, j ≤ nj → -1 ≤ ((List.range j).map wts).sum - 1 ∧ ((List.range j).map wts).sum - 1 ≤ 1 := by
    intro j hj
    have := part j hj
    have := up (nj - j) j (by omega)
    constructor <;> linarith
  have hs : ∀ j, j ≤ nj → Real.sin (latb nj 0 wts j * (Real.pi / 180)) = ((List.range j).map wts).sum - 1 := by
    intro j hj
    rw [eq j hj, mul_assoc, show r2d * (Real.pi / 180) = 1 by unfold r2d; have := Real.pi_pos.ne'; field_simp, mul_one]
    exact Real.sin_arcsin (hr j hj).1 (hr j hj).2
  refine ⟨by simp [latb], by unfold latb; rw [if_neg (by omega), if_pos rfl], fun j hj => ?_, fun j hj => ?_⟩
  · rw [eq j (by omega), eq (j + 1) (by omega)]
    apply mul_lt_mul_of_pos_right _ r2d_pos
    apply Real.strictMonoOn_arcsin (hr j (by omega)) (hr (j + 1) (by omega))
    rw [mono j hj]
    linarith [hw j hj]
  · rw [hs _ (by omega), hs _ (by omega), mono j hj]
    ring

/-- Two rows of weight 1 -/
example : (∀ k, k < 2 → (0 : ℝ) < (fun _ => 1 : Nat → ℝ) k) ∧ ((List.range 2).map (fun _ => 1 : Nat → ℝ)).sum = 2 := by
  refine ⟨fun _ _ => one_pos, ?_⟩
  simp [List.range_succ]
  norm_num

/-- `sum_wts` is used without a value: any latitude at all can be the first bound, whatever the weights. -/
theorem C96_bounds_wrong {nj : Nat} (hn : 2 ≤ nj) (wts : Nat → ℝ) {t : ℝ} (h1 : -90 ≤ t) (h2 : t ≤ 90) :
    ∃ s0, latb nj s0 wts 1 = t := by
  refine ⟨Real.sin (t * (Real.pi / 180)) + 1 - wts 0, ?_⟩
  unfold latb
  rw [if_neg (by omega), if_neg (by omega), foldl_add]
  simp only [List.range_one, List.map_cons, List.map_nil, List.sum_cons, List.sum_nil]
  rw [show Real.sin (t * (Real.pi / 180)) + 1 - wts 0 + (wts 0 + 0) - 1 = Real.sin (t * (Real.pi / 180)) by ring]
  have hp := Real.pi_pos
  rw [Real.arcsin_sin (by nlinarith) (by nlinarith), mul_assoc,
    show Real.pi / 180 * r2d = 1 by unfold r2d; field_simp, mul_one]

/-! ### Longitudes -/

/-- For an even number of columns of the supergrid the lines are equally spaced over one turn, with the first point of the model grid
at longitude 0. -/
theorem C96_lon {nx k : Nat} (he : nx % 2 = 0) (h2 : 2 ≤ nx) (hk : k ≤ nx) :
    spectralX nx k = some (((k : ℝ) - 1) * (360 / nx)) := by
  have hni : ((nx / 2 : Nat) : ℝ) * 2 = nx := by
    exact_mod_cast (show nx / 2 * 2 = nx by omega)
  have h0 : ((nx / 2 : Nat) : ℝ) ≠ 0 := by
    have : 1 ≤ nx / 2 := by omega
    exact_mod_cast (show nx / 2 ≠ 0 by omega)
  unfold spectralX
  dsimp only
  rcases Nat.mod_two_eq_zero_or_one k with h | h
  · rw [if_pos ⟨h, by omega⟩, ← hni]
    have : (k : ℝ) = ((k / 2 : Nat) : ℝ) * 2 := by exact_mod_cast (show k = k / 2 * 2 by omega)
    rw [this]
    congr 1
    field_simp
  · rw [if_neg (by omega), if_pos ⟨h, by omega⟩, ← hni]
    have : (k : ℝ) = ((k / 2 : Nat) : ℝ) * 2 + 1 := by exact_mod_cast (show k = k / 2 * 2 + 1 by omega)
    rw [this]
    congr 1
    field_simp
    ring

/-- For an odd number of columns the last line is never set. -/
theorem C96_odd_columns_wrong {nx : Nat} (ho : nx % 2 = 1) : spectralX nx nx = none := by
  unfold spectralX
  dsimp only
  rw [if_neg (by omega), if_neg (by omega)]

end Verif.LonLatGrid
