import Verif.Props.Nearest
/-
C24: linear interpolation in the vertical.

`linear_vertical_interp` refuses target levels outside the source levels; fregrid calls it for the
levels inside and sets the others to the end values. That goes wrong if no target level is inside
(`C24_none_inside_wrong`, `C24_all_below_oob`), hence `C24_clamp_partial`.
-/
namespace Verif
open Interp Spec

variable {K : Type} [Field K] [LinearOrder K] [IsStrictOrderedRing K]

/-- C24. For increasing source levels (at least two) and increasing target levels within them, the routine
succeeds and every output value is on the piecewise linear function through the source data. -/
theorem C24_interp (nk1 nk2 : Nat) (x g d : Nat → K) (h1 : 2 ≤ nk1) (h2 : 1 ≤ nk2)
    (hx : Increasing x nk1) (hg : Increasing g nk2) (hlo : x 0 ≤ g 0)
    (hhi : g (nk2 - 1) ≤ x (nk1 - 1)) :
    ∃ r, linearVertical nk1 nk2 x g d = .ok r ∧ r.length = nk2 ∧
      ∀ k, k < nk2 → ∃ z, r[k]? = some z ∧ IsPiecewiseLinear x d nk1 (g k) z := by
  have hin : ∀ k, k < nk2 → x 0 ≤ g k ∧ g k ≤ x (nk1 - 1) := by
    intro k hk
    exact ⟨le_trans hlo (hg.nonDecreasing 0 k (by omega) hk),
      le_trans (hg.nonDecreasing k (nk2 - 1) (by omega) (by omega)) hhi⟩
  have hall : ∀ k, ∃ z, k < nk2 → linearAt nk1 x d (g k) = .ok z ∧ IsPiecewiseLinear x d nk1 (g k) z := by
    intro k
    by_cases hk : k < nk2
    · obtain ⟨j, z, a, b, c, e, f⟩ := linearAt_spec (d := d) hx h1 (hin k hk).1 (hin k hk).2
      exact ⟨z, fun _ => ⟨a, j, b, c, e, f⟩⟩
    · exact ⟨0, fun h => absurd h hk⟩
  choose h hh using hall
  refine ⟨(List.range nk2).map h, ?_, by simp, ?_⟩
  · unfold linearVertical
    rw [(increasing_iff x nk1).2 hx, (increasing_iff g nk2).2 hg]
    simp only [Bool.false_eq_true, if_false]
    rw [if_neg (not_lt.2 hlo), if_neg (not_lt.2 hhi)]
    exact mapM_ok nk2 _ h (fun k hk => (hh k hk).1)
  · intro k hk
    exact ⟨h k, by simp [hk], (hh k hk).2⟩

/-- Target levels outside the source levels are refused. -/
theorem C24_refuses (nk1 nk2 : Nat) (x g d : Nat → K) (hx : Increasing x nk1) (hg : Increasing g nk2)
    (ho : g 0 < x 0 ∨ x (nk1 - 1) < g (nk2 - 1)) :
    linearVertical nk1 nk2 x g d = .error .outside := by
  unfold linearVertical
  rw [(increasing_iff x nk1).2 hx, (increasing_iff g nk2).2 hg]
  simp only [Bool.false_eq_true, if_false]
  by_cases h : x 0 > g 0
  · rw [if_pos h]
  · rw [if_neg h]
    rcases ho with h' | h'
    · exact absurd h' h
    · rw [if_pos h']

/-! ### Consequences: bounded, exact at levels, exact for affine data, monotone -/

theorem lineAt_between {x0 y0 x1 y1 v : K} (hx : x0 < x1) (h0 : x0 ≤ v) (h1 : v ≤ x1) :
    Between y0 y1 (lineAt x0 y0 x1 y1 v) := by
  unfold lineAt Between
  have hp : 0 < x1 - x0 := by linarith
  have w0 : 0 ≤ (v - x0) / (x1 - x0) := div_nonneg (by linarith) (le_of_lt hp)
  have w1 : (v - x0) / (x1 - x0) ≤ 1 := (div_le_one hp).2 (by linarith)
  generalize (v - x0) / (x1 - x0) = w at *
  rcases le_total y0 y1 with h | h
  · left
    constructor
    · nlinarith
    · nlinarith
  · right
    constructor
    · nlinarith
    · nlinarith

/-- C24. Each output value lies between the two data values of enclosing levels. -/
theorem C24_bounded {x d : Nat → K} {n : Nat} {v z : K} (hx : Increasing x n)
    (h : IsPiecewiseLinear x d n v z) :
    ∃ k, k + 1 < n ∧ x k ≤ v ∧ v ≤ x (k + 1) ∧ Between (d k) (d (k + 1)) z := by
  obtain ⟨k, k1, k2, k3, rfl⟩ := h
  exact ⟨k, k1, k2, k3, lineAt_between (hx k (k + 1) (by omega) k1) k2 k3⟩

/-- C24. At a source level the output is the data value of that level. -/
theorem C24_at_level {x d : Nat → K} {n : Nat} {z : K} (hx : Increasing x n) (j : Nat) (hj : j < n)
    (h : IsPiecewiseLinear x d n (x j) z) : z = d j := by
  obtain ⟨k, k1, k2, k3, rfl⟩ := h
  have hlt := hx k (k + 1) (by omega) k1
  have hne : x (k + 1) - x k ≠ 0 := by
    intro e; linarith
  have hjk : j = k ∨ j = k + 1 := by
    rcases Nat.lt_trichotomy j k with h | h | h
    · exact absurd (hx j k h (by omega)) (not_lt.2 k2)
    · exact Or.inl h
    · rcases Nat.lt_or_ge (k + 1) j with h' | h'
      · exact absurd (hx (k + 1) j h' hj) (not_lt.2 k3)
      · right; omega
  rcases hjk with rfl | rfl
  · unfold lineAt; simp
  · unfold lineAt
    rw [div_self hne]; ring

/-- C24. Affine profiles are reproduced. -/
theorem C24_affine {x d : Nat → K} {n : Nat} {v z p q : K} (hx : Increasing x n)
    (hd : ∀ k, k < n → d k = p * x k + q) (h : IsPiecewiseLinear x d n v z) : z = p * v + q := by
  obtain ⟨k, k1, k2, k3, rfl⟩ := h
  have hlt := hx k (k + 1) (by omega) k1
  have hne : x (k + 1) - x k ≠ 0 := by
    intro e; linarith
  unfold lineAt
  rw [hd k (by omega), hd (k + 1) k1]
  field_simp
  ring

/-- C24. Non-decreasing profiles give non-decreasing output. -/
theorem C24_monotone {x d : Nat → K} {n : Nat} {v v' z z' : K} (hx : Increasing x n)
    (hd : NonDecreasing d n) (hv : v ≤ v') (h : IsPiecewiseLinear x d n v z)
    (h' : IsPiecewiseLinear x d n v' z') : z ≤ z' := by
  obtain ⟨k, k1, k2, k3, rfl⟩ := h
  obtain ⟨j, j1, j2, j3, rfl⟩ := h'
  have hk := lineAt_between (y0 := d k) (y1 := d (k + 1)) (hx k (k + 1) (by omega) k1) k2 k3
  have hj := lineAt_between (y0 := d j) (y1 := d (j + 1)) (hx j (j + 1) (by omega) j1) j2 j3
  have dk := hd k (k + 1) (by omega) k1
  have dj := hd j (j + 1) (by omega) j1
  have hk' : lineAt (x k) (d k) (x (k + 1)) (d (k + 1)) v ≤ d (k + 1) := by
    rcases hk with h | h <;> linarith [h.1, h.2]
  have hj' : d j ≤ lineAt (x j) (d j) (x (j + 1)) (d (j + 1)) v' := by
    rcases hj with h | h <;> linarith [h.1, h.2]
  rcases Nat.lt_trichotomy k j with hlt | heq | hgt
  · have := hd (k + 1) j (by omega) (by omega)
    linarith
  · subst heq
    unfold lineAt
    have hp : 0 < x (k + 1) - x k := by linarith [hx k (k + 1) (by omega) k1]
    have : (v - x k) / (x (k + 1) - x k) ≤ (v' - x k) / (x (k + 1) - x k) :=
      (div_le_div_iff_of_pos_right hp).2 (by linarith)
    nlinarith
  · -- then all of v, v', the levels between are equal
    have e1 : x (j + 1) ≤ x k := hx.nonDecreasing (j + 1) k (by omega) (by omega)
    have ev : v = x k := by linarith
    have ev' : v' = x k := by linarith
    rw [ev, ev']
    have ejk : x (j + 1) = x k := by linarith
    have hjk : j + 1 = k := by
      rcases Nat.lt_or_ge (j + 1) k with h | h
      · exact absurd (hx (j + 1) k h (by omega)) (by rw [ejk]; exact lt_irrefl _)
      · omega
    subst hjk
    have a1 := C24_at_level hx (j + 1) (by omega) ⟨j, j1, by linarith, le_refl _, rfl⟩ (d := d)
    have a2 := C24_at_level hx (j + 1) (by omega) ⟨j + 1, k1, le_refl _, by linarith, rfl⟩ (d := d)
    rw [a1, a2]

/-! ### do_vertical_interp -/

theorem takeWhile_range_spec (p : Nat → Bool) (n : Nat)
    (hp : ∀ i j, i ≤ j → j < n → p j = true → p i = true) :
    ∀ k, k < n → (k < ((List.range n).takeWhile p).length ↔ p k = true) := by
  intro k hk
  constructor
  · intro h
    have h1 := List.all_eq_true.1 (List.all_takeWhile (l := List.range n) (p := p)) _ (List.getElem_mem h)
    have h2 : ((List.range n).takeWhile p)[k] = k := by
      have hpre := List.takeWhile_prefix (l := List.range n) p
      rw [hpre.getElem h]
      simp
    rwa [h2] at h1
  · intro h
    by_contra hcon
    rw [not_lt] at hcon
    have hlt : ((List.range n).takeWhile p).length < n := by omega
    have hnot : p ((List.range n).takeWhile p).length = false := by
      have hl : ((List.range n).takeWhile p).length < (List.range n).length := by simpa using hlt
      have := List.takeWhile_append_dropWhile (p := p) (l := List.range n)
      cases hd : (List.range n).dropWhile p with
      | nil =>
        rw [hd, List.append_nil] at this
        rw [this] at hl
        omega
      | cons a l =>
        have ha : p a = false := by
          have := List.head?_dropWhile_not p (List.range n)
          rw [hd] at this
          simpa using this
        have hga : (List.range n)[((List.range n).takeWhile p).length]? = some a := by
          conv => lhs; arg 1; rw [← this]
          rw [List.getElem?_append_right (Nat.le_refl _), hd]
          simp
        rw [List.getElem?_range (by omega)] at hga
        rw [Option.some.inj hga]; exact ha
    have := hp _ k hcon hk h
    rw [this] at hnot
    cases hnot

omit [IsStrictOrderedRing K] in
theorem kstart_iff {x g : Nat → K} {nk2 : Nat} (hg : Increasing g nk2) (k : Nat) (hk : k < nk2) :
    k < kstart x g nk2 ↔ g k < x 0 := by
  unfold kstart
  rw [takeWhile_range_spec _ _ _ k hk]
  · simp
  · intro i j hij hj h
    simp only [decide_eq_true_eq] at h ⊢
    exact lt_of_le_of_lt (hg.nonDecreasing i j hij hj) h

omit [IsStrictOrderedRing K] in
theorem kstart_le (x g : Nat → K) (nk2 : Nat) : kstart x g nk2 ≤ nk2 := by
  unfold kstart
  have := (List.takeWhile_prefix (l := List.range nk2) fun k => decide (g k < x 0)).length_le
  simpa using this

omit [IsStrictOrderedRing K] in
theorem kend_iff {x g : Nat → K} {nk1 : Nat} : ∀ (nk2 : Nat), Increasing g nk2 → ∀ (k : Nat), k < nk2 →
    (k < kendSucc x nk1 g nk2 ↔ g k ≤ x (nk1 - 1)) := by
  intro nk2
  induction nk2 with
  | zero => intro _ k hk; omega
  | succ n ih =>
    intro hg k hk
    rw [kendSucc]
    by_cases h : g n ≤ x (nk1 - 1)
    · rw [if_pos h]
      constructor
      · intro _; exact le_trans (hg.nonDecreasing k n (by omega) (by omega)) h
      · intro _; exact hk
    · rw [if_neg h]
      rcases Nat.lt_or_ge k n with hkn | hkn
      · exact ih (fun i j hij hj => hg i j hij (by omega)) k hkn
      · have : k = n := by omega
        subst this
        constructor
        · intro hlt
          have : ∀ m, kendSucc x nk1 g m ≤ m := by
            intro m
            induction m with
            | zero => exact Nat.le_refl _
            | succ m ihm => rw [kendSucc]; split <;> omega
          have := this k
          omega
        · intro h'; exact absurd h' h

omit [IsStrictOrderedRing K] in
theorem kend_le (x g : Nat → K) (nk1 : Nat) : ∀ m, kendSucc x nk1 g m ≤ m := by
  intro m
  induction m with
  | zero => exact Nat.le_refl _
  | succ m ihm => rw [kendSucc]; split <;> omega

/-- C24 as used by fregrid: target levels above the source levels get the value of the first source level,
target levels below them that of the last, and those inside are interpolated linearly; provided that
there is a target level inside. Missing from the full statement: no target level inside, see
`C24_none_inside_wrong` and `C24_all_below_oob`. -/
theorem C24_clamp_partial (nk1 nk2 : Nat) (x g d : Nat → K) (eps : K) (h1 : 2 ≤ nk1)
    (hx : Increasing x nk1) (hg : Increasing g nk2) (hneed : needInterp nk1 nk2 x g eps = true)
    (j : Nat) (hj : j < nk2) (hj1 : x 0 ≤ g j) (hj2 : g j ≤ x (nk1 - 1)) :
    ∃ r, doVertical nk1 nk2 x g d eps = .ok r ∧ r.length = nk2 ∧ ∀ k, k < nk2 →
      ∃ z, r[k]? = some z ∧ (g k < x 0 → z = d 0) ∧ (x (nk1 - 1) < g k → z = d (nk1 - 1)) ∧
        (x 0 ≤ g k → g k ≤ x (nk1 - 1) → IsPiecewiseLinear x d nk1 (g k) z) := by
  have hks : ¬ j < kstart x g nk2 := by rw [kstart_iff hg j hj]; exact not_lt.2 hj1
  have hke : j < kendSucc x nk1 g nk2 := (kend_iff nk2 hg j hj).2 hj2
  have hkel := kend_le x g nk1 nk2
  have hkn : kstart x g nk2 < nk2 := by omega
  have hkepos : kendSucc x nk1 g nk2 - 1 < nk2 := by omega
  have hgs : Increasing (fun k => g (kstart x g nk2 + k)) (kendSucc x nk1 g nk2 - kstart x g nk2) :=
    fun a b hab hb => hg _ _ (by omega) (by omega)
  have e1 : x 0 ≤ g (kstart x g nk2) :=
    not_lt.1 (fun h => absurd ((kstart_iff hg _ hkn).2 h) (lt_irrefl _))
  have e2 : g (kendSucc x nk1 g nk2 - 1) ≤ x (nk1 - 1) :=
    (kend_iff nk2 hg _ hkepos).1 (by omega)
  obtain ⟨r, hr, hrl, hrv⟩ := C24_interp nk1 (kendSucc x nk1 g nk2 - kstart x g nk2) x
    (fun k => g (kstart x g nk2 + k)) d h1 (by omega) hx hgs (by simpa using e1) (by
      have : kstart x g nk2 + (kendSucc x nk1 g nk2 - kstart x g nk2 - 1) = kendSucc x nk1 g nk2 - 1 := by
        omega
      rw [this]; exact e2)
  unfold doVertical
  rw [hneed]
  simp only [Bool.true_eq_false, if_false]
  rw [if_neg (by omega), if_neg (by omega), hr]
  refine ⟨_, rfl, by simp, ?_⟩
  intro k hk
  refine ⟨_, by rw [List.getElem?_map, List.getElem?_range hk]; rfl, ?_, ?_, ?_⟩
  · intro hlt
    have hk1 := (kstart_iff hg k hk).2 hlt
    beta_reduce
    rw [if_neg (by omega), if_neg (by omega), if_pos hk1]
    rfl
  · intro hgt
    have hk1 : ¬ k < kendSucc x nk1 g nk2 := by
      rw [kend_iff nk2 hg k hk]; exact not_le.2 hgt
    beta_reduce
    rw [if_neg (by omega), if_pos (by omega)]
    rfl
  · intro hlo hhi
    have hk1 : ¬ k < kstart x g nk2 := by rw [kstart_iff hg k hk]; exact not_lt.2 hlo
    have hk2 := (kend_iff (nk1 := nk1) (x := x) nk2 hg k hk).2 hhi
    beta_reduce
    rw [if_pos (by omega)]
    obtain ⟨z, hz, hzp⟩ := hrv (k - kstart x g nk2) (by omega)
    have hkk : kstart x g nk2 + (k - kstart x g nk2) = k := by omega
    rw [hkk] at hzp
    rw [List.getD_eq_getElem?_getD, hz]
    exact hzp

/-- With the same levels on both sides (up to the tolerance) the data are left as they are. -/
theorem C24_same_levels (n : Nat) (x g d : Nat → K) (eps : K) (h : ∀ k, k < n → |g k - x k| ≤ eps) :
    doVertical n n x g d eps = .ok ((List.range n).map d) := by
  unfold doVertical
  rw [if_pos]
  unfold needInterp
  simp only [decide_true, Bool.true_and, Bool.not_eq_false', List.all_eq_true, List.mem_range,
    decide_eq_true_eq]
  exact h

/-! ### Concrete cases -/

def exVLev : Nat → ℚ := fun k => [10, 20, 40].getD k 0
def exDat : Nat → ℚ := fun k => [1, 2, 6].getD k 0

example : Increasing exVLev 3 := by rw [← increasing_iff]; decide +kernel
example : doVertical 3 4 exVLev (fun k => [5, 15, 30, 50].getD k 0) exDat (1 / 10) = .ok [1, 3 / 2, 4, 6] := by
  decide +kernel

/-- No target level is inside: the first target level, above all source levels, gets the value of the
deepest source level (6) instead of that of the first (1). -/
theorem C24_none_inside_wrong :
    doVertical 3 2 exVLev (fun k => [5, 50].getD k 0) exDat (1 / 10) = .ok [6, 6] := by
  decide +kernel

/-- All target levels below the source levels: the array is written before its beginning. All above:
levels are read behind the end. -/
theorem C24_all_below_oob :
    doVertical 3 2 exVLev (fun k => [50, 60].getD k 0) exDat (1 / 10) = .error .oob ∧
    doVertical 3 2 exVLev (fun k => [1, 2].getD k 0) exDat (1 / 10) = .error .oob := by
  decide +kernel

end Verif
