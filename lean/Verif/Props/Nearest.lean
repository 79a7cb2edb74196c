import Verif.Lemmas.Interp
import Mathlib.Data.Rat.Defs
import Mathlib.Algebra.Order.Ring.Rat
import Mathlib.Tactic.NormNum
/-
C23: nearest_index.
-/
namespace Verif
open Interp Spec

variable {K : Type} [Field K] [LinearOrder K] [IsStrictOrderedRing K]

/-- C23. For a non-decreasing array of at least two elements `nearest_index` returns an index of an element
nearest to the value, for every value. -/
theorem C23_nearest (v : K) (a : Nat → K) (n : Nat) (h2 : 2 ≤ n) (hm : NonDecreasing a n) :
    ∃ r, nearestIndex v a n = .ok r ∧ IsNearest v a n r := by
  by_cases h0 : v < a 0
  · refine ⟨0, ?_, by omega, ?_⟩
    · unfold nearestIndex
      rw [(nonDecreasing_iff a n).2 hm]
      simp only [Bool.false_eq_true, if_false]
      rw [if_neg (by omega), if_pos h0]
    · intro k hk
      have := hm 0 k (by omega) hk
      rw [abs_of_pos (by linarith), abs_of_pos (by linarith)]
      linarith
  rw [not_lt] at h0
  by_cases h1 : a (n - 1) < v
  · refine ⟨n - 1, ?_, by omega, ?_⟩
    · unfold nearestIndex
      rw [(nonDecreasing_iff a n).2 hm]
      simp only [Bool.false_eq_true, if_false]
      rw [if_neg (by omega), if_neg (not_lt.2 h0), if_pos h1]
    · intro k hk
      have := hm k (n - 1) (by omega) (by omega)
      rw [abs_of_neg (by linarith), abs_of_neg (by linarith)]
      linarith
  rw [not_lt] at h1
  obtain ⟨k, k1, k2, k3, k4⟩ := nearestIndex_inside hm h2 h0 h1
  refine ⟨_, k4, by split <;> omega, ?_⟩
  intro j hj
  have hak : a k ≤ v := by
    rcases k2 with rfl | h
    · exact h0
    · exact le_of_lt h
  have hlo : ∀ i, i ≤ k → a i ≤ a k := fun i hi => hm i k hi (by omega)
  have hhi : ∀ i, k + 1 ≤ i → i < n → a (k + 1) ≤ a i := fun i hi hin => hm (k + 1) i hi hin
  have hj' : v - a k ≤ |a j - v| ∨ a (k + 1) - v ≤ |a j - v| := by
    rcases Nat.lt_or_ge j (k + 1) with h | h
    · left
      have := hlo j (by omega)
      rw [abs_of_nonpos (by linarith)]
      linarith
    · right
      have := hhi j h hj
      rw [abs_of_nonneg (by linarith)]
      linarith
  by_cases hg : a (k + 1) - v > v - a k
  · rw [if_pos hg, abs_of_nonpos (by linarith)]
    rcases hj' with h | h <;> linarith
  · rw [if_neg hg, abs_of_nonneg (by linarith)]
    rcases hj' with h | h <;> linarith

/-- C23. An array with a descent is rejected. -/
theorem C23_rejects (v : K) (a : Nat → K) (n : Nat) (i : Nat) (hi : i + 1 < n) (hd : a (i + 1) < a i) :
    nearestIndex v a n = .error .notMonotonic := by
  unfold nearestIndex
  rw [if_pos]
  rw [List.any_eq_true]
  exact ⟨i, List.mem_range.2 (by omega), by simpa using hd⟩

/-- Values outside the range of the array give the nearer end. -/
theorem C23_ends (v : K) (a : Nat → K) (n : Nat) (hn : 1 ≤ n) (hm : NonDecreasing a n) :
    (v < a 0 → nearestIndex v a n = .ok 0) ∧ (a (n - 1) < v → nearestIndex v a n = .ok (n - 1)) := by
  constructor
  · intro h0
    unfold nearestIndex
    rw [(nonDecreasing_iff a n).2 hm]
    simp only [Bool.false_eq_true, if_false]
    rw [if_neg (by omega), if_pos h0]
  · intro h1
    have := hm 0 (n - 1) (by omega) (by omega)
    unfold nearestIndex
    rw [(nonDecreasing_iff a n).2 hm]
    simp only [Bool.false_eq_true, if_false]
    rw [if_neg (by omega), if_neg (not_lt.2 (by linarith)), if_pos h1]

/-- For an array of one element that equals the value the routine reads behind the array: the condition
that there are two elements in `C23_nearest` is needed. -/
theorem C23_one_element_oob (a : Nat → K) : nearestIndex (a 0) a 1 = .error .oob := by
  unfold nearestIndex
  simp [nearestLoop]

/-! ### Concrete cases -/

def exNodes : Nat → ℚ := fun k => [0, 1, 3, 3, 7].getD k 0

example : NonDecreasing exNodes 5 := by
  rw [← nonDecreasing_iff]; decide +kernel
example : nearestIndex (2 : ℚ) exNodes 5 = .ok 2 := by decide +kernel
example : nearestIndex (19 / 10 : ℚ) exNodes 5 = .ok 1 := by decide +kernel
example : nearestIndex (9 : ℚ) exNodes 5 = .ok 4 := by decide +kernel

end Verif
