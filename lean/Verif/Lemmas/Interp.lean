import Verif.Model.Interp
import Verif.Spec.Interp
import Mathlib.Tactic.Ring
import Mathlib.Tactic.Linarith
import Mathlib.Tactic.FieldSimp
import Mathlib.Tactic.Positivity
import Mathlib.Algebra.Order.Group.Abs
/-
Helper lemmas for one-dimensional interpolation.
-/
namespace Verif.Interp
open Spec

variable {K : Type} [Field K] [LinearOrder K]

theorem increasing_iff (a : Nat → K) (n : Nat) : notIncreasing a n = false ↔ Increasing a n := by
  unfold notIncreasing
  rw [List.any_eq_false]
  simp only [List.mem_range, decide_eq_true_eq, not_le]
  constructor
  · intro h i j hij hj
    induction j with
    | zero => omega
    | succ j ih =>
      have h1 := h j (by omega)
      rcases Nat.lt_or_ge i j with h2 | h2
      · exact lt_trans (ih h2 (by omega)) h1
      · have : i = j := by omega
        subst this; exact h1
  · intro h i hi
    exact h i (i + 1) (by omega) (by omega)

theorem nonDecreasing_iff (a : Nat → K) (n : Nat) :
    (List.range (n - 1)).any (fun i => decide (a (i + 1) < a i)) = false ↔ NonDecreasing a n := by
  rw [List.any_eq_false]
  simp only [List.mem_range, decide_eq_true_eq, not_lt]
  constructor
  · intro h i j hij hj
    induction j with
    | zero =>
      have : i = 0 := by omega
      subst this; exact le_refl _
    | succ j ih =>
      have h1 := h j (by omega)
      rcases Nat.lt_or_ge i (j + 1) with h2 | h2
      · exact le_trans (ih (by omega) (by omega)) h1
      · have : i = j + 1 := by omega
        subst this; exact le_refl _
  · intro h i hi
    exact h i (i + 1) (by omega) (by omega)

theorem _root_.Verif.Spec.Increasing.nonDecreasing {a : Nat → K} {n : Nat} (h : Increasing a n) : NonDecreasing a n := by
  intro i j hij hj
  rcases Nat.lt_or_ge i j with h2 | h2
  · exact le_of_lt (h i j h2 hj)
  · have : i = j := by omega
    subst this; exact le_refl _

/-- The loop finds the first interval that ends at or behind `v`. -/
theorem nearestLoop_spec (v : K) (a : Nat → K) (ia : Nat) : ∀ (fuel i : Nat), ia ≤ fuel + i →
    i + 1 < ia → (i = 0 ∨ a i < v) → v ≤ a (ia - 1) →
    ∃ k, i ≤ k ∧ k + 1 < ia ∧ (k = 0 ∨ a k < v) ∧ v ≤ a (k + 1) ∧
      nearestLoop v a ia fuel i = some (if a (k + 1) - v > v - a k then k else k + 1) := by
  intro fuel
  induction fuel with
  | zero => intro i h1 h2; omega
  | succ fuel ih =>
    intro i h1 h2 h3 h4
    rw [nearestLoop, if_neg (by omega)]
    by_cases hv : v ≤ a (i + 1)
    · rw [if_pos hv]
      exact ⟨i, Nat.le_refl _, h2, h3, hv, rfl⟩
    · rw [if_neg hv]
      have hne : i + 1 ≠ ia - 1 := by
        intro e
        rw [e] at hv
        exact hv h4
      obtain ⟨k, k1, k2, k3, k4, k5⟩ := ih (i + 1) (by omega) (by omega) (Or.inr (not_le.1 hv)) h4
      exact ⟨k, by omega, k2, k3, k4, k5⟩

/-- `nearest_index` for a value in the range of an array of at least two elements. -/
theorem nearestIndex_inside {v : K} {a : Nat → K} {ia : Nat} (hm : NonDecreasing a ia) (h2 : 2 ≤ ia)
    (h0 : a 0 ≤ v) (h1 : v ≤ a (ia - 1)) :
    ∃ k, k + 1 < ia ∧ (k = 0 ∨ a k < v) ∧ v ≤ a (k + 1) ∧
      nearestIndex v a ia = .ok (if a (k + 1) - v > v - a k then k else k + 1) := by
  obtain ⟨k, _, k2, k3, k4, k5⟩ := nearestLoop_spec v a ia ia 0 (by omega) (by omega) (Or.inl rfl) h1
  refine ⟨k, k2, k3, k4, ?_⟩
  unfold nearestIndex
  rw [(nonDecreasing_iff a ia).2 hm]
  simp only [Bool.false_eq_true, if_false]
  rw [if_neg (by omega), if_neg (not_lt.2 h0), if_neg (not_lt.2 h1), k5]

variable [IsStrictOrderedRing K]

theorem klo_spec {v : K} {a : Nat → K} {ia : Nat} (hm : Increasing a ia) (h2 : 2 ≤ ia)
    (h0 : a 0 ≤ v) (h1 : v ≤ a (ia - 1)) :
    ∃ k, klo v a ia = .ok k ∧ k + 1 < ia ∧ a k ≤ v ∧ v ≤ a (k + 1) ∧ (k = 0 ∨ a k < v) := by
  obtain ⟨k, k1, k2, k3, k4⟩ := nearestIndex_inside hm.nonDecreasing h2 h0 h1
  have hak : a k ≤ v := by
    rcases k2 with rfl | h
    · exact h0
    · exact le_of_lt h
  refine ⟨k, ?_, k1, hak, k3, k2⟩
  unfold klo
  rw [k4]
  by_cases hg : a (k + 1) - v > v - a k
  · simp only [if_pos hg]
    show Except.ok _ = _
    congr 1
    rcases k2 with h | h
    · subst h; split <;> rfl
    · rw [if_pos h]
  · simp only [if_neg hg]
    show Except.ok _ = _
    congr 1
    rw [if_neg (not_lt.2 k3), if_neg (by omega)]
    rfl

omit [LinearOrder K] [IsStrictOrderedRing K] in
theorem mapM_ok (n : Nat) (f : Nat → Except Fail K) (h : Nat → K) (hf : ∀ k, k < n → f k = .ok (h k)) :
    (List.range n).mapM f = .ok ((List.range n).map h) := by
  have : ∀ l : List Nat, (∀ k ∈ l, f k = .ok (h k)) → l.mapM f = .ok (l.map h) := by
    intro l
    induction l with
    | nil => intro _; rfl
    | cons a l ih =>
      intro hl
      rw [List.mapM_cons, hl a (by simp), ih (fun k hk => hl k (by simp [hk]))]
      rfl
  exact this _ (fun k hk => hf k (List.mem_range.1 hk))

theorem linearAt_spec {v : K} {x d : Nat → K} {nk1 : Nat} (hm : Increasing x nk1) (h2 : 2 ≤ nk1)
    (h0 : x 0 ≤ v) (h1 : v ≤ x (nk1 - 1)) :
    ∃ k z, linearAt nk1 x d v = .ok z ∧ k + 1 < nk1 ∧ x k ≤ v ∧ v ≤ x (k + 1) ∧
      z = lineAt (x k) (d k) (x (k + 1)) (d (k + 1)) v := by
  obtain ⟨k, k1, k2, k3, k4⟩ := nearestIndex_inside hm.nonDecreasing h2 h0 h1
  have hak : x k ≤ v := by
    rcases k2 with rfl | h
    · exact h0
    · exact le_of_lt h
  have hform : ∀ w : K, (1 - w) * d k + w * d (k + 1) = d k + w * (d (k + 1) - d k) := by
    intro w; ring
  unfold linearAt
  rw [k4]
  by_cases hg : x (k + 1) - v > v - x k
  · simp only [if_pos hg]
    rcases lt_or_eq_of_le hak with hlt | heq
    · refine ⟨k, _, ?_, k1, hak, k3, rfl⟩
      show (if x k < v then _ else _) = _
      rw [if_pos hlt, if_pos k1]
      show Except.ok _ = _
      rw [hform]; rfl
    · have hk0 : k = 0 := by
        rcases k2 with h | h
        · exact h
        · exact absurd h (by rw [heq]; exact lt_irrefl _)
      subst hk0
      refine ⟨0, d 0, ?_, k1, hak, k3, ?_⟩
      · show (if x 0 < v then _ else _) = _
        rw [if_neg (by rw [heq]; exact lt_irrefl _)]
        rfl
      · unfold lineAt; rw [heq]; simp
  · simp only [if_neg hg]
    refine ⟨k, _, ?_, k1, hak, k3, rfl⟩
    show (if x (k + 1) < v then _ else _) = _
    rw [if_neg (not_lt.2 k3), if_neg (by omega)]
    show Except.ok _ = _
    simp only [Nat.add_sub_cancel]
    rw [hform]; rfl

end Verif.Interp
