import Verif.Lemmas.Spline
import Mathlib.Tactic.Set
/-
Helper lemmas for `cubic_spline`: the two passes solve the tridiagonal system.
-/
namespace Verif.Interp
open Spec

variable {K : Type} [Field K] [LinearOrder K] [IsStrictOrderedRing K]

/-- The cubic of `cubic_spline` on interval `j`, with second derivatives `M`. -/
def csPiece (x y M : Nat → K) (j : Nat) (v : K) : K :=
  (x (j + 1) - v) / (x (j + 1) - x j) * y j + (v - x j) / (x (j + 1) - x j) * y (j + 1) +
    ((((x (j + 1) - v) / (x (j + 1) - x j)) ^ 3 - (x (j + 1) - v) / (x (j + 1) - x j)) * M j +
      (((v - x j) / (x (j + 1) - x j)) ^ 3 - (v - x j) / (x (j + 1) - x j)) * M (j + 1)) *
      (x (j + 1) - x j) ^ 2 / 6

section
variable {n : Nat} {x y : Nat → K} (hx : Increasing x n)
include hx

theorem step_pos (j : Nat) (hj : j + 1 < n) : 0 < x (j + 1) - x j := by
  linarith [hx j (j + 1) (by omega) hj]

theorem sig_mem (i : Nat) (hi : i + 2 < n) :
    0 < (x (i + 1) - x i) / (x (i + 2) - x i) ∧ (x (i + 1) - x i) / (x (i + 2) - x i) < 1 := by
  have h1 := step_pos hx i (by omega)
  have h2 := step_pos hx (i + 1) hi
  have h3 : 0 < x (i + 2) - x i := by
    have : x (i + 1 + 1) = x (i + 2) := rfl
    linarith
  constructor
  · exact div_pos h1 h3
  · rw [div_lt_one h3]
    have : x (i + 1 + 1) = x (i + 2) := rfl
    linarith

/-- The multipliers of the first pass are between -1 and 0, so no denominator vanishes. -/
theorem csForward_mem (yp1 : EndSlope K) : ∀ i, i + 1 < n →
    -1 < (csForward x y yp1 i).1 ∧ (csForward x y yp1 i).1 ≤ 0 := by
  intro i
  induction i with
  | zero =>
    intro _
    cases yp1 with
    | none => simp [csForward]
    | some s =>
      simp only [csForward]
      constructor <;> norm_num
  | succ i ih =>
    intro hi
    obtain ⟨l, u⟩ := ih (by omega)
    obtain ⟨s0, s1⟩ := sig_mem hx i hi
    simp only [csForward]
    generalize (x (i + 1) - x i) / (x (i + 2) - x i) = sig at *
    generalize (csForward x y yp1 i).1 = f at *
    have hp : 1 < sig * f + 2 := by nlinarith
    constructor
    · rw [lt_div_iff₀ (by linarith)]; nlinarith
    · exact div_nonpos_of_nonpos_of_nonneg (by linarith) (by linarith)

theorem csForward_den (yp1 : EndSlope K) (i : Nat) (hi : i + 2 < n) :
    (x (i + 1) - x i) / (x (i + 2) - x i) * (csForward x y yp1 i).1 + 2 ≠ 0 := by
  obtain ⟨l, u⟩ := csForward_mem (y := y) hx yp1 i (by omega)
  obtain ⟨s0, s1⟩ := sig_mem hx i hi
  apply ne_of_gt
  nlinarith

omit [LinearOrder K] [IsStrictOrderedRing K] hx in
theorem csY2_last [LinearOrder K] (yp1 ypn : EndSlope K) :
    csY2 n x y yp1 ypn (n - 1) = csLast n x y yp1 ypn := by
  unfold csY2
  rw [Nat.sub_self]
  rfl

omit [LinearOrder K] [IsStrictOrderedRing K] hx in
theorem csY2_step [LinearOrder K] (yp1 ypn : EndSlope K) (k : Nat) (hk : k + 1 < n) :
    csY2 n x y yp1 ypn k = (csForward x y yp1 k).1 * csY2 n x y yp1 ypn (k + 1) +
      (csForward x y yp1 k).2 := by
  unfold csY2
  have e1 : n - 1 - k = (n - 1 - (k + 1)) + 1 := by omega
  rw [e1, csBack]
  have e2 : n - 2 - (n - 1 - (k + 1)) = k := by omega
  rw [e2]

/-- Equations of the inner nodes. -/
theorem csY2_inner (yp1 ypn : EndSlope K) (i : Nat) (hi : i + 2 < n) :
    (x (i + 1) - x i) * csY2 n x y yp1 ypn i + 2 * (x (i + 2) - x i) * csY2 n x y yp1 ypn (i + 1) +
      (x (i + 2) - x (i + 1)) * csY2 n x y yp1 ypn (i + 2) =
      6 * ((y (i + 2) - y (i + 1)) / (x (i + 2) - x (i + 1)) - (y (i + 1) - y i) / (x (i + 1) - x i)) := by
  have e0 := csY2_step (n := n) (x := x) (y := y) yp1 ypn i (by omega)
  have e1 := csY2_step (n := n) (x := x) (y := y) yp1 ypn (i + 1) hi
  have hp := csForward_den (y := y) hx yp1 i hi
  have h3 : x (i + 2) - x i ≠ 0 := by
    have h1 := step_pos hx i (by omega)
    have h2 := step_pos hx (i + 1) hi
    have : x (i + 1 + 1) = x (i + 2) := rfl
    intro e
    linarith
  have ei : i + 1 + 1 = i + 2 := rfl
  rw [ei] at e1
  simp only [csForward] at e1
  generalize (y (i + 2) - y (i + 1)) / (x (i + 2) - x (i + 1)) - (y (i + 1) - y i) / (x (i + 1) - x i) = q
    at *
  generalize hM0 : csY2 n x y yp1 ypn i = M0 at *
  generalize hM1 : csY2 n x y yp1 ypn (i + 1) = M1 at *
  generalize hM2 : csY2 n x y yp1 ypn (i + 2) = M2 at *
  generalize hf : csForward x y yp1 i = f at *
  obtain ⟨f1, f2⟩ := f
  simp only at e0 e1 hp
  set sig := (x (i + 1) - x i) / (x (i + 2) - x i) with hsig
  have e1' : (sig * f1 + 2) * M1 = (sig - 1) * M2 + (6 * q / (x (i + 2) - x i) - sig * f2) := by
    rw [e1]; field_simp
  have hs1 : sig * (x (i + 2) - x i) = x (i + 1) - x i := by rw [hsig]; field_simp
  have hq : 6 * q / (x (i + 2) - x i) * (x (i + 2) - x i) = 6 * q := by field_simp
  have : (x (i + 2) - x i) * (sig * M0 + 2 * M1 + (1 - sig) * M2) =
      (x (i + 2) - x i) * (6 * q / (x (i + 2) - x i)) := by
    rw [e0]
    congr 1
    linear_combination e1'
  linear_combination this + hq - (M0 - M2) * hs1

end

omit [LinearOrder K] [IsStrictOrderedRing K] in
theorem csPiece_left {x y M : Nat → K} (j : Nat) (h : x (j + 1) - x j ≠ 0) :
    csPiece x y M j (x j) = y j := by
  unfold csPiece
  rw [div_self h]
  simp

omit [LinearOrder K] [IsStrictOrderedRing K] in
theorem csPiece_right {x y M : Nat → K} (j : Nat) (h : x (j + 1) - x j ≠ 0) :
    csPiece x y M j (x (j + 1)) = y (j + 1) := by
  unfold csPiece
  rw [div_self h]
  simp

omit [LinearOrder K] [IsStrictOrderedRing K] in
/-- Expansion about the left node. -/
theorem csPiece_expand_left {x y M : Nat → K} (j : Nat) (h : x (j + 1) - x j ≠ 0) (h6 : (6 : K) ≠ 0) (v : K) :
    csPiece x y M j v = y j +
      ((y (j + 1) - y j) / (x (j + 1) - x j) - (x (j + 1) - x j) * (2 * M j + M (j + 1)) / 6) * (v - x j) +
      M j * 3 / 6 * (v - x j) ^ 2 + (M (j + 1) - M j) / (6 * (x (j + 1) - x j)) * (v - x j) ^ 3 := by
  unfold csPiece
  have hv : x (j + 1) - v = (x (j + 1) - x j) - (v - x j) := by ring
  rw [hv]
  generalize x (j + 1) - x j = H at *
  generalize v - x j = s
  field_simp
  ring

omit [LinearOrder K] [IsStrictOrderedRing K] in
/-- Expansion about the right node. -/
theorem csPiece_expand_right {x y M : Nat → K} (j : Nat) (h : x (j + 1) - x j ≠ 0) (h6 : (6 : K) ≠ 0)
    (v : K) :
    csPiece x y M j v = y (j + 1) +
      ((y (j + 1) - y j) / (x (j + 1) - x j) + (x (j + 1) - x j) * (M j + 2 * M (j + 1)) / 6) *
        (v - x (j + 1)) +
      M (j + 1) * 3 / 6 * (v - x (j + 1)) ^ 2 +
      (M (j + 1) - M j) / (6 * (x (j + 1) - x j)) * (v - x (j + 1)) ^ 3 := by
  unfold csPiece
  have hv : v - x j = (x (j + 1) - x j) + (v - x (j + 1)) := by ring
  have hv' : x (j + 1) - v = - (v - x (j + 1)) := by ring
  rw [hv, hv']
  generalize x (j + 1) - x j = H at *
  generalize v - x (j + 1) = s
  field_simp
  ring

end Verif.Interp
