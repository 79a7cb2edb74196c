import Verif.Lemmas.GreatCircleArea
import Mathlib.Algebra.BigOperators.Group.List.Basic
import Mathlib.Data.List.GetD
/-
Lemmas for areas on the sphere: sums over the vertices of a cell.
-/
namespace Verif.GcArea
open Verif.Vec3 Verif.Bilinear Verif.Spec.GcArea

noncomputable section

/-- Sum over three consecutive points. -/
def turns (f : V ℝ → V ℝ → V ℝ → ℝ) : List (V ℝ) → ℝ
  | x :: y :: z :: l => f y z x + turns f (y :: z :: l)
  | _ => 0

theorem turns_cons (f : V ℝ → V ℝ → V ℝ → ℝ) (x y z : V ℝ) (l : List (V ℝ)) : turns f (x :: y :: z :: l) = f y z x + turns f (y :: z :: l) := rfl

theorem turns_append (f : V ℝ → V ℝ → V ℝ → ℝ) (p q : V ℝ) (ys : List (V ℝ)) : ∀ xs : List (V ℝ),
    turns f (xs ++ p :: q :: ys) = turns f (xs ++ [p, q]) + turns f (p :: q :: ys)
  | [] => by simp [turns]
  | [x] => by simp [turns]
  | [x, y] => by
    simp only [List.cons_append, List.nil_append, turns]
    ring
  | x :: y :: z :: l => by
    have ih := turns_append f p q ys (y :: z :: l)
    simp only [List.cons_append] at ih ⊢
    rw [turns_cons, turns_cons, ih]
    ring

theorem turns_sum (f : V ℝ → V ℝ → V ℝ → ℝ) : ∀ m : List (V ℝ),
    turns f m = ((List.range (m.length - 2)).map fun i => f (vtx m (i + 1)) (vtx m (i + 2)) (vtx m i)).sum
  | [] => by simp [turns]
  | [x] => by simp [turns]
  | [x, y] => by simp [turns]
  | x :: y :: z :: l => by
    rw [turns_cons, turns_sum f (y :: z :: l)]
    have e : (x :: y :: z :: l).length - 2 = ((y :: z :: l).length - 2) + 1 := by simp
    rw [e, List.range_succ_eq_map, List.map_cons, List.sum_cons, List.map_map]
    congr 1

theorem foldl_sum (g : Nat → ℝ) : ∀ (l : List Nat) (s : ℝ), l.foldl (fun s i => s + g i) s = s + (l.map g).sum
  | [], s => by simp
  | a :: l, s => by
    simp only [List.foldl_cons, List.map_cons, List.sum_cons]
    rw [foldl_sum g l, add_assoc]

/-- The sum of the angles goes once round. -/
theorem angleSum_turns (eps : ℝ) {a b : V ℝ} {l : List (V ℝ)} : angleSum eps (a :: b :: l) = turns (sphericalAngle eps) (a :: b :: l ++ [a, b]) := by
  unfold angleSum
  rw [foldl_sum, zero_add, turns_sum]
  have e : (a :: b :: l ++ [a, b]).length - 2 = (a :: b :: l).length := by simp
  rw [e]
  congr 1
  refine List.map_congr_left fun i hi => ?_
  have hi' : i < (a :: b :: l).length := List.mem_range.1 hi
  generalize hm : a :: b :: l = m at hi' ⊢
  have h0 : vtx (m ++ [a, b]) i = vtx m i := by
    unfold vtx
    rw [List.getD_append _ _ _ _ hi']
  have hn : 2 ≤ m.length := by rw [← hm]; simp
  have key : ∀ k, i < k → k ≤ i + 2 → vtx (m ++ [a, b]) k = vtx m (k % m.length) := by
    intro k _ hk
    unfold vtx
    by_cases hlt : k < m.length
    · rw [List.getD_append _ _ _ _ hlt, Nat.mod_eq_of_lt hlt]
    · rw [List.getD_append_right _ _ _ _ (by omega)]
      have : k = m.length ∨ k = m.length + 1 := by omega
      rcases this with rfl | rfl
      · simp [← hm]
      · rw [Nat.add_mod_left, Nat.mod_eq_of_lt (by omega)]
        simp [← hm]
  rw [h0, key (i + 1) (by omega) (by omega), key (i + 2) (by omega) (by omega)]

theorem angleSum_three (eps : ℝ) (a b c : V ℝ) :
    angleSum eps [a, b, c] = sphericalAngle eps b c a + (sphericalAngle eps c a b + sphericalAngle eps a b c) := by
  rw [angleSum_turns]
  simp [turns]

theorem angleSum_four (eps : ℝ) (a b c d : V ℝ) :
    angleSum eps [a, b, c, d] = sphericalAngle eps b c a + (sphericalAngle eps c d b + (sphericalAngle eps d a c + sphericalAngle eps a b d)) := by
  rw [angleSum_turns]
  simp [turns]

/-- Cutting a cell along the diagonal from `a` to `b`: only the angles at the ends of the diagonal change. -/
theorem angleSum_cut (eps : ℝ) (a b m0 t0 ml tl : V ℝ) (m t A B : List (V ℝ)) (hA : a :: m0 :: m = A ++ [ml]) (hB : b :: t0 :: t = B ++ [tl])
    (h1 : sphericalAngle eps b t0 ml = sphericalAngle eps b t0 a + sphericalAngle eps b a ml)
    (h2 : sphericalAngle eps a m0 tl = sphericalAngle eps a m0 b + sphericalAngle eps a b tl) :
    angleSum eps (a :: m0 :: m ++ b :: t0 :: t) = angleSum eps (a :: m0 :: m ++ [b]) + angleSum eps (a :: b :: t0 :: t) := by
  have e1 : angleSum eps (a :: m0 :: m ++ b :: t0 :: t)
      = turns (sphericalAngle eps) (A ++ [ml, b]) + (sphericalAngle eps b t0 ml + (turns (sphericalAngle eps) (B ++ [tl, a]) + sphericalAngle eps a m0 tl)) := by
    have h : angleSum eps (a :: m0 :: m ++ b :: t0 :: t) = turns (sphericalAngle eps) (a :: m0 :: (m ++ b :: t0 :: t) ++ [a, m0]) := angleSum_turns eps
    rw [h, show a :: m0 :: (m ++ b :: t0 :: t) ++ [a, m0] = A ++ ml :: b :: (t0 :: t ++ [a, m0]) by
      have : a :: m0 :: (m ++ b :: t0 :: t) ++ [a, m0] = (a :: m0 :: m) ++ b :: t0 :: (t ++ [a, m0]) := by simp
      rw [this, hA]; simp]
    rw [turns_append, List.cons_append, turns_cons, show b :: t0 :: (t ++ [a, m0]) = B ++ tl :: a :: [m0] by
      have : b :: t0 :: (t ++ [a, m0]) = (b :: t0 :: t) ++ [a, m0] := by simp
      rw [this, hB]; simp]
    rw [turns_append (sphericalAngle eps) tl a [m0] B, turns_cons]
    simp [turns]
  have e2 : angleSum eps (a :: m0 :: m ++ [b]) = turns (sphericalAngle eps) (A ++ [ml, b]) + (sphericalAngle eps b a ml + sphericalAngle eps a m0 b) := by
    have h : angleSum eps (a :: m0 :: m ++ [b]) = turns (sphericalAngle eps) (a :: m0 :: (m ++ [b]) ++ [a, m0]) := angleSum_turns eps
    rw [h, show a :: m0 :: (m ++ [b]) ++ [a, m0] = A ++ ml :: b :: [a, m0] by
      have : a :: m0 :: (m ++ [b]) ++ [a, m0] = (a :: m0 :: m) ++ [b, a, m0] := by simp
      rw [this, hA]; simp]
    rw [turns_append, turns_cons, turns_cons]
    simp [turns]
  have e3 : angleSum eps (a :: b :: t0 :: t) = sphericalAngle eps b t0 a + (turns (sphericalAngle eps) (B ++ [tl, a]) + sphericalAngle eps a b tl) := by
    rw [angleSum_turns, show a :: b :: t0 :: t ++ [a, b] = a :: b :: t0 :: (t ++ [a, b]) by simp, turns_cons, show b :: t0 :: (t ++ [a, b]) = B ++ tl :: a :: [b] by
      have : b :: t0 :: (t ++ [a, b]) = (b :: t0 :: t) ++ [a, b] := by simp
      rw [this, hB]; simp]
    rw [turns_append, turns_cons]
    simp [turns]
  rw [e1, e2, e3, h1, h2]
  ring

end

end Verif.GcArea
