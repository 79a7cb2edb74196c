import Verif.Model.Conserve
import Verif.Spec.Conserve
import Mathlib.Tactic.Ring
import Mathlib.Tactic.Linarith
import Mathlib.Tactic.FieldSimp
import Mathlib.Tactic.Positivity
import Mathlib.Algebra.BigOperators.Ring.List
/-
Helper lemmas for conservative interpolation.
-/
namespace Verif.Conserve
open Spec

section sums
variable {K α : Type} [Field K]

theorem total_nil (f : α → K) : total f [] = 0 := rfl
theorem total_cons (f : α → K) (a : α) (l : List α) : total f (a :: l) = f a + total f l := by
  simp [total]
theorem total_append (f : α → K) (l m : List α) : total f (l ++ m) = total f l + total f m := by
  simp [total]

theorem total_congr {f g : α → K} {l : List α} (h : ∀ a ∈ l, f a = g a) : total f l = total g l := by
  unfold total
  rw [List.map_congr_left h]

theorem total_add (f g : α → K) (l : List α) : total (fun a => f a + g a) l = total f l + total g l := by
  induction l with
  | nil => simp [total]
  | cons a l ih => rw [total_cons, total_cons, total_cons, ih]; ring

theorem total_mul (k : K) (f : α → K) (l : List α) : total (fun a => k * f a) l = k * total f l := by
  induction l with
  | nil => simp [total]
  | cons a l ih => rw [total_cons, total_cons, ih]; ring

theorem total_mul_right (k : K) (f : α → K) (l : List α) : total (fun a => f a * k) l = total f l * k := by
  induction l with
  | nil => simp [total]
  | cons a l ih => rw [total_cons, total_cons, ih]; ring

theorem total_zero (l : List α) : total (fun _ => (0 : K)) l = 0 := by
  induction l with
  | nil => rfl
  | cons a l ih => rw [total_cons, ih]; ring

/-- Sum over a filtered list as a sum with zeros. -/
theorem total_filter (p : α → Bool) (f : α → K) (l : List α) :
    total f (l.filter p) = total (fun a => if p a then f a else 0) l := by
  induction l with
  | nil => rfl
  | cons a l ih =>
    rw [List.filter_cons, total_cons]
    cases hp : p a
    · simp [ih]
    · simp [total_cons, ih]

/-- A sum over positions with one non-zero term. -/
theorem sum_range_single (n k : Nat) (hk : k < n) (f : Nat → K) :
    ((List.range n).map fun i => if i = k then f i else 0).sum = f k := by
  induction n with
  | zero => omega
  | succ n ih =>
    rw [List.range_succ, List.map_append, List.sum_append]
    simp only [List.map_cons, List.map_nil, List.sum_cons, List.sum_nil, add_zero]
    by_cases h : n = k
    · subst h
      rw [if_pos rfl]
      have : ((List.range n).map fun i => if i = n then f i else 0).sum = 0 := by
        have : (List.range n).map (fun i => if i = n then f i else 0) = (List.range n).map fun _ => 0 := by
          apply List.map_congr_left
          intro i hi
          rw [if_neg (by have := List.mem_range.1 hi; omega)]
        rw [this]
        exact total_zero (List.range n)
      rw [this, zero_add]
    · rw [if_neg h, add_zero]
      exact ih (by omega)

theorem sum_range_zero (n : Nat) : ((List.range n).map fun _ => (0 : K)).sum = 0 :=
  total_zero (List.range n)

/-- Summing over the grid the sums over the list entries of each cell gives the sum over the list. -/
theorem gridSum_bucket (nx ny : Nat) (l : List α) (px py : α → Nat) (f : α → K)
    (hl : ∀ a ∈ l, px a < nx ∧ py a < ny) :
    gridSum nx ny (fun i j => total f (l.filter fun a => decide (px a = i ∧ py a = j))) = total f l := by
  induction l with
  | nil =>
    unfold gridSum
    simp only [List.filter_nil, total_nil]
    have : (List.range ny).map (fun _ => ((List.range nx).map fun _ => (0 : K)).sum) =
        (List.range ny).map fun _ => (0 : K) := by
      apply List.map_congr_left
      intro j _
      exact sum_range_zero nx
    rw [this]; exact sum_range_zero ny
  | cons a l ih =>
    rw [total_cons, ← ih (fun b hb => hl b (by simp [hb]))]
    have ha := hl a (by simp)
    -- split off the term of `a`
    have hsplit : ∀ i j, total f ((a :: l).filter fun a => decide (px a = i ∧ py a = j)) =
        (if j = py a then (if i = px a then f a else 0) else 0) +
        total f (l.filter fun a => decide (px a = i ∧ py a = j)) := by
      intro i j
      rw [List.filter_cons]
      by_cases h : px a = i ∧ py a = j
      · rw [if_pos (by simpa using h), total_cons, if_pos h.2.symm, if_pos h.1.symm]
      · rw [if_neg (by simpa using h)]
        by_cases hj : j = py a
        · rw [if_pos hj, if_neg (fun hi => h ⟨hi.symm, hj.symm⟩), zero_add]
        · rw [if_neg hj, zero_add]
    unfold gridSum
    have e1 : (List.range ny).map (fun j => ((List.range nx).map fun i =>
          total f ((a :: l).filter fun a => decide (px a = i ∧ py a = j))).sum) =
        (List.range ny).map (fun j => (if j = py a then f a else 0) + ((List.range nx).map fun i =>
          total f (l.filter fun a => decide (px a = i ∧ py a = j))).sum) := by
      apply List.map_congr_left
      intro j _
      simp only [hsplit]
      rw [show ((List.range nx).map fun i => (if j = py a then (if i = px a then f a else 0) else 0) +
          total f (l.filter fun a => decide (px a = i ∧ py a = j))).sum = _ from
          total_add (fun i => if j = py a then (if i = px a then f a else 0) else 0) _ (List.range nx)]
      congr 1
      by_cases hj : j = py a
      · simp only [if_pos hj]
        exact sum_range_single nx (px a) ha.1 (fun _ => f a)
      · simp only [if_neg hj]
        exact total_zero _
    rw [e1]
    rw [show ((List.range ny).map fun j => (if j = py a then f a else 0) + ((List.range nx).map fun i =>
          total f (l.filter fun a => decide (px a = i ∧ py a = j))).sum).sum = _ from
        total_add (fun j => if j = py a then f a else 0) _ (List.range ny)]
    congr 1
    exact sum_range_single ny (py a) ha.2 (fun _ => f a)

theorem gridSum_congr {nx ny : Nat} {f g : Nat → Nat → K}
    (h : ∀ i j, i < nx → j < ny → f i j = g i j) : gridSum nx ny f = gridSum nx ny g := by
  unfold gridSum
  congr 1
  apply List.map_congr_left
  intro j hj
  congr 1
  apply List.map_congr_left
  intro i hi
  exact h i j (List.mem_range.1 hi) (List.mem_range.1 hj)

/-- Row-major positions identify cells. -/
theorem rowMajor_inj {nx i j i' j' : Nat} (hi : i < nx) (hi' : i' < nx) :
    j * nx + i = j' * nx + i' ↔ i = i' ∧ j = j' := by
  constructor
  · intro h
    have h1 : (j * nx + i) % nx = i := by
      rw [Nat.mul_comm, Nat.mul_add_mod]; exact Nat.mod_eq_of_lt hi
    have h2 : (j' * nx + i') % nx = i' := by
      rw [Nat.mul_comm, Nat.mul_add_mod]; exact Nat.mod_eq_of_lt hi'
    have hii : i = i' := by rw [← h1, h, h2]
    subst hii
    refine ⟨rfl, ?_⟩
    have : j * nx = j' * nx := by omega
    exact Nat.eq_of_mul_eq_mul_right (by omega) this
  · rintro ⟨rfl, rfl⟩; rfl

end sums

section order
variable {K α : Type} [Field K] [LinearOrder K] [IsStrictOrderedRing K]

theorem total_nonneg {f : α → K} {l : List α} (h : ∀ a ∈ l, 0 ≤ f a) : 0 ≤ total f l := by
  induction l with
  | nil => exact le_refl _
  | cons a l ih =>
    rw [total_cons]
    exact add_nonneg (h a (by simp)) (ih fun b hb => h b (by simp [hb]))

theorem total_pos {f : α → K} {l : List α} (h : ∀ a ∈ l, 0 < f a) (hl : l ≠ []) : 0 < total f l := by
  cases l with
  | nil => exact absurd rfl hl
  | cons a l =>
    rw [total_cons]
    exact add_pos_of_pos_of_nonneg (h a (by simp)) (total_nonneg fun b hb => le_of_lt (h b (by simp [hb])))

theorem total_le {f g : α → K} {l : List α} (h : ∀ a ∈ l, f a ≤ g a) : total f l ≤ total g l := by
  induction l with
  | nil => exact le_refl _
  | cons a l ih =>
    rw [total_cons, total_cons]
    exact add_le_add (h a (by simp)) (ih fun b hb => h b (by simp [hb]))

/-- Non-negative terms with sum zero are all zero. -/
theorem total_eq_zero {f : α → K} {l : List α} (h : ∀ a ∈ l, 0 ≤ f a) (hz : total f l = 0) :
    ∀ a ∈ l, f a = 0 := by
  induction l with
  | nil => intro a ha; cases ha
  | cons a l ih =>
    rw [total_cons] at hz
    have h1 := h a (by simp)
    have h2 : 0 ≤ total f l := total_nonneg fun b hb => h b (by simp [hb])
    intro b hb
    rcases List.mem_cons.1 hb with rfl | hb
    · linarith
    · exact ih (fun b hb => h b (by simp [hb])) (by linarith) b hb

theorem wmean_const {w v : α → K} {l : List α} {c : K} (hv : ∀ a ∈ l, v a = c) (hw : 0 < total w l) :
    wmean w v l = c := by
  unfold wmean
  have : total (fun a => v a * w a) l = total (fun a => c * w a) l :=
    total_congr fun a ha => by rw [hv a ha]
  rw [this, total_mul]
  field_simp

theorem wmean_bounds {w v : α → K} {l : List α} {lo hi : K} (hw0 : ∀ a ∈ l, 0 ≤ w a)
    (hv : ∀ a ∈ l, lo ≤ v a ∧ v a ≤ hi) (hw : 0 < total w l) : lo ≤ wmean w v l ∧ wmean w v l ≤ hi := by
  unfold wmean
  constructor
  · rw [le_div_iff₀ hw, ← total_mul]
    exact total_le fun a ha => mul_le_mul_of_nonneg_right (hv a ha).1 (hw0 a ha)
  · rw [div_le_iff₀ hw, ← total_mul]
    exact total_le fun a ha => mul_le_mul_of_nonneg_right (hv a ha).2 (hw0 a ha)

end order

/-! ### The loops -/
variable {K : Type} [Field K] [LinearOrder K]

omit [LinearOrder K] in
theorem foldl_addAt {α : Type} (k : α → Nat) (f : α → K) : ∀ (cells : List α) (a0 : Nat → K) (n : Nat),
    cells.foldl (fun a c => addAt a (k c) (f c)) a0 n =
      a0 n + total f (cells.filter fun c => decide (k c = n)) := by
  intro cells
  induction cells with
  | nil => intro a0 n; simp [total]
  | cons c cells ih =>
    intro a0 n
    rw [List.foldl_cons, ih, List.filter_cons]
    by_cases h : k c = n
    · subst h
      rw [if_pos (by simp), total_cons]
      unfold addAt
      rw [if_pos rfl]
      ring
    · rw [if_neg (by simpa using h)]
      unfold addAt
      rw [if_neg (fun e => h e.symm)]

theorem accumulate_spec (cf : Conf K) (s : Src K) (cells : List (XCell K)) (n : Nat) :
    (accumulate cf s cells).data n = total (fun c => xVal cf s c * xArea cf c)
        ((cells.filter (used cf s)).filter fun c => decide (n0 cf c = n)) ∧
    (accumulate cf s cells).area n = total (fun c => xArea cf c)
        ((cells.filter (used cf s)).filter fun c => decide (n0 cf c = n)) ∧
    ((accumulate cf s cells).miss n = true ↔
      ((cells.filter (used cf s)).filter fun c => decide (n0 cf c = n)) ≠ []) := by
  have gen : ∀ (cells : List (XCell K)) (a : Acc K),
      (cells.foldl (step cf s) a).data n = a.data n + total (fun c => xVal cf s c * xArea cf c)
        ((cells.filter (used cf s)).filter fun c => decide (n0 cf c = n)) ∧
      (cells.foldl (step cf s) a).area n = a.area n + total (fun c => xArea cf c)
        ((cells.filter (used cf s)).filter fun c => decide (n0 cf c = n)) ∧
      ((cells.foldl (step cf s) a).miss n = true ↔ a.miss n = true ∨
        ((cells.filter (used cf s)).filter fun c => decide (n0 cf c = n)) ≠ []) := by
    intro cells
    induction cells with
    | nil => intro a; simp [total]
    | cons c cells ih =>
      intro a
      rw [List.foldl_cons]
      obtain ⟨i1, i2, i3⟩ := ih (step cf s a c)
      rw [i1, i2, i3, List.filter_cons]
      unfold step
      cases hu : used cf s c
      · simp
      · simp only [if_true]
        rw [List.filter_cons]
        by_cases h : n0 cf c = n
        · subst h
          rw [if_pos (by simp), total_cons, total_cons]
          unfold addAt
          simp only [if_true]
          refine ⟨by ring, by ring, by simp⟩
        · rw [if_neg (by simpa using h)]
          have h' : ¬ n = n0 cf c := fun e => h e.symm
          unfold addAt
          simp only [if_neg h']
          exact ⟨trivial, trivial, trivial⟩
  have := gen cells ⟨fun _ => 0, fun _ => 0, fun _ => false⟩
  unfold accumulate
  simpa using this

end Verif.Conserve
