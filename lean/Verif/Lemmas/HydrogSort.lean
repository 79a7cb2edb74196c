import Verif.Model.Hydrog
import Mathlib.Data.List.Pairwise
import Mathlib.Logic.Function.Iterate
import Mathlib.Tactic.Linarith
/-
The sort of the basins, for C104.
-/
namespace Verif.Hydrog

variable {R : Type} [Field R] [LinearOrder R]

theorem bubble_perm (l : List (Basin R)) : (bubble l).Perm l := by
  fun_induction bubble l with
  | case1 x y l h ih => exact (ih.cons y).trans (.swap _ _ _)
  | case2 x y l h ih => exact ih.cons x
  | case3 l h => exact .refl _

theorem bubble_sorted (l : List (Basin R)) (h : l.Pairwise fun a b => b.area ≤ a.area) : bubble l = l := by
  fun_induction bubble l with
  | case1 x y l hc ih =>
    have := (List.pairwise_cons.mp h).1 y (by simp)
    exact absurd hc (not_lt.mpr this)
  | case2 x y l hc ih => rw [ih (List.pairwise_cons.mp h).2]
  | case3 l hl => rfl

theorem bubble_append (A : List (Basin R)) : ∀ B : List (Basin R), (B.Pairwise fun a b => b.area ≤ a.area) →
    (∀ a ∈ A, ∀ b ∈ B, b.area ≤ a.area) → bubble (A ++ B) = bubble A ++ B := by
  fun_induction bubble A with
  | case1 x y l hc ih =>
    intro B hB hAB
    rw [List.cons_append, List.cons_append, bubble, if_pos hc, ← List.cons_append, ih B hB, List.cons_append]
    intro a ha
    exact hAB a (by rcases List.mem_cons.mp ha with rfl | h <;> simp_all)
  | case2 x y l hc ih =>
    intro B hB hAB
    rw [List.cons_append, List.cons_append, bubble, if_neg hc, ← List.cons_append, ih B hB, List.cons_append]
    intro a ha
    exact hAB a (List.mem_cons_of_mem _ ha)
  | case3 l hl =>
    intro B hB hAB
    apply bubble_sorted
    rw [List.pairwise_append]
    refine ⟨?_, hB, hAB⟩
    rcases l with _ | ⟨x, _ | ⟨y, l⟩⟩
    · simp
    · simp
    · exact absurd rfl (hl x y l)

theorem bubble_last (A : List (Basin R)) (hA : A ≠ []) :
    ∃ A' m, bubble A = A' ++ [m] ∧ ∀ a ∈ A', m.area ≤ a.area := by
  fun_induction bubble A with
  | case1 x y l hc ih =>
    obtain ⟨A', m, h1, h2⟩ := ih (by simp)
    refine ⟨y :: A', m, by rw [h1]; rfl, ?_⟩
    have hx : m.area ≤ x.area := by
      have hm : x ∈ A' ++ [m] := h1 ▸ (bubble_perm (x :: l)).mem_iff.mpr (by simp)
      rcases List.mem_append.mp hm with h | h
      · exact h2 x h
      · rw [List.mem_singleton.mp h]
    intro a ha
    rcases List.mem_cons.mp ha with rfl | ha
    · exact hx.trans hc.le
    · exact h2 a ha
  | case2 x y l hc ih =>
    obtain ⟨A', m, h1, h2⟩ := ih (by simp)
    refine ⟨x :: A', m, by rw [h1]; rfl, ?_⟩
    have hy : m.area ≤ y.area := by
      have hm : y ∈ A' ++ [m] := h1 ▸ (bubble_perm (y :: l)).mem_iff.mpr (by simp)
      rcases List.mem_append.mp hm with h | h
      · exact h2 y h
      · rw [List.mem_singleton.mp h]
    intro a ha
    rcases List.mem_cons.mp ha with rfl | ha
    · exact hy.trans (not_lt.mp hc)
    · exact h2 a ha
  | case3 l hl =>
    rcases l with _ | ⟨x, _ | ⟨y, l⟩⟩
    · exact absurd rfl hA
    · exact ⟨[], x, rfl, by simp⟩
    · exact absurd rfl (hl x y l)

theorem iterate_perm (l : List (Basin R)) : ∀ k, (bubble^[k] l).Perm l := by
  intro k
  induction k with
  | zero => exact .refl _
  | succ k ih => rw [Function.iterate_succ', Function.comp]; exact (bubble_perm _).trans ih

theorem iterate_split (l : List (Basin R)) : ∀ k ≤ l.length, ∃ A B, bubble^[k] l = A ++ B ∧ B.length = k ∧
    (B.Pairwise fun a b => b.area ≤ a.area) ∧ ∀ a ∈ A, ∀ b ∈ B, b.area ≤ a.area := by
  intro k
  induction k with
  | zero => intro _; exact ⟨l, [], by simp, rfl, .nil, by simp⟩
  | succ k ih =>
    intro hk
    obtain ⟨A, B, h1, h2, h3, h4⟩ := ih (by omega)
    have hA : A ≠ [] := by
      rintro rfl
      have := (iterate_perm l k).length_eq
      rw [h1] at this
      simp at this
      omega
    obtain ⟨A', m, h5, h6⟩ := bubble_last A hA
    have hmem : ∀ a, a ∈ A' ++ [m] → a ∈ A := fun a ha => (bubble_perm A).mem_iff.mp (h5 ▸ ha)
    refine ⟨A', m :: B, ?_, by simp [h2], ?_, ?_⟩
    · rw [Function.iterate_succ', Function.comp, h1, bubble_append A B h3 h4, h5]
      simp
    · rw [List.pairwise_cons]
      exact ⟨fun b hb => h4 m (hmem m (by simp)) b hb, h3⟩
    · intro a ha b hb
      rcases List.mem_cons.mp hb with rfl | hb
      · exact h6 a ha
      · exact h4 a (hmem a (by simp [ha])) b hb

theorem sortBasins_perm (l : List (Basin R)) : (sortBasins l).Perm l := iterate_perm l _

theorem sortBasins_sorted (l : List (Basin R)) : (sortBasins l).Pairwise fun a b => b.area ≤ a.area := by
  obtain ⟨A, B, h1, h2, h3, -⟩ := iterate_split l l.length le_rfl
  have hA : A = [] := by
    have := (iterate_perm l l.length).length_eq
    rw [h1, List.length_append, h2] at this
    exact List.eq_nil_of_length_eq_zero (by omega)
  subst hA
  unfold sortBasins
  rw [h1]
  exact h3

end Verif.Hydrog
