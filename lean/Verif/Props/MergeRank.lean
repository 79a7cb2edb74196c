import Verif.Lemmas.MergeRank
/-
C20: the ranking sort of combine-ncc is a stable sort.
-/
namespace Verif
open MergeRank

/-- C20. Ranking the `n` values `x 1, ..., x n` gives the positions 1..n, each once, in the order of the
values; positions of equal values stay in their order. -/
theorem C20_rank (x : Nat → Int) (n : Nat) :
    (rankAscending x n).Perm ((List.range n).map (· + 1)) ∧
      (rankAscending x n).Pairwise (fun p q => x p < x q ∨ (x p = x q ∧ p < q)) := by
  have hpw : ((List.range n).map (· + 1)).Pairwise (· < ·) := by
    rw [List.pairwise_map]
    exact List.pairwise_lt_range.imp (by intros; omega)
  obtain ⟨h1, h2⟩ := mergerank_spec x _ ((List.range n).map (· + 1)) rfl hpw
  refine ⟨h1, ?_⟩
  have hnd : (rankAscending x n).Nodup :=
    h1.nodup_iff.2 (hpw.imp (by intros; omega))
  have := h2.and hnd
  refine this.imp ?_
  intro p q ⟨h, hne⟩
  simp only [lex, Bool.or_eq_true, decide_eq_true_eq, Bool.and_eq_true, beq_iff_eq] at h
  omega

/-- C20. The merge in place, whose second operand lies in its output array, gives the same result as a
merge of separate arrays: no element is overwritten before it has been read. -/
theorem C20_merge_overlay (x : Nat → Int) (l r : List Nat) :
    merge x l (l ++ r) = List.merge l r (fun p q => decide (x p ≤ x q)) :=
  merge_spec x l r

example : merge (fun p => [3, 5, 9, 1, 5, 7].getD (p - 1) 0) [1, 2, 3] [1, 2, 3, 4, 5, 6] = [4, 1, 2, 5, 6, 3] := by
  decide
example : mergerank (fun p => [3, 5, 3, 1].getD (p - 1) 0) [1, 2, 3, 4] = [4, 1, 3, 2] := by
  simp [mergerank, merge, mergeLoop, mergeTail]

end Verif
