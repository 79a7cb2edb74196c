import Verif.Model.MergeRank
/-
Helper lemmas about the ranking sort.
-/
namespace Verif.MergeRank

/-- Order by value and, for equal values, by position. -/
def lex (x : Nat → Int) (p q : Nat) : Bool := x p < x q || (x p == x q && decide (p ≤ q))

theorem lex_trans (x : Nat → Int) (a b c : Nat) (h : lex x a b = true) (g : lex x b c = true) :
    lex x a c = true := by
  simp only [lex, Bool.or_eq_true, decide_eq_true_eq, Bool.and_eq_true, beq_iff_eq] at *
  omega

theorem lex_total (x : Nat → Int) (a b : Nat) : (lex x a b || lex x b a) = true := by
  simp only [lex, Bool.or_eq_true, decide_eq_true_eq, Bool.and_eq_true, beq_iff_eq]
  omega

theorem mergeTail_spec (a : List Nat) : ∀ (fuel i : Nat) (D G : List Nat), i ≤ a.length →
    G.length = a.length - i → fuel = a.length - i →
    mergeTail a fuel i D.length (D ++ G) = D ++ a.drop i := by
  intro fuel
  induction fuel with
  | zero =>
    intro i D G hi hG hf
    have : G = [] := List.eq_nil_of_length_eq_zero (by omega)
    rw [mergeTail, this, List.drop_eq_nil_of_le (by omega)]
  | succ fuel ih =>
    intro i D G hi hG hf
    have hlt : i < a.length := by omega
    cases G with
    | nil => simp at hG; omega
    | cons g G =>
      rw [mergeTail, List.getElem?_eq_getElem hlt]
      simp only
      have e : (D ++ g :: G).set D.length a[i] = (D ++ [a[i]]) ++ G := by simp
      have hl : D.length + 1 = (D ++ [a[i]]).length := by simp
      rw [e, hl, ih (i + 1) (D ++ [a[i]]) G (by omega) (by simp at hG; omega) (by omega),
        List.drop_eq_getElem_cons hlt]
      simp

/-- The loop merges what is left of `a` and `b` behind what is done already: `c` consists of the part
done, a gap as long as the rest of `a`, and the rest of `b`. -/
theorem mergeLoop_spec (x : Nat → Int) (a : List Nat) (nb : Nat) :
    ∀ (fuel i j : Nat) (D G R : List Nat), i ≤ a.length → G.length = a.length - i →
    R.length = nb - j → j ≤ nb → D.length = i + j → (a.length - i) + (nb - j) ≤ fuel →
    mergeLoop x a nb fuel i j (D ++ G ++ R) =
      D ++ List.merge (a.drop i) R (fun p q => decide (x p ≤ x q)) := by
  intro fuel
  induction fuel with
  | zero =>
    intro i j D G R hi hG hR hj hD hf
    have e1 : R = [] := List.eq_nil_of_length_eq_zero (by omega)
    subst e1
    rw [mergeLoop, ← hD, List.append_nil, mergeTail_spec a _ i D G hi hG rfl]
    simp
  | succ fuel ih =>
    intro i j D G R hi hG hR hj hD hf
    rw [mergeLoop]
    rcases Nat.lt_or_ge i a.length |>.symm with hia | hia
    · have e1 : G = [] := List.eq_nil_of_length_eq_zero (by omega)
      have e2 : a.length - i = 0 := by omega
      rw [List.getElem?_eq_none hia, List.drop_eq_nil_of_le hia]
      simp [mergeTail, e1, e2]
    rw [List.getElem?_eq_getElem hia]
    cases R with
    | nil =>
      have : ¬ j < nb := by simp at hR; omega
      rw [if_neg this]
      simp only
      rw [← hD, List.append_nil, mergeTail_spec a _ i D G hi hG rfl]
      simp
    | cons b R =>
      have hjn : j < nb := by simp at hR; omega
      have hc : (D ++ G ++ b :: R)[a.length + j]? = some b := by
        rw [List.getElem?_append_right (by simp; omega)]
        simp only [List.length_append, hD, hG]
        have : a.length + j - (i + j + (a.length - i)) = 0 := by omega
        rw [this]
        rfl
      rw [if_pos hjn, hc]
      simp only
      rw [List.drop_eq_getElem_cons hia]
      cases G with
      | nil => simp at hG; omega
      | cons g G =>
        have hset : ∀ v, (D ++ g :: G ++ b :: R).set (i + j) v = D ++ [v] ++ G ++ b :: R := by
          intro v
          rw [← hD]
          simp
        by_cases hle : x a[i] ≤ x b
        · rw [if_pos hle, hset,
            ih (i + 1) j (D ++ [a[i]]) G (b :: R) (by omega) (by simp at hG; omega) hR hj
              (by simp; omega) (by omega)]
          rw [List.cons_merge_cons, if_pos (by simpa using hle)]
          simp
        · rw [if_neg hle, hset]
          have e : D ++ [b] ++ G ++ b :: R = (D ++ [b]) ++ (G ++ [b]) ++ R := by simp
          rw [e, ih i (j + 1) (D ++ [b]) (G ++ [b]) R hi (by simp at hG ⊢; omega)
            (by simp at hR; omega) (by omega) (by simp; omega) (by omega)]
          rw [List.cons_merge_cons, if_neg (by simpa using hle), List.drop_eq_getElem_cons hia]
          simp

theorem merge_spec (x : Nat → Int) (l r : List Nat) :
    merge x l (l ++ r) = List.merge l r (fun p q => decide (x p ≤ x q)) := by
  unfold merge
  have := mergeLoop_spec x l ((l ++ r).length - l.length) (l ++ r).length 0 0 [] l r (by simp)
    (by simp) (by simp) (by simp) (by simp) (by simp)
  simpa using this

/-- If all positions of `l` are less than those of `r`, comparing values with `≤` is the same as
comparing by value and position. -/
theorem merge_lex (x : Nat → Int) : ∀ (l r : List Nat), (∀ p ∈ l, ∀ q ∈ r, p < q) →
    List.merge l r (fun p q => decide (x p ≤ x q)) = List.merge l r (lex x) := by
  intro l r h
  apply List.map_id _ |>.symm.trans
  have hc : ∀ p ∈ l, ∀ q ∈ r, (decide (x p ≤ x q)) = lex x p q := by
    intro p hp q hq
    have := h p hp q hq
    rw [Bool.eq_iff_iff]
    simp only [lex, Bool.or_eq_true, decide_eq_true_eq, Bool.and_eq_true, beq_iff_eq]
    omega
  have := List.map_merge (f := id) (r := fun p q => decide (x p ≤ x q)) (s := lex x) (l := l)
    (l' := r) (fun a ha b hb => hc a ha b hb)
  simpa using this

/-- The sort: a permutation, ordered by value and position, if the positions come in ascending
order. -/
theorem mergerank_spec (x : Nat → Int) : ∀ (n : Nat) (a : List Nat), a.length = n →
    a.Pairwise (· < ·) →
    (mergerank x a).Perm a ∧ (mergerank x a).Pairwise (fun p q => lex x p q = true) := by
  intro n
  induction n using Nat.strongRecOn with
  | _ n ih =>
    intro a hn ha
    unfold mergerank
    by_cases h2 : a.length < 2
    · rw [dif_pos h2]
      refine ⟨List.Perm.refl _, ?_⟩
      match a, h2 with
      | [], _ => simp
      | [p], _ => simp
    rw [dif_neg h2]
    by_cases h3 : a.length = 2
    · rw [if_pos h3]
      match a, h3 with
      | [p, q], _ =>
        simp only
        have hpq : p < q := by simpa using ha
        by_cases hx : x p > x q
        · rw [if_pos hx]
          refine ⟨List.Perm.swap _ _ _, ?_⟩
          simp [lex]; omega
        · rw [if_neg hx]
          refine ⟨List.Perm.refl _, ?_⟩
          simp [lex]; omega
    rw [if_neg h3]
    have hsplit : a.take ((a.length + 1) / 2) ++ a.drop ((a.length + 1) / 2) = a :=
      List.take_append_drop _ _
    have hpw : (a.take ((a.length + 1) / 2) ++ a.drop ((a.length + 1) / 2)).Pairwise (· < ·) := by
      rw [hsplit]; exact ha
    rw [List.pairwise_append] at hpw
    obtain ⟨hl, hr, hlr⟩ := hpw
    obtain ⟨pl, sl⟩ := ih _ (by simp only [List.length_take]; omega) _ rfl hl
    obtain ⟨pr, sr⟩ := ih _ (by simp only [List.length_drop]; omega) _ rfl hr
    have hcross : ∀ p ∈ mergerank x (a.take ((a.length + 1) / 2)),
        ∀ q ∈ mergerank x (a.drop ((a.length + 1) / 2)), p < q :=
      fun p hp q hq => hlr p (pl.mem_iff.1 hp) q (pr.mem_iff.1 hq)
    have hll : (mergerank x (a.take ((a.length + 1) / 2))).length = (a.length + 1) / 2 := by
      rw [pl.length_eq]; simp; omega
    have hrl : (mergerank x (a.drop ((a.length + 1) / 2))).length = a.length - (a.length + 1) / 2 := by
      rw [pr.length_eq]; simp
    simp only
    generalize mergerank x (a.take ((a.length + 1) / 2)) = l at *
    generalize mergerank x (a.drop ((a.length + 1) / 2)) = r at *
    have hperm : (l ++ r).Perm a := by
      have := pl.append pr
      rwa [hsplit] at this
    have hlne : l ≠ [] := by intro h; rw [h] at hll; simp at hll; omega
    have hrne : r ≠ [] := by intro h; rw [h] at hrl; simp at hrl; omega
    rw [List.getLast?_eq_some_getLast hlne, List.head?_eq_some_head hrne]
    simp only
    by_cases hx : x (l.getLast hlne) > x (r.head hrne)
    · rw [if_pos hx, merge_spec, merge_lex x l r hcross]
      exact ⟨(List.merge_perm_append _).trans hperm,
        List.pairwise_merge (lex_trans x) (lex_total x) l r sl sr⟩
    · rw [if_neg hx]
      refine ⟨hperm, List.pairwise_append.2 ⟨sl, sr, ?_⟩⟩
      intro p hp q hq
      -- p ≤ last of l ≤ head of r ≤ q
      have h1 : lex x p (l.getLast hlne) = true ∨ p = l.getLast hlne := by
        by_cases he : p = l.getLast hlne
        · exact Or.inr he
        · left
          rw [← List.dropLast_concat_getLast hlne] at hp sl
          rcases List.mem_append.1 hp with hp | hp
          · exact (List.pairwise_append.1 sl).2.2 p hp _ (by simp)
          · simp at hp; exact absurd hp he
      have h2 : lex x (r.head hrne) q = true ∨ q = r.head hrne := by
        cases r with
        | nil => exact absurd rfl hrne
        | cons b r =>
          rcases List.mem_cons.1 hq with h | h
          · exact Or.inr h
          · exact Or.inl ((List.pairwise_cons.1 sr).1 q h)
      have h3 : lex x (l.getLast hlne) (r.head hrne) = true := by
        have := hcross _ (List.getLast_mem hlne) _ (List.head_mem hrne)
        simp only [lex, Bool.or_eq_true, decide_eq_true_eq, Bool.and_eq_true, beq_iff_eq]
        omega
      have h4 : lex x p (r.head hrne) = true := by
        rcases h1 with h1 | h1
        · exact lex_trans x _ _ _ h1 h3
        · rw [h1]; exact h3
      rcases h2 with h2 | h2
      · exact lex_trans x _ _ _ h4 h2
      · rw [h2]; exact h4

end Verif.MergeRank
