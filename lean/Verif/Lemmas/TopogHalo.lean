import Mathlib.Tactic.SplitIfs
import Mathlib.Tactic.ByContra
import Verif.Lemmas.TopogIsolated

/-! # Lemmas about the rows and columns around the grid -/

namespace Verif.Topog

open Verif.Spec.Topo

variable {K : Type _}

/-- The halo is filled as the topology says. -/
theorem halo_extended {ni nj : Nat} (hni : 1 ≤ ni) (hnj : 1 ≤ nj) (o : Opts K)
    {f : Nat → Nat → Int}
    (hf : ∀ j i, ¬ (1 ≤ j ∧ j ≤ nj ∧ 1 ≤ i ∧ i ≤ ni) → f j i = 0) :
    Extended ni nj o.tripolar o.cyclicX o.cyclicY (fun j i => f (j + 1) (i + 1))
      (halo ni nj o f) := by
  have hY : ∀ j i, ¬ (1 ≤ i ∧ i ≤ ni) → haloY ni nj o.tripolar o.cyclicY f j i = 0 := by
    intro j i h
    unfold haloY
    rw [if_neg h]
    exact hf j i (fun h' => h ⟨h'.2.2.1, h'.2.2.2⟩)
  have hX : ∀ j i, 1 ≤ i → i ≤ ni → halo ni nj o f j i = haloY ni nj o.tripolar o.cyclicY f j i := by
    intro j i h1 h2
    unfold halo haloX
    split
    · rw [if_neg (by omega), if_neg (by omega)]
    · rfl
  have hI : ∀ j i, 1 ≤ j → j ≤ nj → 1 ≤ i → i ≤ ni →
      haloY ni nj o.tripolar o.cyclicY f j i = f j i := by
    intro j i h1 h2 h3 h4
    unfold haloY
    rw [if_pos ⟨h3, h4⟩]
    split_ifs <;> first | rfl | omega
  refine ⟨?_, ?_, ?_, ?_, ?_⟩
  · intro j i hj hi
    rw [hX _ _ (by omega) (by omega), hI _ _ (by omega) (by omega) (by omega) (by omega)]
  · intro j hj
    rw [hX j ni hni le_rfl]
    unfold halo haloX
    by_cases hc : o.cyclicX = true
    · rw [if_pos ⟨hc, hj⟩, if_pos rfl, if_pos hc]
    · rw [if_neg (fun h => hc h.1), if_neg hc]
      exact hY j 0 (by omega)
  · intro j hj
    rw [hX j 1 le_rfl hni]
    unfold halo haloX
    by_cases hc : o.cyclicX = true
    · rw [if_pos ⟨hc, hj⟩, if_neg (by omega), if_pos rfl, if_pos hc]
    · rw [if_neg (fun h => hc h.1), if_neg hc]
      exact hY j (ni + 1) (by omega)
  · intro i h1 h2
    rw [hX 0 i h1 h2, hX nj i h1 h2, hI nj i hnj le_rfl h1 h2]
    unfold haloY
    rw [if_pos ⟨h1, h2⟩]
    have h0 := hf 0 i (by omega)
    cases o.tripolar <;> cases o.cyclicY <;> simp [h0]
  · intro i h1 h2
    rw [hX (nj + 1) i h1 h2, hX 1 i h1 h2, hX nj (ni + 1 - i) (by omega) (by omega),
      hI nj (ni + 1 - i) hnj le_rfl (by omega) (by omega), hI 1 i le_rfl hnj h1 h2]
    unfold haloY
    rw [if_pos ⟨h1, h2⟩, show ni - i + 1 = ni + 1 - i by omega]
    have h0 := hf (nj + 1) i (by omega)
    cases o.tripolar <;> cases o.cyclicY <;> simp [h0]

section Ext

variable {ni nj : Nat} {tri cx cy : Bool}

/-- There is only one way to fill the halo. -/
theorem extended_unique {f g g' : Nat → Nat → Int} (h : Extended ni nj tri cx cy f g)
    (h' : Extended ni nj tri cx cy f g') (hni : 1 ≤ ni) (hnj : 1 ≤ nj) :
    ∀ j i, j ≤ nj + 1 → i ≤ ni + 1 → g j i = g' j i := by
  have e1 : ∀ j i, 1 ≤ j → j ≤ nj → 1 ≤ i → i ≤ ni → g j i = g' j i := by
    intro j i h1 h2 h3 h4
    have a := h.inside (j - 1) (i - 1) (by omega) (by omega)
    have b := h'.inside (j - 1) (i - 1) (by omega) (by omega)
    rw [show j - 1 + 1 = j by omega, show i - 1 + 1 = i by omega] at a b
    rw [a, b]
  have e2 : ∀ j i, j ≤ nj + 1 → 1 ≤ i → i ≤ ni → g j i = g' j i := by
    intro j i h1 h3 h4
    by_cases hj0 : j = 0
    · subst hj0
      rw [h.south i h3 h4, h'.south i h3 h4, e1 nj i hnj le_rfl h3 h4]
    · by_cases hj1 : j = nj + 1
      · subst hj1
        rw [h.north i h3 h4, h'.north i h3 h4, e1 nj (ni + 1 - i) hnj le_rfl (by omega) (by omega),
          e1 1 i le_rfl hnj h3 h4]
      · exact e1 j i (by omega) (by omega) h3 h4
  intro j i hj hi
  by_cases hi0 : i = 0
  · subst hi0
    rw [h.west j hj, h'.west j hj, e2 j ni hj hni le_rfl]
  · by_cases hi1 : i = ni + 1
    · subst hi1
      rw [h.east j hj, h'.east j hj, e2 j 1 hj le_rfl hni]
    · exact e2 j i hj (by omega) (by omega)

/-- Changing values cell by cell commutes with filling the halo, if land stays land. -/
theorem extended_map {f g : Nat → Nat → Int} (h : Extended ni nj tri cx cy f g) {φ : Int → Int}
    (h0 : φ 0 = 0) : Extended ni nj tri cx cy (fun j i => φ (f j i)) (fun j i => φ (g j i)) := by
  refine ⟨?_, ?_, ?_, ?_, ?_⟩
  · intro j i hj hi; rw [h.inside j i hj hi]
  · intro j hj; rw [h.west j hj]; split <;> simp [h0]
  · intro j hj; rw [h.east j hj]; split <;> simp [h0]
  · intro i h1 h2; rw [h.south i h1 h2]; split <;> simp [h0]
  · intro i h1 h2; rw [h.north i h1 h2]; split_ifs <;> simp [h0]

/-- When the halo is filled anew after cells were lowered to the best of their corners, the smallest
values at the corners are the old ones. -/
theorem refreshed {f f' A B : Nat → Nat → Int} (hA : Extended ni nj tri cx cy f A)
    (hB : Extended ni nj tri cx cy f' B) (hni : 1 ≤ ni) (hnj : 1 ≤ nj)
    (hin : ∀ j i, 1 ≤ j → j ≤ nj → 1 ≤ i → i ≤ ni →
      B j i = A j i ∨ B j i = bestBlock A j i) {cj ci : Nat}
    (hcj : cj ≤ checkedRows nj tri) (hci : ci ≤ ni) : blockMin B cj ci = blockMin A cj ci := by
  -- `G j i`: the cell has been lowered, but not too far for any of its corners
  let G : Nat → Nat → Prop := fun j i => B j i ≤ A j i ∧
    ∀ cj ci, cj ≤ checkedRows nj tri → ci ≤ ni → Around cj ci j i → blockMin A cj ci ≤ B j i
  have hR : checkedRows nj tri ≤ nj := by unfold checkedRows; split <;> omega
  have keep : ∀ j i, B j i = A j i → G j i := fun j i e =>
    ⟨e.le, fun cj ci _ _ ha => e ▸ blockMin_le ha⟩
  have g1 : ∀ j i, 1 ≤ j → j ≤ nj → 1 ≤ i → i ≤ ni → G j i := by
    intro j i h1 h2 h3 h4
    rcases hin j i h1 h2 h3 h4 with e | e
    · exact keep j i e
    · exact ⟨e ▸ bestBlock_le h1 h3, fun cj ci _ _ ha => e ▸ blockMin_le_bestBlock ha⟩
  have west : ∀ j, j ≤ nj + 1 → A j 0 = if cx then A j ni else 0 := hA.west
  have east : ∀ j, j ≤ nj + 1 → A j (ni + 1) = if cx then A j 1 else 0 := hA.east
  -- the row beyond the north and the south edge, when they are joined
  have rows : cy = true → tri = false → ∀ i, i ≤ ni + 1 →
      A 0 i = A nj i ∧ A (nj + 1) i = A 1 i := by
    intro h1 h2
    have inner : ∀ i, 1 ≤ i → i ≤ ni → A 0 i = A nj i ∧ A (nj + 1) i = A 1 i := by
      intro i a b
      have s := hA.south i a b
      have n := hA.north i a b
      rw [if_pos ⟨h1, h2⟩] at s
      rw [h2] at n
      simp only [Bool.false_eq_true, if_false, h1, if_true] at n
      exact ⟨s, n⟩
    intro i hi
    by_cases hi0 : i = 0
    · subst hi0
      rw [west 0 (by omega), west nj (by omega), west (nj + 1) le_rfl, west 1 (by omega),
        (inner ni hni le_rfl).1, (inner ni hni le_rfl).2]
      exact ⟨rfl, rfl⟩
    · by_cases hi1 : i = ni + 1
      · subst hi1
        rw [east 0 (by omega), east nj (by omega), east (nj + 1) le_rfl, east 1 (by omega),
          (inner 1 le_rfl hni).1, (inner 1 le_rfl hni).2]
        exact ⟨rfl, rfl⟩
      · exact inner i (by omega) (by omega)
  have shiftY : cy = true → tri = false → ∀ ci, ci ≤ ni → blockMin A 0 ci = blockMin A nj ci := by
    intro h1 h2 ci hc
    have a := rows h1 h2 ci (by omega)
    have b := rows h1 h2 (ci + 1) (by omega)
    unfold blockMin
    rw [a.1, b.1, a.2, b.2]
  have shiftX : cx = true → ∀ cj, cj ≤ nj → blockMin A cj 0 = blockMin A cj ni := by
    intro h1 cj hc
    have a := west cj (by omega)
    have b := west (cj + 1) (by omega)
    have c := east cj (by omega)
    have d := east (cj + 1) (by omega)
    rw [if_pos h1] at a b c d
    unfold blockMin
    rw [a, b, c, d]
  have g2 : ∀ j i, j ≤ checkedRows nj tri + 1 → 1 ≤ i → i ≤ ni → G j i := by
    intro j i h2 h3 h4
    by_cases hj0 : j = 0
    · subst hj0
      by_cases hc : cy = true ∧ tri = false
      · have eA := (rows hc.1 hc.2 i (by omega)).1
        have eB := hB.south i h3 h4
        rw [if_pos hc] at eB
        obtain ⟨p1, p2⟩ := g1 nj i hnj le_rfl h3 h4
        refine ⟨by rw [eA, eB]; exact p1, ?_⟩
        intro cj ci hcj hci ha
        have : cj = 0 := by have := ha.1; omega
        subst this
        rw [eB, shiftY hc.1 hc.2 ci hci]
        refine p2 nj ci ?_ hci ⟨.inl rfl, ha.2⟩
        unfold checkedRows
        rw [hc.2]
        simp
      · have a := hA.south i h3 h4
        have b := hB.south i h3 h4
        rw [if_neg hc] at a b
        exact keep 0 i (by rw [a, b])
    · by_cases hj1 : j = nj + 1
      · subst hj1
        have ht : tri = false := by
          by_contra ht
          have : tri = true := by simpa using ht
          unfold checkedRows at h2
          rw [if_pos this] at h2
          omega
        by_cases hc : cy = true
        · have eA := (rows hc ht i (by omega)).2
          have eB := hB.north i h3 h4
          rw [ht] at eB
          simp only [Bool.false_eq_true, if_false, hc, if_true] at eB
          obtain ⟨p1, p2⟩ := g1 1 i le_rfl hnj h3 h4
          refine ⟨by rw [eA, eB]; exact p1, ?_⟩
          intro cj ci hcj hci ha
          have : cj = nj := by have := ha.1; omega
          subst this
          rw [eB, ← shiftY hc ht ci hci]
          exact p2 0 ci (by omega) hci ⟨.inr rfl, ha.2⟩
        · have a := hA.north i h3 h4
          have b := hB.north i h3 h4
          rw [ht] at a b
          simp only [Bool.false_eq_true, if_false, hc] at a b
          exact keep _ i (by rw [a, b])
      · exact g1 j i (by omega) (by omega) h3 h4
  have g3 : ∀ j i, j ≤ checkedRows nj tri + 1 → i ≤ ni + 1 → G j i := by
    intro j i h2 h4
    by_cases hi0 : i = 0
    · subst hi0
      have a := west j (by omega)
      have b := hB.west j (by omega)
      by_cases hc : cx = true
      · rw [if_pos hc] at a b
        obtain ⟨p1, p2⟩ := g2 j ni h2 hni le_rfl
        refine ⟨by rw [a, b]; exact p1, ?_⟩
        intro cj ci hcj hci ha
        have : ci = 0 := by have := ha.2; omega
        subst this
        rw [b, shiftX hc cj (by omega)]
        exact p2 cj ni hcj le_rfl ⟨ha.1, .inl rfl⟩
      · rw [if_neg hc] at a b
        exact keep _ _ (by rw [a, b])
    · by_cases hi1 : i = ni + 1
      · subst hi1
        have a := east j (by omega)
        have b := hB.east j (by omega)
        by_cases hc : cx = true
        · rw [if_pos hc] at a b
          obtain ⟨p1, p2⟩ := g2 j 1 h2 le_rfl hni
          refine ⟨by rw [a, b]; exact p1, ?_⟩
          intro cj ci hcj hci ha
          have : ci = ni := by have := ha.2; omega
          subst this
          rw [b, ← shiftX hc cj (by omega)]
          exact p2 cj 0 hcj (by omega) ⟨ha.1, .inr rfl⟩
        · rw [if_neg hc] at a b
          exact keep _ _ (by rw [a, b])
      · exact g2 j i h2 (by omega) (by omega)
  apply blockMin_between
  intro j i ha
  obtain ⟨p1, p2⟩ := g3 j i (by have := ha.1; omega) (by have := ha.2; omega)
  exact ⟨p1, p2 cj ci hcj hci ha⟩

end Ext

end Verif.Topog
