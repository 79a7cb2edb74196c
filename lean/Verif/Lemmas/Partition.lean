import Verif.Lemmas.Extent
/-
From cut points to ordered partitions, and the scatter version of the decomposition.
-/
namespace Verif
open Spec

theorem ordPart_map_range (P : Nat → Int) (hi : Int) :
    ∀ (n s : Nat), (∀ j, s ≤ j → j < s + n → P j < P (j + 1)) → P (s + n) = hi + 1 →
      OrderedPartition (P s) hi ((List.range' s n).map (fun j => (P j, P (j + 1) - 1))) := by
  intro n
  induction n with
  | zero => intro s _ h; simpa [OrderedPartition] using h
  | succ n ih =>
    intro s hm h
    simp only [List.range'_succ, List.map_cons, OrderedPartition]
    refine ⟨trivial, by have := hm s (by omega) (by omega); omega, ?_⟩
    have := ih (s + 1) (fun j h1 h2 => hm j (by omega) (by omega))
      (by rw [show s + 1 + n = s + (n + 1) by omega]; exact h)
    rw [show P (s + 1) - 1 + 1 = P (s + 1) by omega]; exact this

theorem Cuts.ordPart {isg ieg : Int} {n : Nat} {a b : Int} {P : Nat → Int}
    (h : Cuts isg ieg n a b P) : OrderedPartition isg ieg (cutList n P) := by
  have := ordPart_map_range P ieg n 0 (fun j _ hj => h.mono j (by omega)) (by simpa using h.last)
  rw [h.first] at this
  simpa [cutList, List.range_eq_range'] using this

/-- Extents of the loop, for every valid input: cut points with the balance bounds. -/
theorem extLoop_cuts (isg : Int) (npts n : Nat) (hn : 1 ≤ n) (hle : n ≤ npts) :
    ∃ P, extLoop isg (isg + npts - 1) n = .ok (cutList n P) ∧
      Cuts isg (isg + npts - 1) n
        (if symmetrize npts n then max 1 ((npts / n : Nat) - 1 : Int) else (npts / n : Nat))
        ((npts / n : Nat) + 1) P ∧
      (symmetrize npts n = true → ∀ j, j ≤ n → P (n - j) = isg + (isg + npts - 1) + 1 - P j) := by
  have hq1 : 1 ≤ npts / n := (Nat.one_le_div_iff (by omega)).2 hle
  have hlo' : npts / n * n ≤ npts := Nat.div_mul_le_self _ _
  have hhi' : npts < (npts / n + 1) * n := by
    have h1 := Nat.div_add_mod npts n
    have h2 := Nat.mod_lt npts (show n > 0 by omega)
    rw [Nat.add_mul, Nat.one_mul, Nat.mul_comm]; omega
  have hlen : isg + npts - 1 - isg + 1 = npts := by omega
  have hlo : ((npts / n : Nat) : Int) * n ≤ isg + npts - 1 - isg + 1 := by
    rw [hlen]; exact_mod_cast hlo'
  have hhi : isg + npts - 1 - isg + 1 ≤ (((npts / n : Nat) : Int) + 1) * n := by
    rw [hlen]; exact_mod_cast (Nat.le_of_lt hhi')
  cases hs : symmetrize npts n with
  | false =>
    obtain ⟨P, h1, h2⟩ := extLoop_plain isg (isg + npts - 1) n (npts / n : Nat) hn
      (by exact_mod_cast hq1) hlo hhi (by rw [hlen]; exact hs)
    exact ⟨P, h1, by simpa using h2, by simp⟩
  | true =>
    have hpar : (isg + npts - 1 - isg + 1) % 2 = (n : Int) % 2 ∨
        ((n : Int) % 2 = 1 ∧ (2 : Int) ≤ (npts / n : Nat)) := by
      rw [hlen]
      simp only [symmetrize, Bool.or_eq_true, Bool.and_eq_true, beq_iff_eq, decide_eq_true_eq] at hs
      rcases hs with (h | h) | h
      · left; omega
      · left; omega
      · right
        refine ⟨h.1.1, ?_⟩
        have h3 : 2 * n ≤ npts := by omega
        have : 2 ≤ npts / n := (Nat.le_div_iff_mul_le (by omega)).2 h3
        exact_mod_cast this
    obtain ⟨P, h1, h2, h3⟩ := extLoop_sym isg (isg + npts - 1) n (npts / n : Nat) hn
      (by exact_mod_cast hq1) hlo hhi hpar (by rw [hlen]; exact hs)
    exact ⟨P, h1, by simpa using h2, fun _ => h3⟩

/-! ### The scatter version simulates the library version -/

theorem scatterStep_of_extStep (sym : Bool) (isg ieg : Int) (n k : Nat) (st st' : ExtSt)
    (hk : k < n) (hnd : st.ndmax = n - (if sym then min k (n / 2) else 0 : Nat))
    (h : extStep sym isg ieg n k st = .ok st') :
    scatterStep sym isg ieg n k (st, 0) = .ok (st', 0) ∧
      st'.ndmax = n - (if sym then min (k + 1) (n / 2) else 0 : Nat) := by
  have hneg : ∀ a b : Int, 0 < b → a ≤ 0 → ceilDiv a b ≤ 0 := by
    intro a b hb ha
    have := (ceilDiv_bounds a b hb).2
    by_contra hc
    have : 1 ≤ ceilDiv a b := by omega
    nlinarith
  unfold extStep at h
  unfold scatterStep
  by_cases hb : k < (n - 1) / 2 + 1
  · have hpos : 0 < st.ndmax - k := by
      rw [hnd]; split <;> push_cast <;> omega
    simp only [hb, if_true] at h ⊢
    have hw : ¬ (st.imax < st.is ∨ st.ndmax ≤ k) := by
      intro hh
      have h1 : st.imax < st.is := by omega
      have := hneg (st.imax - st.is + 1) (st.ndmax - k) hpos (by omega)
      split at h
      · rw [if_pos (by omega)] at h; cases h
      · rw [if_pos (by omega)] at h; cases h
    rw [if_neg hw]
    split at h
    · rename_i hm
      simp only [hm, and_self, if_true]
      split at h
      · cases h
      · rename_i h1
        split at h
        · cases h
        · rename_i h2
          cases h
          simp only [h1, h2, if_false]
          refine ⟨trivial, ?_⟩
          simp only [hm.2, if_true] at hnd ⊢
          omega
    · rename_i hm
      simp only [hm, if_false]
      split at h
      · cases h
      · rename_i h1
        split at h
        · cases h
        · rename_i h2
          cases h
          simp only [h1, h2, if_false]
          refine ⟨trivial, ?_⟩
          rw [hnd]
          split <;> rename_i hsym
          · have : ¬ (n - 1 - k > k) := by intro hh; exact hm ⟨hh, hsym⟩
            omega
          · rfl
  · simp only [hb, if_false] at h ⊢
    cases sym with
    | true =>
      simp only [if_true] at h ⊢
      cases ht : st.tab k with
      | none => rw [ht] at h; cases h
      | some v =>
        obtain ⟨b, e⟩ := v
        rw [ht] at h
        simp only at h ⊢
        split at h
        · cases h
        · rename_i h1
          split at h
          · cases h
          · rename_i h2
            cases h
            simp only [h1, h2, if_false]
            refine ⟨trivial, ?_⟩
            simp only [if_true] at hnd
            omega
    | false =>
      simp only [if_false, Bool.false_eq_true] at h ⊢ hnd
      have hpos : 0 < st.ndmax - k := by omega
      have hw : ¬ (st.imax < st.is ∨ st.ndmax ≤ k) := by
        intro hh
        have := hneg (st.imax - st.is + 1) (st.ndmax - k) hpos (by omega)
        rw [if_pos (by omega)] at h; cases h
      rw [if_neg hw]
      split at h
      · cases h
      · rename_i h1
        split at h
        · cases h
        · rename_i h2
          cases h
          simp only [h1, h2, if_false]
          exact ⟨trivial, hnd⟩

theorem scatterLoop_of_extLoop (sym : Bool) (isg ieg : Int) (n : Nat) :
    ∀ (m k : Nat) (st st' : ExtSt), k + m = n →
      st.ndmax = n - (if sym then min k (n / 2) else 0 : Nat) →
      forLoop (extStep sym isg ieg n) k m st = .ok st' →
      forLoop (scatterStep sym isg ieg n) k m (st, 0) = .ok (st', 0) := by
  intro m
  induction m with
  | zero => intro k st st' _ _ h; simp [forLoop] at h ⊢; exact h
  | succ m ih =>
    intro k st st' hk hnd h
    simp only [forLoop] at h
    split at h
    · cases h
    · rename_i st1 h1
      obtain ⟨h2, h3⟩ := scatterStep_of_extStep sym isg ieg n k st st1 (by omega) hnd h1
      simp only [forLoop, h2]
      exact ih (k + 1) st1 st' (by omega) h3 h

theorem scatterComputeExtent_eq (isg ieg : Int) (n : Nat) (l : List (Int × Int))
    (h : extLoop isg ieg n = .ok l) : scatterComputeExtent isg ieg n = .ok (l, 0) := by
  unfold extLoop at h
  unfold scatterComputeExtent
  split at h
  · cases h
  · rename_i st hst
    rw [scatterLoop_of_extLoop _ isg ieg n n 0 _ st (by omega) (by simp) hst]
    simp only [h]

end Verif
