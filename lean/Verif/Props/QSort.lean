/-
C53: `qsort_index` sorts any array and keeps track of where the elements were.
-/
import Verif.Model.QSort
import Verif.Spec.QSort
import Mathlib.Logic.Equiv.Basic
import Mathlib.Tactic.ByContra
import Mathlib.Algebra.Order.Ring.Int

namespace Verif.QSort
open Spec

section
variable {α : Type*}

theorem _root_.Verif.Spec.RearrangedOn.refl (s e : Nat) (a : Nat → α) : RearrangedOn s e a a :=
  ⟨Equiv.refl _, fun _ _ => rfl, fun _ => rfl⟩

theorem _root_.Verif.Spec.RearrangedOn.trans {s e : Nat} {a b c : Nat → α} (h : RearrangedOn s e a b)
    (h' : RearrangedOn s e b c) : RearrangedOn s e a c := by
  obtain ⟨σ, h1, h2⟩ := h
  obtain ⟨τ, h3, h4⟩ := h'
  refine ⟨τ.trans σ, fun k hk => ?_, fun k => ?_⟩
  · rw [Equiv.trans_apply, h3 k hk, h1 k hk]
  · rw [h4, h2, Equiv.trans_apply]

theorem _root_.Verif.Spec.RearrangedOn.widen {s e s' e' : Nat} {a b : Nat → α} (h : RearrangedOn s e a b)
    (hs : s' ≤ s) (he : e ≤ e') : RearrangedOn s' e' a b := by
  obtain ⟨σ, h1, h2⟩ := h
  exact ⟨σ, fun k hk => h1 k (by omega), h2⟩

theorem rearranged_swap {s e i j : Nat} (a : Nat → α) (hi : s ≤ i ∧ i ≤ e) (hj : s ≤ j ∧ j ≤ e) :
    RearrangedOn s e a (swap a i j) := by
  refine ⟨Equiv.swap i j, fun k hk => Equiv.swap_apply_of_ne_of_ne (by omega) (by omega), ?_⟩
  intro k
  unfold swap
  split
  · next h => rw [h, Equiv.swap_apply_left]
  · split
    · next h => rw [h, Equiv.swap_apply_right]
    · next h1 h2 => rw [Equiv.swap_apply_of_ne_of_ne h1 h2]

/-- A rearrangement keeps what holds for all elements of the part. -/
theorem _root_.Verif.Spec.RearrangedOn.forall {s e : Nat} {a b : Nat → α} (h : RearrangedOn s e a b)
    {P : α → Prop} {u v : Nat} (hu : u ≤ s) (hv : e ≤ v) (hP : ∀ k, u ≤ k → k ≤ v → P (a k)) :
    ∀ k, u ≤ k → k ≤ v → P (b k) := by
  obtain ⟨σ, h1, h2⟩ := h
  intro k hk hk'
  rw [h2]
  by_cases hin : u ≤ σ k ∧ σ k ≤ v
  · exact hP _ hin.1 hin.2
  · have : σ (σ k) = σ k := h1 _ (by omega)
    have := σ.injective this
    omega

theorem _root_.Verif.Spec.RearrangedOn.outside {s e : Nat} {a b : Nat → α} (h : RearrangedOn s e a b) {k : Nat}
    (hk : k < s ∨ e < k) : b k = a k := by
  obtain ⟨σ, h1, h2⟩ := h
  rw [h2, h1 k hk]
end

variable {K : Type*} [LinearOrder K]

theorem skip_spec (a : Nat → K × Nat) (pivot : K) (l : Nat) : ∀ r, l ≤ r →
    let r' := skip a pivot l r
    l ≤ r' ∧ r' ≤ r ∧ (∀ k, r' < k → k ≤ r → pivot ≤ (a k).1) ∧ (l < r' → (a r').1 < pivot) := by
  intro r
  induction r with
  | zero =>
    intro h
    exact ⟨by simpa [skip] using h, by simp [skip], by simp [skip]; omega, by simp [skip]⟩
  | succ r ih =>
    intro h
    simp only [skip]
    split
    · next hc =>
      obtain ⟨h1, h2, h3, h4⟩ := ih (by omega)
      refine ⟨h1, by omega, ?_, h4⟩
      intro k hk hk'
      by_cases he : k = r + 1
      · rw [he]; exact hc.2
      · exact h3 k hk (by omega)
    · next hc =>
      refine ⟨h, le_rfl, fun k _ _ => by omega, fun hl => ?_⟩
      by_contra hh
      exact hc ⟨hl, by simpa using hh⟩

/-- The partition: it stops, and separates the small elements from the large
ones. -/
theorem partLoop_spec (pivot : K) (s e : Nat) : ∀ (fuel : Nat) (a : Nat → K × Nat) (l r : Nat),
    s < l → l ≤ r → r ≤ e → (∀ k, s < k → k < l → (a k).1 ≤ pivot) →
    (∀ k, r < k → k ≤ e → pivot ≤ (a k).1) → (r < e → pivot ≤ (a r).1) →
    2 * (r - l) + (if (a l).1 ≤ pivot then 0 else 1) < fuel →
    ∃ b m, partLoop pivot fuel a l r = some (b, m, m) ∧ l ≤ m ∧ m ≤ r ∧ RearrangedOn (s + 1) e a b ∧
      (∀ k, s < k → k < m → (b k).1 ≤ pivot) ∧ (∀ k, m < k → k ≤ e → pivot ≤ (b k).1) ∧
      (m < e → pivot ≤ (b m).1) := by
  intro fuel
  induction fuel with
  | zero => intro a l r _ _ _ _ _ _ h; omega
  | succ fuel ih =>
    intro a l r h1 h2 h3 h4 h5 h6 hf
    rw [partLoop]
    by_cases hlr : l < r
    · rw [if_pos hlr]
      by_cases hp : (a l).1 ≤ pivot
      · rw [if_pos hp]
        rw [if_pos hp] at hf
        obtain ⟨b, m, hb, hm1, hm2, hr⟩ := ih a (l + 1) r (by omega) (by omega) h3
          (fun k hk hk' => by
            by_cases he : k = l
            · rw [he]; exact hp
            · exact h4 k hk (by omega)) h5 h6 (by split <;> omega)
        exact ⟨b, m, hb, by omega, hm2, hr⟩
      · rw [if_neg hp]
        rw [if_neg hp] at hf
        obtain ⟨k1, k2, k3, k4⟩ := skip_spec a pivot l r (by omega)
        dsimp only
        generalize skip a pivot l r = r' at *
        have hpl : pivot < (a l).1 := lt_of_not_ge hp
        have hl' : (swap a l r' l) = a r' := by simp [swap]
        have hr' : (swap a l r' r') = a l := by
          unfold swap
          by_cases h : r' = l
          · simp [h]
          · simp [h]
        have hk' : ∀ k, k ≠ l → k ≠ r' → swap a l r' k = a k := by
          intro k hk1 hk2; simp [swap, hk1, hk2]
        have hre := rearranged_swap (s := s + 1) (e := e) a (i := l) (j := r') (by omega) (by omega)
        obtain ⟨b, m, hb, hm1, hm2, hr, rest⟩ := ih (swap a l r') l r' h1 k1 (by omega)
          (fun k hk hk2 => by rw [hk' k (by omega) (by omega)]; exact h4 k hk hk2)
          (fun k hk hk2 => by
            rw [hk' k (by omega) (by omega)]
            by_cases hkr : k ≤ r
            · exact k3 k hk hkr
            · exact h5 k (by omega) hk2)
          (fun _ => by rw [hr']; exact le_of_lt hpl)
          (by
            rw [hl']
            by_cases he : l < r'
            · rw [if_pos (le_of_lt (k4 he))]
              omega
            · split <;> omega)
        exact ⟨b, m, hb, hm1, by omega, hre.trans hr, rest⟩
    · rw [if_neg hlr]
      have : l = r := by omega
      subst this
      exact ⟨a, l, rfl, le_rfl, le_rfl, RearrangedOn.refl _ _ _, h4, h5, h6⟩

theorem qsort_spec (loopFuel : Nat) : ∀ (fuel : Nat) (a : Nat → K × Nat) (s e : Nat),
    e - s < fuel → 2 * (e - s) < loopFuel →
    ∃ b, qsort loopFuel fuel a s e = some b ∧ RearrangedOn s e a b ∧ SortedOn s e (fun k => (b k).1) := by
  intro fuel
  induction fuel with
  | zero => intro a s e h _; omega
  | succ fuel ih =>
    intro a s e hf hlf
    rw [qsort]
    by_cases hse : e > s
    · rw [if_pos hse]
      dsimp only
      have hre0 := rearranged_swap (s := s) (e := e) a (i := s) (j := s + (e - s) / 2) (by omega)
        (by omega)
      generalize swap a s (s + (e - s) / 2) = a1 at *
      obtain ⟨a2, m, hp, hm1, hm2, hre1, hlo, hhi, hmid⟩ := partLoop_spec (a1 s).1 s e loopFuel a1
        (s + 1) e (by omega) (by omega) le_rfl (fun k _ _ => by omega) (fun k _ _ => by omega)
        (fun h => by omega) (by split <;> omega)
      have hs2 : a2 s = a1 s := hre1.outside (by omega)
      rw [hp]
      dsimp only
      have hre01 : RearrangedOn s e a a2 := hre0.trans (hre1.widen (by omega) le_rfl)
      by_cases hc : m ≠ e ∨ (a2 e).1 > (a1 s).1
      · rw [if_pos hc]
        have hmge : (a1 s).1 ≤ (a2 m).1 := by
          by_cases hme : m = e
          · rcases hc with hc | hc
            · exact absurd hme hc
            · rw [hme]; exact le_of_lt hc
          · exact hmid (by omega)
        have hre2 := rearranged_swap (s := s) (e := m - 1) a2 (i := s) (j := m - 1) (by omega) (by omega)
        have hlast : (swap a2 s (m - 1)) (m - 1) = a1 s := by
          unfold swap
          split
          · next h => rw [h, hs2]
          · rw [if_pos rfl, hs2]
        obtain ⟨a4, h4, hre4, hs4⟩ := ih (swap a2 s (m - 1)) s (m - 1) (by omega) (by omega)
        rw [h4]
        dsimp only
        obtain ⟨a5, h5, hre5, hs5⟩ := ih a4 m e (by omega) (by omega)
        refine ⟨a5, h5, ?_, ?_⟩
        · exact (hre01.trans (hre2.widen le_rfl (by omega))).trans
            ((hre4.widen le_rfl (by omega)).trans (hre5.widen (by omega) le_rfl))
        · have L2 : ∀ k, s ≤ k → k ≤ m - 1 → (a2 k).1 ≤ (a1 s).1 := by
            intro k hk hk'
            by_cases hks : k = s
            · rw [hks, hs2]
            · exact hlo k (by omega) (by omega)
          have L4 : ∀ k, s ≤ k → k ≤ m - 1 → (a4 k).1 ≤ (a1 s).1 :=
            hre4.forall (P := fun x => x.1 ≤ (a1 s).1) le_rfl le_rfl
              (hre2.forall (P := fun x => x.1 ≤ (a1 s).1) le_rfl le_rfl L2)
          have R4 : ∀ k, m ≤ k → k ≤ e → (a1 s).1 ≤ (a4 k).1 := by
            intro k hk hk'
            rw [hre4.outside (by omega), hre2.outside (by omega)]
            by_cases hkm : k = m
            · rw [hkm]; exact hmge
            · exact hhi k (by omega) hk'
          have R5 : ∀ k, m ≤ k → k ≤ e → (a1 s).1 ≤ (a5 k).1 :=
            hre5.forall (P := fun x => (a1 s).1 ≤ x.1) le_rfl le_rfl R4
          intro i j hi hij hj
          by_cases hjm : j < m
          · show (a5 i).1 ≤ (a5 j).1
            rw [hre5.outside (Or.inl hjm), hre5.outside (Or.inl (by omega))]
            exact hs4 i j hi hij (by omega)
          · by_cases him : i < m
            · refine le_trans ?_ (R5 j (by omega) hj)
              show (a5 i).1 ≤ _
              rw [hre5.outside (Or.inl him)]
              exact L4 i hi (by omega)
            · exact hs5 i j (by omega) hij hj
      · rw [if_neg hc]
        have hme : m = e := by
          by_contra h; exact hc (Or.inl h)
        have hle : (a2 e).1 ≤ (a1 s).1 := by
          by_contra h; exact hc (Or.inr (lt_of_not_ge h))
        subst hme
        have hre2 := rearranged_swap (s := s) (e := m) a2 (i := s) (j := m) (by omega) (by omega)
        have hlast : (swap a2 s m) m = a1 s := by
          unfold swap
          split
          · next h => omega
          · rw [if_pos rfl, hs2]
        obtain ⟨a4, h4, hre4, hs4⟩ := ih (swap a2 s m) s (m - 1) (by omega) (by omega)
        refine ⟨a4, h4, (hre01.trans hre2).trans (hre4.widen le_rfl (by omega)), ?_⟩
        have L2 : ∀ k, s ≤ k → k ≤ m → (a2 k).1 ≤ (a1 s).1 := by
          intro k hk hk'
          by_cases hks : k = s
          · rw [hks, hs2]
          · by_cases hkm : k = m
            · rw [hkm]; exact hle
            · exact hlo k (by omega) (by omega)
        have L4 : ∀ k, s ≤ k → k ≤ m → (a4 k).1 ≤ (a1 s).1 :=
          hre4.forall (P := fun x => x.1 ≤ (a1 s).1) le_rfl (by omega)
            (hre2.forall (P := fun x => x.1 ≤ (a1 s).1) le_rfl le_rfl L2)
        intro i j hi hij hj
        by_cases hjm : j ≤ m - 1
        · exact hs4 i j hi hij hjm
        · have : j = m := by omega
          subst this
          have hj4 : a4 j = a1 s := by rw [hre4.outside (Or.inr (by omega)), hlast]
          show (a4 i).1 ≤ (a4 j).1
          rw [hj4]
          exact L4 i hi (by omega)
    · rw [if_neg hse]
      refine ⟨a, rfl, RearrangedOn.refl _ _ _, ?_⟩
      intro i j hi hij hj
      have : i = j := by omega
      rw [this]

/-- C53.  Given enough steps (the number depends on the length only, so the
function always ends), `qsort_index` returns an array whose elements from
`start` to `stop` are the old ones in another order and do not decrease.
Elements outside are not touched.  The companion array is rearranged in the
same way, as the elements are pairs. -/
theorem C53_sorts (a : Nat → K × Nat) (start stop : Nat) (loopFuel fuel : Nat)
    (hl : 2 * (stop - start) < loopFuel) (hf : stop - start < fuel) :
    ∃ b, qsort loopFuel fuel a start stop = some b ∧ RearrangedOn start stop a b ∧
      SortedOn start stop (fun k => (b k).1) :=
  qsort_spec loopFuel fuel a start stop hf hl

/-- C53.  Called as in `sort_basin`, with the companion array holding 0, 1, ...:
afterwards the companion array holds each index below `n` exactly once, and says
where each element of the sorted array came from. -/
theorem C53_index (arr : Nat → K) (n : Nat) (loopFuel fuel : Nat)
    (hl : 2 * (n - 1) < loopFuel) (hf : n - 1 < fuel) :
    ∃ b, qsort loopFuel fuel (fun k => (arr k, k)) 0 (n - 1) = some b ∧
      (∀ k, (b k).1 = arr (b k).2) ∧
      (∀ i j, i < j → j < n → (b i).1 ≤ (b j).1) ∧
      (∀ k, k < n → (b k).2 < n) ∧
      (∀ m, m < n → ∃ k, k < n ∧ (b k).2 = m ∧ ∀ k', k' < n → (b k').2 = m → k' = k) := by
  obtain ⟨b, hb, ⟨σ, h1, h2⟩, hs⟩ := C53_sorts (fun k => (arr k, k)) 0 (n - 1) loopFuel fuel
    (by omega) (by omega)
  have hk : ∀ k, (b k).2 = σ k := fun k => by rw [h2]
  have hlt : ∀ k, k < n → σ k < n := by
    intro k hk
    by_contra hn
    have := σ.injective (h1 (σ k) (by omega))
    omega
  refine ⟨b, hb, fun k => by rw [h2], fun i j hij hj => hs i j (Nat.zero_le _) (by omega) (by omega),
    fun k hkn => by rw [hk]; exact hlt k hkn, fun m hm => ?_⟩
  refine ⟨σ.symm m, ?_, by rw [hk, Equiv.apply_symm_apply], fun k' _ he => ?_⟩
  · by_contra hn
    have := h1 (σ.symm m) (by omega)
    rw [Equiv.apply_symm_apply] at this
    omega
  · rw [hk] at he
    rw [← he, Equiv.symm_apply_apply]

/-- The test case of the source (river_regrid.c 281-286). -/
example : (qsort 13 7 (fun k => (([12, 5, 18, 25, 14, 4, 11] : List Int).getD k 0, k)) 0 6).map
    (fun b => (List.range 7).map b) =
      some [(4, 5), (5, 1), (11, 6), (12, 0), (14, 4), (18, 2), (25, 3)] := by decide +kernel

end Verif.QSort
