import Verif.Model.RemapCohort
import Mathlib.Logic.Equiv.Basic
import Mathlib.Order.Basic
import Mathlib.Algebra.Group.Int.Defs
/-
The sort function of remap_land sorts and only moves elements, for all random numbers.
-/
namespace Verif.RemapLand

variable {α : Type}

/-- `b` has the elements of `a`, those between `low` and `high` in another order. -/
def PermOn (low high : Int) (a b : Int → α) : Prop :=
  ∃ σ : Equiv.Perm Int, (∀ q, q < low ∨ high < q → σ q = q) ∧ ∀ q, b q = a (σ q)

theorem PermOn.refl (low high : Int) (a : Int → α) : PermOn low high a a := ⟨Equiv.refl _, fun _ _ => rfl, fun _ => rfl⟩

theorem PermOn.trans {low high : Int} {a b c : Int → α} (h1 : PermOn low high a b) (h2 : PermOn low high b c) :
    PermOn low high a c := by
  obtain ⟨σ, s1, s2⟩ := h1
  obtain ⟨τ, t1, t2⟩ := h2
  refine ⟨τ.trans σ, fun q hq => ?_, fun q => ?_⟩
  · rw [Equiv.trans_apply, t1 q hq, s1 q hq]
  · rw [t2, s2]; rfl

theorem PermOn.mono {low high low' high' : Int} {a b : Int → α} (h : PermOn low high a b) (h1 : low' ≤ low)
    (h2 : high ≤ high') : PermOn low' high' a b := by
  obtain ⟨σ, s1, s2⟩ := h
  exact ⟨σ, fun q hq => s1 q (by omega), s2⟩

theorem PermOn.outside {low high : Int} {a b : Int → α} (h : PermOn low high a b) (q : Int) (hq : q < low ∨ high < q) :
    b q = a q := by
  obtain ⟨σ, s1, s2⟩ := h
  rw [s2, s1 q hq]

/-- Elements between the bounds come from there. -/
theorem PermOn.inside {low high : Int} {a b : Int → α} (h : PermOn low high a b) (q : Int) (h1 : low ≤ q) (h2 : q ≤ high) :
    ∃ r, low ≤ r ∧ r ≤ high ∧ b q = a r := by
  obtain ⟨σ, s1, s2⟩ := h
  refine ⟨σ q, ?_, ?_, s2 q⟩
  · by_contra hlt
    have h3 := s1 (σ q) (by omega)
    have := σ.injective h3
    omega
  · by_contra hlt
    have h3 := s1 (σ q) (by omega)
    have := σ.injective h3
    omega

theorem permOn_swap (a : Int → α) (i j low high : Int) (h1 : low ≤ i) (h2 : i ≤ high) (h3 : low ≤ j) (h4 : j ≤ high) :
    PermOn low high a (swapVals a i j) := by
  refine ⟨Equiv.swap i j, fun q hq => Equiv.swap_apply_of_ne_of_ne (by omega) (by omega), fun q => ?_⟩
  unfold swapVals
  rw [Equiv.swap_apply_def]
  split
  · rfl
  · split <;> rfl

theorem partLoop_spec (key : α → Int) (pivot low : Int) (a : Int → α) (n : Nat) :
    low - 1 ≤ (partLoop key pivot low a n).2 ∧ (partLoop key pivot low a n).2 ≤ low + n - 1
    ∧ (∀ q, low ≤ q → q ≤ (partLoop key pivot low a n).2 → key ((partLoop key pivot low a n).1 q) ≤ pivot)
    ∧ (∀ q, (partLoop key pivot low a n).2 < q → q < low + n → pivot < key ((partLoop key pivot low a n).1 q))
    ∧ PermOn low (low + n - 1) a (partLoop key pivot low a n).1 := by
  induction n with
  | zero =>
    refine ⟨le_refl _, by simp [partLoop], fun q h1 h2 => ?_, fun q h1 h2 => ?_, PermOn.refl _ _ _⟩
    · simp only [partLoop] at h2; omega
    · simp only [partLoop] at h1; omega
  | succ n ih =>
    rw [partLoop]
    obtain ⟨s, hs⟩ : ∃ s, partLoop key pivot low a n = s := ⟨_, rfl⟩
    rw [hs] at ih ⊢
    obtain ⟨h1, h2, h3, h4, h5⟩ := ih
    push_cast
    by_cases hk : key (s.1 (low + n)) ≤ pivot
    · rw [if_pos hk]
      refine ⟨by dsimp only; omega, by dsimp only; omega, ?_, ?_, ?_⟩
      · intro q a1 a2
        dsimp only at a2 ⊢
        unfold swapVals
        by_cases hq : q = s.2 + 1
        · rw [if_pos hq]; exact hk
        · rw [if_neg hq, if_neg (by omega)]
          exact h3 q a1 (by omega)
      · intro q a1 a2
        dsimp only at a1 ⊢
        unfold swapVals
        rw [if_neg (by omega)]
        by_cases hq : q = low + n
        · rw [if_pos hq]
          exact h4 _ (by omega) (by omega)
        · rw [if_neg hq]
          exact h4 q (by omega) (by omega)
      · exact (h5.mono (le_refl _) (by omega)).trans (permOn_swap _ _ _ _ _ (by omega) (by omega) (by omega) (by omega))
    · rw [if_neg hk]
      refine ⟨h1, by omega, h3, fun q a1 a2 => ?_, h5.mono (le_refl _) (by omega)⟩
      by_cases hq : q = low + n
      · rw [hq]; omega
      · exact h4 q a1 (by omega)

theorem partition_spec (key : α → Int) (a : Int → α) (low high : Int) (hlh : low ≤ high) :
    low ≤ (partition key a low high).2 ∧ (partition key a low high).2 ≤ high
    ∧ (∀ q, low ≤ q → q < (partition key a low high).2 →
        key ((partition key a low high).1 q) ≤ key ((partition key a low high).1 (partition key a low high).2))
    ∧ (∀ q, (partition key a low high).2 < q → q ≤ high →
        key ((partition key a low high).1 (partition key a low high).2) < key ((partition key a low high).1 q))
    ∧ PermOn low high a (partition key a low high).1 := by
  unfold partition
  have := partLoop_spec key (key (a high)) low a (high - low).toNat
  obtain ⟨s, hs⟩ : ∃ s, partLoop key (key (a high)) low a (high - low).toNat = s := ⟨_, rfl⟩
  rw [hs] at this ⊢
  obtain ⟨h1, h2, h3, h4, h5⟩ := this
  dsimp only
  have hn : ((high - low).toNat : Int) = high - low := Int.toNat_of_nonneg (by omega)
  rw [hn] at h2 h4 h5
  have hhigh : s.1 high = a high := h5.outside high (by omega)
  have hp : swapVals s.1 (s.2 + 1) high (s.2 + 1) = a high := by
    unfold swapVals
    rw [if_pos rfl, hhigh]
  refine ⟨by omega, by omega, ?_, ?_, ?_⟩
  · intro q a1 a2
    rw [hp]
    unfold swapVals
    rw [if_neg (by omega), if_neg (by omega)]
    exact h3 q a1 (by omega)
  · intro q a1 a2
    rw [hp]
    unfold swapVals
    rw [if_neg (by omega)]
    by_cases hq : q = high
    · rw [if_pos hq]
      exact h4 _ (by omega) (by omega)
    · rw [if_neg hq]
      exact h4 q (by omega) (by omega)
  · exact (h5.mono (le_refl _) (by omega)).trans (permOn_swap _ _ _ _ _ (by omega) (by omega) (by omega) (by omega))

theorem quickSortRec_spec (key : α → Int) (rnd : Int → Int → Nat) (fuel : Nat) (a : Int → α) (low high : Int)
    (hf : high - low < fuel) :
    PermOn low high a (quickSortRec key rnd fuel a low high)
    ∧ ∀ i j, low ≤ i → i < j → j ≤ high →
        key (quickSortRec key rnd fuel a low high i) ≤ key (quickSortRec key rnd fuel a low high j) := by
  induction fuel generalizing a low high with
  | zero => exact ⟨PermOn.refl _ _ _, fun i j h1 h2 h3 => by omega⟩
  | succ fuel ih =>
    rw [quickSortRec]
    by_cases hlh : low < high
    · rw [if_pos hlh]
      have hr0 : 0 ≤ (rnd low high : Int) % (high - low) := Int.emod_nonneg _ (by omega)
      have hr1 : (rnd low high : Int) % (high - low) < high - low := Int.emod_lt_of_pos _ (by omega)
      have hp := partition_spec key (swapVals a (low + rnd low high % (high - low)) high) low high (by omega)
      have hperm0 : PermOn low high a (swapVals a (low + rnd low high % (high - low)) high) :=
        permOn_swap _ _ _ _ _ (by omega) (by omega) (by omega) (by omega)
      unfold partitionRp
      obtain ⟨s, hs⟩ : ∃ s, partition key (swapVals a (low + rnd low high % (high - low)) high) low high = s := ⟨_, rfl⟩
      rw [hs] at hp
      dsimp only
      rw [hs]
      obtain ⟨h1, h2, h3, h4, h5⟩ := hp
      obtain ⟨l1, l2⟩ := ih s.1 low (s.2 - 1) (by push_cast at hf; omega)
      obtain ⟨b, hb⟩ : ∃ b, quickSortRec key rnd fuel s.1 low (s.2 - 1) = b := ⟨_, rfl⟩
      rw [hb] at l1 l2 ⊢
      obtain ⟨r1, r2⟩ := ih b (s.2 + 1) high (by push_cast at hf; omega)
      obtain ⟨c, hc⟩ : ∃ c, quickSortRec key rnd fuel b (s.2 + 1) high = c := ⟨_, rfl⟩
      rw [hc] at r1 r2 ⊢
      refine ⟨(hperm0.trans h5).trans ((l1.mono (le_refl _) (by omega)).trans (r1.mono (by omega) (le_refl _))), ?_⟩
      have hmid : c s.2 = s.1 s.2 := by rw [r1.outside _ (by omega), l1.outside _ (by omega)]
      have hleft : ∀ q, low ≤ q → q < s.2 → key (c q) ≤ key (c s.2) := by
        intro q a1 a2
        rw [r1.outside q (by omega), hmid]
        obtain ⟨r, b1, b2, b3⟩ := l1.inside q a1 (by omega)
        rw [b3]
        exact h3 r b1 (by omega)
      have hright : ∀ q, s.2 < q → q ≤ high → key (c s.2) ≤ key (c q) := by
        intro q a1 a2
        rw [hmid]
        obtain ⟨r, b1, b2, b3⟩ := r1.inside q (by omega) a2
        rw [b3, l1.outside r (by omega)]
        exact (h4 r (by omega) b2).le
      intro i j a1 a2 a3
      rcases lt_trichotomy i s.2 with h | h | h
      · rcases lt_trichotomy j s.2 with h' | h' | h'
        · rw [r1.outside i (by omega), r1.outside j (by omega)]
          exact l2 i j a1 a2 (by omega)
        · rw [h']
          exact hleft i a1 h
        · exact (hleft i a1 h).trans (hright j h' a3)
      · rw [h]
        exact hright j (by omega) a3
      · exact r2 i j (by omega) a2 a3
    · rw [if_neg hlh]
      exact ⟨PermOn.refl _ _ _, fun i j h1 h2 h3 => by omega⟩

theorem quickSort_spec (key : α → Int) (rnd : Int → Int → Nat) (a : Int → α) (n : Nat) :
    PermOn 0 (n - 1) a (quickSort key rnd a n)
    ∧ ∀ i j : Nat, i < j → j < n → key (quickSort key rnd a n i) ≤ key (quickSort key rnd a n j) := by
  obtain ⟨h1, h2⟩ := quickSortRec_spec key rnd n a 0 (n - 1) (by omega)
  exact ⟨h1, fun i j hi hj => h2 i j (by omega) (by omega) (by omega)⟩

end Verif.RemapLand
