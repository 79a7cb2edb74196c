import Verif.Lemmas.Extrapolate
import Mathlib.Algebra.Order.Ring.Rat
import Mathlib.Algebra.Field.Rat
import Mathlib.Tactic.NormNum
import Mathlib.Tactic.IntervalCases
/-
C80: extrapolation of missing values.
-/
namespace Verif

open Verif.Extrapolate Verif.Spec.Ext

section field
variable {K : Type} [Field K] [LinearOrder K] [IsStrictOrderedRing K]

/-- A grid for the examples: three columns and rows, flat. -/
def extPar (stop : ℚ) : Par ℚ where
  ni := 3
  nj := 3
  cyclic := false
  cos _ := 1
  lon i := i
  lat j := j
  relCoef := 9 / 10
  eps := 1 / 10 ^ 10
  miss := -100
  stop := stop
  maxIter := 4000

theorem ext_grid (stop : ℚ) : Grid (extPar stop).cos (extPar stop).ni (extPar stop).nj (extPar stop).lon (extPar stop).lat := by
  refine ⟨le_of_eq_of_le rfl (by norm_num : 2 ≤ 3), le_of_eq_of_le rfl (by norm_num : 2 ≤ 3), ?_, ?_, ?_, ?_, ?_, ?_⟩ <;>
    simp [extPar]

omit [IsStrictOrderedRing K] in
theorem ext_run (p : Par K) (data : Nat → Nat → Nat → K) (Q : (Nat → Nat → K) → Prop) (h0 : Q (fun _ _ => 0))
    (hQ : ∀ k t, Q t → Q (level p (data k) t).1) (k : Nat) :
    ∃ t, Q t ∧ run p data k = level p (data k) t := by
  have : ∀ k, Q (run p data k).1 := by
    intro k
    induction k with
    | zero => exact hQ 0 _ h0
    | succ k ih => exact hQ (k + 1) _ ih
  cases k with
  | zero => exact ⟨_, h0, rfl⟩
  | succ k => exact ⟨_, this k, rfl⟩

/-- C80: a cell which is not missing keeps its value. -/
theorem C80_valid (p : Par K) (data : Nat → Nat → Nat → K) (hm : 1 ≤ p.maxIter) (k j i : Nat) (hj : j < p.nj) (hi : i < p.ni)
    (hv : p.eps < |data k j i - p.miss|) : out p data k j i = data k j i := by
  have hfill : ∀ t : Nat → Nat → K, fill p.ni p.nj p.cyclic t (j + 1) (i + 1) = t (j + 1) (i + 1) := by
    intro t
    unfold fill
    split
    · rw [if_neg (by omega), if_neg (by omega)]
    · rfl
  have hs : sorOf p.relCoef p.eps p.miss (data k) j i = 0 := by
    unfold sorOf
    rw [if_neg (not_le.2 hv)]
  have hrel : ∀ t, relax p.ni p.nj (coef p.cos p.ni p.nj p.lon p.lat) (sorOf p.relCoef p.eps p.miss (data k)) t (j + 1) (i + 1)
      = t (j + 1) (i + 1) := by
    intro t
    unfold relax change
    rw [if_pos (by omega), Nat.add_sub_cancel, Nat.add_sub_cancel, hs, mul_zero, add_zero]
  obtain ⟨t, -, hr⟩ := ext_run p data (fun _ => True) trivial (fun _ _ _ => trivial) k
  unfold out
  rw [hr]
  unfold level
  obtain ⟨t1, hq, he⟩ := iterate_last (stop := p.stop) (fun t => t (j + 1) (i + 1) = data k j i)
    (fun t ht => by rw [hfill, hrel]; exact ht) p.maxIter (start p.ni p.nj p.eps p.miss (data k) t) hm (by
      rw [hfill]
      unfold start
      rw [if_pos (by omega), Nat.add_sub_cancel, Nat.add_sub_cancel, if_neg (not_le.2 hv)])
  rw [he]
  dsimp only
  rw [hrel]
  exact hq

example : out (extPar (1 / 100)) (fun _ j i => if j = 1 ∧ i = 1 then -100 else (j + i : ℚ)) 2 0 1 = 1 := by
  rw [C80_valid]
  · norm_num
  · simp [extPar]
  · simp [extPar]
  · simp [extPar]
  · norm_num [extPar]

/-- C80: whatever the number of passes, all values lie between the least and greatest of the values which are not missing
and 0. -/
theorem C80_range (p : Par K) (data : Nat → Nat → Nat → K) (g : Grid p.cos p.ni p.nj p.lon p.lat)
    (hrel : 0 ≤ p.relCoef ∧ p.relCoef ≤ 1) (hm : 1 ≤ p.maxIter) (lo hi : K) (h0 : lo ≤ 0 ∧ 0 ≤ hi)
    (hd : ∀ k j i, j < p.nj → i < p.ni → p.eps < |data k j i - p.miss| → lo ≤ data k j i ∧ data k j i ≤ hi) (k j i : Nat) :
    lo ≤ out p data k j i ∧ out p data k j i ≤ hi := by
  have hlev : ∀ k t, (∀ j i, lo ≤ t j i ∧ t j i ≤ hi) →
      ∀ j i, lo ≤ (level p (data k) t).1 j i ∧ (level p (data k) t).1 j i ≤ hi := by
    intro k t ht
    have hr : ∀ t, (∀ j i, lo ≤ t j i ∧ t j i ≤ hi) → ∀ j i,
        lo ≤ relax p.ni p.nj (coef p.cos p.ni p.nj p.lon p.lat) (sorOf p.relCoef p.eps p.miss (data k)) t j i
        ∧ relax p.ni p.nj (coef p.cos p.ni p.nj p.lon p.lat) (sorOf p.relCoef p.eps p.miss (data k)) t j i ≤ hi := by
      intro t ht
      apply relax_range (fun j i hj _ => coef_convex g i hj) _ ht
      intro j i
      unfold sorOf
      split
      · exact hrel
      · exact ⟨le_refl _, zero_le_one⟩
    unfold level
    obtain ⟨t1, hq, he⟩ := iterate_last (stop := p.stop) (fun t => ∀ j i, lo ≤ t j i ∧ t j i ≤ hi)
      (fun t ht => fill_range (hr t ht)) p.maxIter (start p.ni p.nj p.eps p.miss (data k) t) hm (by
        apply fill_range
        intro j i
        unfold start
        split
        · split
          · exact ht _ _
          · rename_i h1 h2
            exact hd k _ _ (by omega) (by omega) (not_le.1 h2)
        · exact ht _ _)
    rw [he]
    exact hr _ hq
  obtain ⟨t, hq, hr⟩ := ext_run p data (fun t => ∀ j i, lo ≤ t j i ∧ t j i ≤ hi) (fun _ _ => h0) hlev k
  unfold out
  rw [hr]
  exact hlev k t hq _ _

example (k j i : Nat) : 0 ≤ out (extPar (1 / 100)) (fun _ j i => if j = 1 ∧ i = 1 then -100 else 5) k j i
    ∧ out (extPar (1 / 100)) (fun _ j i => if j = 1 ∧ i = 1 then -100 else 5) k j i ≤ 5 := by
  apply C80_range _ _ (ext_grid _)
  · norm_num [extPar]
  · norm_num [extPar]
  · norm_num
  · intro k j i _ _ h
    split at h
    · norm_num [extPar] at h
    · rename_i h1
      rw [if_neg h1]
      norm_num

/-- C80: the passes of one level end with the first one which changes no value by more than the given bound, or with the
last one allowed, whichever comes first; the result is the array after that pass. `pass n` is the array after `n` passes. -/
theorem C80_stops (p : Par K) (data t : Nat → Nat → K) (hm : 1 ≤ p.maxIter) :
    let c := coef p.cos p.ni p.nj p.lon p.lat
    let s := sorOf p.relCoef p.eps p.miss data
    let pass := fun n => (fun x => fill p.ni p.nj p.cyclic (relax p.ni p.nj c s x))^[n]
      (fill p.ni p.nj p.cyclic (start p.ni p.nj p.eps p.miss data t))
    ∃ n, n < p.maxIter ∧ level p data t = (relax p.ni p.nj c s (pass n), resmax p.ni p.nj c s (pass n))
      ∧ (resmax p.ni p.nj c s (pass n) ≤ p.stop ∨ n + 1 = p.maxIter)
      ∧ ∀ l, l < n → p.stop < resmax p.ni p.nj c s (pass l) := by
  intro c s
  have key : ∀ (k : Nat) (x : Nat → Nat → K), 1 ≤ k →
      ∃ n, n < k ∧ iterate p.ni p.nj p.cyclic c s p.stop k x
        = (relax p.ni p.nj c s ((fun x => fill p.ni p.nj p.cyclic (relax p.ni p.nj c s x))^[n] x),
          resmax p.ni p.nj c s ((fun x => fill p.ni p.nj p.cyclic (relax p.ni p.nj c s x))^[n] x))
        ∧ (resmax p.ni p.nj c s ((fun x => fill p.ni p.nj p.cyclic (relax p.ni p.nj c s x))^[n] x) ≤ p.stop ∨ n + 1 = k)
        ∧ ∀ l, l < n → p.stop < resmax p.ni p.nj c s ((fun x => fill p.ni p.nj p.cyclic (relax p.ni p.nj c s x))^[l] x) := by
    intro k
    induction k with
    | zero => intro x h; omega
    | succ k ih =>
      intro x _
      unfold iterate
      dsimp only
      split
      · rename_i h
        refine ⟨0, by omega, rfl, ?_, fun l hl => by omega⟩
        rcases h with h | h
        · exact Or.inl h
        · right; omega
      · rename_i h
        push Not at h
        obtain ⟨n, h1, h2, h3, h4⟩ := ih (fill p.ni p.nj p.cyclic (relax p.ni p.nj c s x)) (by omega)
        refine ⟨n + 1, by omega, h2, ?_, ?_⟩
        · rcases h3 with h3 | h3
          · exact Or.inl h3
          · right; omega
        · intro l hl
          cases l with
          | zero => exact h.1
          | succ l => exact h4 l (by omega)
  exact key p.maxIter _ hm

/-- With nothing missing the first pass changes nothing and is the last. -/
example : (level (extPar 0) (fun j i => (j + i : ℚ)) (fun _ _ => 0)).2 = 0 := by
  have hz : ∀ x : Nat → Nat → ℚ, resmax 3 3 (coef (extPar 0).cos 3 3 (extPar 0).lon (extPar 0).lat)
      (sorOf (9 / 10) (1 / 10 ^ 10) (-100) (fun j i => (j + i : ℚ))) x = 0 := by
    intro x
    have hs : ∀ j i : Nat, sorOf (9 / 10 : ℚ) (1 / 10 ^ 10) (-100) (fun j i => (j + i : ℚ)) j i = 0 := by
      intro j i
      unfold sorOf
      rw [if_neg]
      have : (0 : ℚ) ≤ j := Nat.cast_nonneg j
      have : (0 : ℚ) ≤ i := Nat.cast_nonneg i
      rw [abs_of_nonneg (by linarith)]
      norm_num
      linarith
    have hc : ∀ c j i, change c (sorOf (9 / 10 : ℚ) (1 / 10 ^ 10) (-100) (fun j i => (j + i : ℚ))) x j i = 0 := by
      intro c j i
      unfold change
      rw [hs, mul_zero]
    unfold resmax
    simp only [hc]
    simp [List.range_succ]
  obtain ⟨n, -, h, -⟩ := C80_stops (extPar 0) (fun j i => (j + i : ℚ)) (fun _ _ => 0) (by simp [extPar])
  rw [h]
  exact hz _

/-- The boundary of `tmp`, before and after `fill_boundaries`. -/
def ExtOpen (p : Par K) (t : Nat → Nat → K) : Prop :=
  ∀ j i, t 0 i = 0 ∧ t (p.nj + 1) i = 0 ∧ (p.cyclic = false → t j 0 = 0 ∧ t j (p.ni + 1) = 0)

def ExtClosed (p : Par K) (t : Nat → Nat → K) : Prop :=
  ExtOpen p t ∧ (p.cyclic = true → ∀ j, 1 ≤ j → j ≤ p.nj → t j 0 = t j p.ni ∧ t j (p.ni + 1) = t j 1)

/-- The array before the last pass. -/
theorem ext_last (p : Par K) (data : Nat → Nat → Nat → K) (hm : 1 ≤ p.maxIter) (hni : 1 ≤ p.ni)
    (R : (Nat → Nat → K) → Prop) (hR0 : R (fun _ _ => 0))
    (hR1 : ∀ k t, R t → R (relax p.ni p.nj (coef p.cos p.ni p.nj p.lon p.lat) (sorOf p.relCoef p.eps p.miss (data k)) t))
    (hR2 : ∀ t, R t → R (fill p.ni p.nj p.cyclic t)) (hR3 : ∀ k t, R t → R (start p.ni p.nj p.eps p.miss (data k) t))
    (k : Nat) :
    ∃ t, (ExtClosed p t ∧ R t)
      ∧ (run p data k)
        = (relax p.ni p.nj (coef p.cos p.ni p.nj p.lon p.lat) (sorOf p.relCoef p.eps p.miss (data k)) t,
          resmax p.ni p.nj (coef p.cos p.ni p.nj p.lon p.lat) (sorOf p.relCoef p.eps p.miss (data k)) t) := by
  have hrel : ∀ c s t, ExtOpen p t → ExtOpen p (relax p.ni p.nj c s t) := by
    intro c s t ht j i
    unfold relax
    rw [if_neg (by omega), if_neg (by omega)]
    refine ⟨(ht j i).1, (ht j i).2.1, fun h => ?_⟩
    rw [if_neg (by omega), if_neg (by omega)]
    exact (ht j i).2.2 h
  have hfill : ∀ t, ExtOpen p t → ExtClosed p (fill p.ni p.nj p.cyclic t) := by
    intro t ht
    constructor
    · intro j i
      unfold fill
      rw [if_neg (by omega), if_neg (by omega)]
      refine ⟨(ht j i).1, (ht j i).2.1, fun h => ?_⟩
      rw [if_neg (by simp [h]), if_neg (by simp [h])]
      exact (ht j i).2.2 h
    · intro hc j h1 h2
      unfold fill
      simp only [if_pos (show p.cyclic = true ∧ 1 ≤ j ∧ j ≤ p.nj from ⟨hc, h1, h2⟩)]
      refine ⟨?_, ?_⟩
      · rw [if_pos trivial, if_neg (by omega), if_neg (by omega)]
      · rw [if_neg (by omega), if_pos trivial, if_neg (by omega), if_neg (by omega)]
  have hstart : ∀ d t, ExtOpen p t → ExtOpen p (start p.ni p.nj p.eps p.miss d t) := by
    intro d t ht j i
    unfold start
    rw [if_neg (by omega), if_neg (by omega)]
    refine ⟨(ht j i).1, (ht j i).2.1, fun h => ?_⟩
    rw [if_neg (by omega), if_neg (by omega)]
    exact (ht j i).2.2 h
  have hex : ∀ k t, ExtOpen p t ∧ R t → ∃ t1, (ExtClosed p t1 ∧ R t1) ∧ level p (data k) t
      = (relax p.ni p.nj (coef p.cos p.ni p.nj p.lon p.lat) (sorOf p.relCoef p.eps p.miss (data k)) t1,
          resmax p.ni p.nj (coef p.cos p.ni p.nj p.lon p.lat) (sorOf p.relCoef p.eps p.miss (data k)) t1) := by
    intro k t ht
    unfold level
    obtain ⟨t1, hq, he⟩ := iterate_last (stop := p.stop) (cyc := p.cyclic)
      (c := coef p.cos p.ni p.nj p.lon p.lat) (sor := sorOf p.relCoef p.eps p.miss (data k))
      (fun t => ExtClosed p t ∧ R t) (fun t ht => ⟨hfill _ (hrel _ _ _ ht.1.1), hR2 _ (hR1 _ _ ht.2)⟩) p.maxIter
      (start p.ni p.nj p.eps p.miss (data k) t) hm ⟨hfill _ (hstart _ _ ht.1), hR2 _ (hR3 _ _ ht.2)⟩
    exact ⟨_, hq, he⟩
  obtain ⟨t, hq, hr⟩ := ext_run p data (fun t => ExtOpen p t ∧ R t)
    ⟨fun _ _ => ⟨rfl, rfl, fun _ => ⟨rfl, rfl⟩⟩, hR0⟩ (fun k t ht => by
    obtain ⟨t1, h1, h2⟩ := hex k t ht
    rw [h2]
    exact ⟨hrel _ _ _ h1.1.1, hR1 _ _ h1.2⟩) k
  obtain ⟨t1, h1, h2⟩ := hex k t hq
  exact ⟨t1, h1, by rw [hr, h2]⟩

/-- The value of every cell after the last pass differs from that before by at most `stop`. -/
theorem ext_close (p : Par K) (data : Nat → Nat → Nat → K) (hm : 1 ≤ p.maxIter) (hni : 1 ≤ p.ni) (k : Nat)
    (hstop : (run p data k).2 ≤ p.stop) :
    ∃ t, ExtClosed p t ∧ (∀ j i, j < p.nj → i < p.ni → out p data k j i = t (j + 1) (i + 1)
        + change (coef p.cos p.ni p.nj p.lon p.lat) (sorOf p.relCoef p.eps p.miss (data k)) t j i
      ∧ |change (coef p.cos p.ni p.nj p.lon p.lat) (sorOf p.relCoef p.eps p.miss (data k)) t j i| ≤ p.stop) := by
  obtain ⟨t, ⟨ht, -⟩, hr⟩ := ext_last p data hm hni (fun _ => True) trivial (fun _ _ _ => trivial) (fun _ _ => trivial)
    (fun _ _ _ => trivial) k
  refine ⟨t, ht, fun j i hj hi => ⟨?_, ?_⟩⟩
  · unfold out
    rw [hr]
    dsimp only
    unfold relax
    rw [if_pos (by omega), Nat.add_sub_cancel, Nat.add_sub_cancel]
  · rw [hr] at hstop
    exact le_trans (resmax_ge _ _ _ hj hi) hstop

/-- C80: the four coefficients of the neighbours are those of a mean and depend on the grid only. If the iteration of a
level ended because the changes were below the threshold, then every filled value differs from this mean of its
neighbours by at most the threshold divided by the relaxation coefficient. Neighbours outside the grid count as 0, unless
the grid is cyclic. -/
theorem C80_mean (p : Par K) (g : Grid p.cos p.ni p.nj p.lon p.lat) (hrel : 0 < p.relCoef ∧ p.relCoef ≤ 1)
    (hm : 1 ≤ p.maxIter) :
    ∃ w e s n : Nat → Nat → K,
      (∀ j i, j < p.nj → 0 ≤ w j i ∧ 0 ≤ e j i ∧ 0 ≤ s j i ∧ 0 ≤ n j i ∧ w j i + e j i + s j i + n j i = 1)
      ∧ (∀ f j i, 0 < j → j + 1 < p.nj → 0 < i → i + 1 < p.ni → 0 < weight p.cos p.lon p.lat j i ∧
        laplacian p.cos p.lon p.lat f j i = weight p.cos p.lon p.lat j i
          * (w j i * f j (i - 1) + e j i * f j (i + 1) + s j i * f (j - 1) i + n j i * f (j + 1) i - f j i))
      ∧ ∀ (data : Nat → Nat → Nat → K) (k j i : Nat), (run p data k).2 ≤ p.stop → j < p.nj → i < p.ni →
        |data k j i - p.miss| ≤ p.eps →
        |w j i * at' p.ni p.nj p.cyclic (out p data k) j (i - 1) + e j i * at' p.ni p.nj p.cyclic (out p data k) j (i + 1)
          + s j i * at' p.ni p.nj p.cyclic (out p data k) (j - 1) i + n j i * at' p.ni p.nj p.cyclic (out p data k) (j + 1) i
          - out p data k j i| ≤ p.stop / p.relCoef := by
  have hni : 1 ≤ p.ni := by have := g.two_columns; omega
  refine ⟨fun j i => (coef p.cos p.ni p.nj p.lon p.lat j i).w, fun j i => (coef p.cos p.ni p.nj p.lon p.lat j i).e,
    fun j i => (coef p.cos p.ni p.nj p.lon p.lat j i).s, fun j i => (coef p.cos p.ni p.nj p.lon p.lat j i).n,
    fun j i hj => ?_, fun f j i h1 h2 h3 h4 => ?_, fun data k j i hstop hj hi hmiss => ?_⟩
  · obtain ⟨h1, h2, h3, h4, h5⟩ := coef_convex g i hj
    exact ⟨h4, h3, h2, h1, h5⟩
  · have := coef_inner g h1 h2 h3 h4 f
    exact ⟨this.2, this.1⟩
  obtain ⟨t, ht, hch⟩ := ext_close p data hm hni k hstop
  -- the array after the pass, with boundary
  let d : Nat → Nat → K := fun j i => at' p.ni p.nj p.cyclic (out p data k) ((j : Int) - 1) ((i : Int) - 1) - t j i
  have hd : ∀ j i, j ≤ p.nj + 1 → i ≤ p.ni + 1 → ((1 ≤ j ∧ j ≤ p.nj) ∨ (1 ≤ i ∧ i ≤ p.ni)) → |d j i| ≤ p.stop := by
    intro j i hj hi hin
    have hnn : 0 ≤ p.stop := le_trans (abs_nonneg _) (hch 0 0 (by have := g.two_rows; omega) (by omega)).2
    have hcell : ∀ j i, 1 ≤ j → j ≤ p.nj → 1 ≤ i → i ≤ p.ni → |out p data k (j - 1) (i - 1) - t j i| ≤ p.stop := by
      intro j i h1 h2 h3 h4
      have := hch (j - 1) (i - 1) (by omega) (by omega)
      rw [show j - 1 + 1 = j by omega, show i - 1 + 1 = i by omega] at this
      rw [this.1, add_sub_cancel_left]
      exact this.2
    dsimp only [d]
    unfold at'
    split
    · rename_i h
      have hj1 : ((j : Int) - 1).toNat = j - 1 := by omega
      split
      · rename_i h2
        have hi1 : ((i : Int) - 1).toNat = i - 1 := by omega
        rw [hj1, hi1]
        exact hcell j i (by omega) (by omega) (by omega) (by omega)
      · rename_i h2
        cases hc : p.cyclic
        · rw [if_neg (by simp), if_neg (by simp)]
          have := (ht.1 j i).2.2 hc
          rcases (by omega : i = 0 ∨ i = p.ni + 1) with rfl | rfl
          · rw [this.1]; simpa using hnn
          · rw [this.2]; simpa using hnn
        · have := ht.2 hc j (by omega) (by omega)
          rcases (by omega : i = 0 ∨ i = p.ni + 1) with rfl | rfl
          · rw [if_pos ⟨rfl, by omega⟩, hj1, this.1]
            exact hcell j p.ni (by omega) (by omega) (by omega) (by omega)
          · rw [if_neg (by omega), if_pos ⟨rfl, by omega⟩, hj1, this.2]
            exact hcell j 1 (by omega) (by omega) (by omega) (by omega)
    · rename_i h
      have := ht.1 j i
      rcases (by omega : j = 0 ∨ j = p.nj + 1) with rfl | rfl
      · rw [this.1]; simpa using hnn
      · rw [this.2.1]; simpa using hnn
  have conv := coef_convex g i hj
  have hs : sorOf p.relCoef p.eps p.miss (data k) j i = p.relCoef := by
    unfold sorOf
    rw [if_pos hmiss]
  obtain ⟨ho, hle⟩ := hch j i hj hi
  have r1 := hd (j + 1) i (by omega) (by omega) (by omega)
  have r2 := hd (j + 1) (i + 2) (by omega) (by omega) (by omega)
  have r3 := hd j (i + 1) (by omega) (by omega) (by omega)
  have r4 := hd (j + 2) (i + 1) (by omega) (by omega) (by omega)
  dsimp only [d] at r1 r2 r3 r4
  push_cast at r1 r2 r3 r4
  rw [show (j : Int) + 1 - 1 = j by ring] at r1 r2
  rw [show (i : Int) + 1 - 1 = i by ring] at r3 r4
  rw [show (i : Int) + 2 - 1 = i + 1 by ring] at r2
  rw [show (j : Int) + 2 - 1 = j + 1 by ring] at r4
  dsimp only
  generalize at' p.ni p.nj p.cyclic (out p data k) j (i - 1) = A1 at *
  generalize at' p.ni p.nj p.cyclic (out p data k) j (i + 1) = A2 at *
  generalize at' p.ni p.nj p.cyclic (out p data k) (j - 1) i = A3 at *
  generalize at' p.ni p.nj p.cyclic (out p data k) (j + 1) i = A4 at *
  have hdef : change (coef p.cos p.ni p.nj p.lon p.lat) (sorOf p.relCoef p.eps p.miss (data k)) t j i
      = ((coef p.cos p.ni p.nj p.lon p.lat j i).w * t (j + 1) i + (coef p.cos p.ni p.nj p.lon p.lat j i).e * t (j + 1) (i + 2)
        + (coef p.cos p.ni p.nj p.lon p.lat j i).s * t j (i + 1) + (coef p.cos p.ni p.nj p.lon p.lat j i).n * t (j + 2) (i + 1)
        - t (j + 1) (i + 1)) * p.relCoef := by
    unfold change
    rw [hs]
  generalize change (coef p.cos p.ni p.nj p.lon p.lat) (sorOf p.relCoef p.eps p.miss (data k)) t j i = c at *
  obtain ⟨c4, c3, c2, c1, hsum⟩ := conv
  generalize (coef p.cos p.ni p.nj p.lon p.lat j i).w = w at *
  generalize (coef p.cos p.ni p.nj p.lon p.lat j i).e = e at *
  generalize (coef p.cos p.ni p.nj p.lon p.lat j i).s = s at *
  generalize (coef p.cos p.ni p.nj p.lon p.lat j i).n = n at *
  rw [ho]
  obtain ⟨hr0, hr1⟩ := hrel
  have hc1 := abs_le.1 hle
  have a1 := abs_le.1 r1
  have a2 := abs_le.1 r2
  have a3 := abs_le.1 r3
  have a4 := abs_le.1 r4
  have hcr : c / p.relCoef = w * t (j + 1) i + e * t (j + 1) (i + 2) + s * t j (i + 1) + n * t (j + 2) (i + 1) - t (j + 1) (i + 1) := by
    rw [hdef]
    field_simp
  have hexp : w * A1 + e * A2 + s * A3 + n * A4 - (t (j + 1) (i + 1) + c)
      = (w * (A1 - t (j + 1) i) + e * (A2 - t (j + 1) (i + 2)) + s * (A3 - t j (i + 1)) + n * (A4 - t (j + 2) (i + 1)))
        + c * (1 / p.relCoef - 1) := by
    have : c * (1 / p.relCoef - 1) = c / p.relCoef - c := by ring
    rw [this, hcr]
    ring
  have hS : p.stop = w * p.stop + e * p.stop + s * p.stop + n * p.stop := by
    rw [← add_mul, ← add_mul, ← add_mul, hsum, one_mul]
  have hnn : 0 ≤ 1 / p.relCoef - 1 := by
    rw [sub_nonneg, le_div_iff₀ hr0]
    linarith
  have hfin : p.stop / p.relCoef = p.stop + p.stop * (1 / p.relCoef - 1) := by ring
  rw [hexp, hfin, abs_le]
  constructor
  · have := mul_le_mul_of_nonneg_left a1.1 c1
    have := mul_le_mul_of_nonneg_left a2.1 c2
    have := mul_le_mul_of_nonneg_left a3.1 c3
    have := mul_le_mul_of_nonneg_left a4.1 c4
    have := mul_le_mul_of_nonneg_right hc1.1 hnn
    linarith
  · have := mul_le_mul_of_nonneg_left a1.2 c1
    have := mul_le_mul_of_nonneg_left a2.2 c2
    have := mul_le_mul_of_nonneg_left a3.2 c3
    have := mul_le_mul_of_nonneg_left a4.2 c4
    have := mul_le_mul_of_nonneg_right hc1.2 hnn
    linarith

/-- C80: at an inner cell which was filled, if the iteration ended because the changes were below the threshold, the
Laplacian of the result is 0 up to that threshold. -/
theorem C80_laplace (p : Par K) (data : Nat → Nat → Nat → K) (g : Grid p.cos p.ni p.nj p.lon p.lat)
    (hrel : 0 < p.relCoef ∧ p.relCoef ≤ 1) (hm : 1 ≤ p.maxIter) (k j i : Nat) (hstop : (run p data k).2 ≤ p.stop)
    (hj0 : 0 < j) (hj : j + 1 < p.nj) (hi0 : 0 < i) (hi : i + 1 < p.ni) (hmiss : |data k j i - p.miss| ≤ p.eps) :
    |laplacian p.cos p.lon p.lat (out p data k) j i| ≤ weight p.cos p.lon p.lat j i * (p.stop / p.relCoef) := by
  obtain ⟨w, e, s, n, -, hlap, hmean⟩ := C80_mean p g hrel hm
  obtain ⟨hpos, hl⟩ := hlap (out p data k) j i hj0 hj hi0 hi
  have h := hmean data k j i hstop (by omega) (by omega) hmiss
  have hat : ∀ (a b : Nat) (x y : Int), x = a → y = b → a < p.nj → b < p.ni →
      at' p.ni p.nj p.cyclic (out p data k) x y = out p data k a b := by
    rintro a b x y rfl rfl ha hb
    unfold at'
    rw [if_pos (by omega), if_pos (by omega), Int.toNat_natCast, Int.toNat_natCast]
  rw [hat j (i - 1) _ _ rfl (by omega) (by omega) (by omega), hat j (i + 1) _ _ rfl (by omega) (by omega) (by omega),
    hat (j - 1) i _ _ (by omega) rfl (by omega) (by omega), hat (j + 1) i _ _ (by omega) rfl (by omega) (by omega)] at h
  rw [hl, abs_mul, abs_of_pos hpos]
  exact mul_le_mul_of_nonneg_left h hpos.le

example : |laplacian (extPar (1 / 10)).cos (extPar (1 / 10)).lon (extPar (1 / 10)).lat
      (out (extPar (1 / 10)) (fun _ j i => if j = 1 ∧ i = 1 then -100 else 5) 0) 1 1| ≤ 4 * (1 / 9) := by
  have h := C80_laplace (extPar (1 / 10)) (fun _ j i => if j = 1 ∧ i = 1 then -100 else 5) (ext_grid _)
    (by norm_num [extPar]) (by norm_num [extPar]) 0 1 1 (by decide +kernel) (by norm_num) (by norm_num [extPar]) (by norm_num)
    (by norm_num [extPar]) (by norm_num [extPar])
  refine le_of_le_of_eq h ?_
  norm_num [extPar, weight]

/-- C80, violated: a constant field is not filled with that constant in the first row, if the southern side of that row is
not at the pole: outside the grid the value 0 is taken, and the result is less than the constant. -/
theorem C80_boundary_wrong (p : Par K) (data : Nat → Nat → Nat → K) (g : Grid p.cos p.ni p.nj p.lon p.lat)
    (hrel : 0 < p.relCoef ∧ p.relCoef ≤ 1) (hm : 1 ≤ p.maxIter) (hsouth : 0 < p.cos (p.lat 0 - (p.lat 1 - p.lat 0) / 2))
    (a : K) (ha : 0 < a) (hd : ∀ k j i, j < p.nj → i < p.ni → |data k j i - p.miss| ≤ p.eps ∨ data k j i = a)
    (k i : Nat) (hi : i < p.ni) (hmiss : |data k 0 i - p.miss| ≤ p.eps) : out p data k 0 i < a := by
  have hni : 1 ≤ p.ni := by have := g.two_columns; omega
  have hnj : 1 ≤ p.nj := by have := g.two_rows; omega
  obtain ⟨t, ⟨ht, hR⟩, hr⟩ := ext_last p data hm hni (fun t => ∀ j i, 0 ≤ t j i ∧ t j i ≤ a) (fun _ _ => ⟨le_refl _, ha.le⟩)
    (fun k t ht => by
      apply relax_range (fun j i hj _ => coef_convex g i hj) _ ht
      intro j i
      unfold sorOf
      split
      · exact ⟨hrel.1.le, hrel.2⟩
      · exact ⟨le_refl _, zero_le_one⟩)
    (fun t ht => fill_range ht)
    (fun k t ht j i => by
      unfold start
      split
      · split
        · exact ht _ _
        · rename_i h1 h2
          rcases hd k (j - 1) (i - 1) (by omega) (by omega) with h | h
          · exact absurd h h2
          · rw [h]
            exact ⟨ha.le, le_refl _⟩
      · exact ht _ _) k
  obtain ⟨c4, c3, c2, c1, hsum⟩ := coef_convex g i (show 0 < p.nj by omega)
  have hs : 0 < (coef p.cos p.ni p.nj p.lon p.lat 0 i).s := by
    have hx := du_pos g.two_columns g.lon_lt
    have hy := du_pos g.two_rows g.lat_lt
    have hxt := dt_pos g.two_columns g.lon_lt i
    have hyt := dt_pos g.two_rows g.lat_lt 0
    have hc := g.centre 0 (by omega)
    have hp := cos_latp g (show 0 < p.nj by omega)
    have hmm : 0 < p.cos (latm p.lat 0) := by
      unfold latm
      rw [if_pos rfl]
      convert hsouth using 2
      ring
    have x1 := hx i
    have x2 := hx (i - 1)
    have y1 := hy 0
    have y2 := hy (0 - 1)
    unfold coef
    dsimp only
    positivity
  have hsor : sorOf p.relCoef p.eps p.miss (data k) 0 i = p.relCoef := by
    unfold sorOf
    rw [if_pos hmiss]
  have ho : out p data k 0 i = t 1 (i + 1) + ((coef p.cos p.ni p.nj p.lon p.lat 0 i).w * t 1 i
      + (coef p.cos p.ni p.nj p.lon p.lat 0 i).e * t 1 (i + 2) + (coef p.cos p.ni p.nj p.lon p.lat 0 i).s * t 0 (i + 1)
      + (coef p.cos p.ni p.nj p.lon p.lat 0 i).n * t 2 (i + 1) - t 1 (i + 1)) * p.relCoef := by
    unfold out
    rw [hr]
    dsimp only
    unfold relax
    rw [if_pos (by omega), Nat.add_sub_cancel, Nat.add_sub_cancel]
    unfold change
    rw [hsor]
  have h0 := (ht.1 0 (i + 1)).1
  rw [ho, h0]
  generalize (coef p.cos p.ni p.nj p.lon p.lat 0 i).w = w at *
  generalize (coef p.cos p.ni p.nj p.lon p.lat 0 i).e = e at *
  generalize (coef p.cos p.ni p.nj p.lon p.lat 0 i).s = s at *
  generalize (coef p.cos p.ni p.nj p.lon p.lat 0 i).n = n at *
  have m1 := mul_le_mul_of_nonneg_left (hR 1 i).2 c1
  have m2 := mul_le_mul_of_nonneg_left (hR 1 (i + 2)).2 c2
  have m4 := mul_le_mul_of_nonneg_left (hR 2 (i + 1)).2 c4
  have hsum' : w * a + e * a + n * a = a - s * a := by
    have : (w + e + s + n) * a = a := by rw [hsum, one_mul]
    linarith
  have hM : w * t 1 i + e * t 1 (i + 2) + s * 0 + n * t 2 (i + 1) ≤ a - s * a := by linarith
  have hsa : 0 < s * a := mul_pos hs ha
  have hlt := mul_lt_mul_of_pos_right (show w * t 1 i + e * t 1 (i + 2) + s * 0 + n * t 2 (i + 1) < a by linarith) hrel.1
  have hle := mul_le_mul_of_nonneg_right (hR 1 (i + 1)).2 (show 0 ≤ 1 - p.relCoef by linarith [hrel.2])
  linarith

example : out (extPar (1 / 100)) (fun _ j i => if j = 0 ∧ i = 1 then -100 else 5) 0 0 1 < 5 := by
  apply C80_boundary_wrong _ _ (ext_grid _)
  · norm_num [extPar]
  · norm_num [extPar]
  · norm_num [extPar]
  · norm_num
  · intro k j i _ _
    split
    · left
      norm_num [extPar]
    · right
      rfl
  · norm_num [extPar]
  · norm_num [extPar]

end field

end Verif
