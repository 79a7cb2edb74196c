import Verif.Model.GridLegacy
import Verif.Spec.GridLegacy
import Verif.Props.GridBound
import Mathlib.Algebra.BigOperators.Intervals
import Mathlib.Tactic.Linarith
import Mathlib.Tactic.Positivity
/-
C51: grids from bounds and cell sizes (legacy algorithm).
-/
namespace Verif.GridLegacy
open Verif.Spec Finset

/-! ### Sums of cosines -/

theorem sum_cos_half (n : Nat) : ∑ i ∈ range n, Real.cos (Real.pi / n * (i + 1 / 2)) = 0 := by
  rcases Nat.eq_zero_or_pos n with rfl | hn
  · simp
  have h := sum_range_reflect (fun i : Nat => Real.cos (Real.pi / n * (i + 1 / 2))) n
  have hneg : ∑ j ∈ range n, Real.cos (Real.pi / n * (((n - 1 - j : Nat) : ℝ) + 1 / 2)) =
      - ∑ i ∈ range n, Real.cos (Real.pi / n * (i + 1 / 2)) := by
    rw [← sum_neg_distrib]
    refine sum_congr rfl fun j hj => ?_
    have hj := mem_range.1 hj
    have e : ((n - 1 - j : Nat) : ℝ) = (n : ℝ) - 1 - j := by
      rw [Nat.cast_sub (by omega), Nat.cast_sub (by omega)]; simp
    have hn' : (n : ℝ) ≠ 0 := by positivity
    have : Real.pi / n * (((n - 1 - j : Nat) : ℝ) + 1 / 2) = Real.pi - Real.pi / n * (j + 1 / 2) := by
      rw [e]; field_simp; ring
    rw [this, Real.cos_pi_sub]
  rw [hneg] at h
  linarith

theorem sum_cos_full (n : Nat) (hn : 0 < n) : ∑ i ∈ range n, Real.cos (Real.pi / n * ((i + 1 : Nat) : ℝ)) = -1 := by
  have hn' : (n : ℝ) ≠ 0 := by positivity
  obtain ⟨m, rfl⟩ : ∃ m, n = m + 1 := ⟨n - 1, by omega⟩
  rw [sum_range_succ]
  have hl : Real.cos (Real.pi / ((m + 1 : Nat) : ℝ) * ((m + 1 : Nat) : ℝ)) = -1 := by
    rw [div_mul_cancel₀ _ hn', Real.cos_pi]
  rw [hl]
  have h := sum_range_reflect (fun i : Nat => Real.cos (Real.pi / ((m + 1 : Nat) : ℝ) * ((i + 1 : Nat) : ℝ))) m
  have hneg : ∑ j ∈ range m, Real.cos (Real.pi / ((m + 1 : Nat) : ℝ) * ((m - 1 - j + 1 : Nat) : ℝ)) =
      - ∑ i ∈ range m, Real.cos (Real.pi / ((m + 1 : Nat) : ℝ) * ((i + 1 : Nat) : ℝ)) := by
    rw [← sum_neg_distrib]
    refine sum_congr rfl fun j hj => ?_
    have hj := mem_range.1 hj
    have e : ((m - 1 - j + 1 : Nat) : ℝ) = ((m + 1 : Nat) : ℝ) - ((j + 1 : Nat) : ℝ) := by
      rw [show m - 1 - j + 1 = m + 1 - (j + 1) by omega, Nat.cast_sub (by omega)]
    have : Real.pi / ((m + 1 : Nat) : ℝ) * ((m - 1 - j + 1 : Nat) : ℝ) =
        Real.pi - Real.pi / ((m + 1 : Nat) : ℝ) * ((j + 1 : Nat) : ℝ) := by
      rw [e]; field_simp
    rw [this, Real.cos_pi_sub]
  rw [hneg] at h
  linarith

/-! ### One region -/

theorem tol_pos : 0 < tol := by unfold tol; norm_num
theorem tol_lt : tol < 1 / 2 := by unfold tol; norm_num

theorem cround_near {a : ℝ} {n : Nat} (ha : 0 ≤ a) (h : |a - n| ≤ tol) : cround a = n := by
  unfold cround
  rw [if_pos ha, Int.floor_eq_iff]
  have := abs_le.1 h
  have := tol_lt
  push_cast
  constructor <;> linarith

theorem cround_nonneg {a : ℝ} (ha : 0 ≤ a) : 0 ≤ cround a := by
  unfold cround
  rw [if_pos ha]
  exact Int.floor_nonneg.2 (by linarith)

theorem del_pos {a b c : ℝ} (ha : 0 < a) (hb : 0 < b) (h1 : -1 ≤ c) (h2 : c ≤ 1) :
    0 < avgRes a b - 1 / 2 * chgRes a b * c := by
  unfold avgRes chgRes
  rcases le_total a b with h | h
  · nlinarith [mul_nonneg (sub_nonneg.2 h) (show (0 : ℝ) ≤ 1 - c by linarith)]
  · nlinarith [mul_nonneg (sub_nonneg.2 h) (show (0 : ℝ) ≤ 1 + c by linarith)]

/-- Every cell is at least as large as the smaller of the two sizes. -/
theorem del_ge {a b c m : ℝ} (ha : m ≤ a) (hb : m ≤ b) (h1 : -1 ≤ c) (h2 : c ≤ 1) :
    m ≤ avgRes a b - 1 / 2 * chgRes a b * c := by
  unfold avgRes chgRes
  nlinarith [mul_nonneg (sub_nonneg.2 ha) (show (0 : ℝ) ≤ 1 + c by linarith),
    mul_nonneg (sub_nonneg.2 hb) (show (0 : ℝ) ≤ 1 - c by linarith)]

theorem sum_rangeMap (f : Nat → ℝ) (n : Nat) : ((List.range n).map f).sum = ∑ i ∈ range n, f i := by
  induction n with
  | zero => simp
  | succ n ih => rw [List.range_succ, List.map_append, List.sum_append, ih, sum_range_succ]; simp

theorem sum_tDel (a b : ℝ) (n : Nat) : ∑ i ∈ range n, tDel a b n i = n * avgRes a b := by
  unfold tDel
  rw [sum_sub_distrib, ← mul_sum]
  have := sum_cos_half n
  push_cast
  rw [this]
  simp

theorem sum_uDel (a b : ℝ) (n : Nat) (hn : 0 < n) :
    ∑ i ∈ range n, uDel a b n (i + 1) = n * avgRes a b + 1 / 2 * chgRes a b := by
  unfold uDel
  rw [sum_sub_distrib, ← mul_sum]
  have := sum_cos_full n hn
  simp only [Int.cast_natCast]
  rw [this]
  simp

theorem uDel_last (a b : ℝ) (n : Nat) (hn : 0 < n) : uDel a b n n = b := by
  unfold uDel
  have hn' : (n : ℝ) ≠ 0 := by positivity
  rw [Int.cast_natCast, div_mul_cancel₀ _ hn', Real.cos_pi]
  unfold avgRes chgRes
  ring

theorem uLoop_eq (a b : ℝ) (nc : Int) (lim : ℝ) : ∀ (f i : Nat) (s : ℝ),
    ∃ n, uLoop a b nc lim f i s = (List.range n).map fun k => uDel a b nc (i + k + 1)
  | 0, _, _ => ⟨0, rfl⟩
  | f + 1, i, s => by
    unfold uLoop
    simp only
    split
    · obtain ⟨n, hn⟩ := uLoop_eq a b nc lim f (i + 1) (s + uDel a b nc (i + 1))
      refine ⟨n + 1, ?_⟩
      rw [hn, List.range_succ_eq_map, List.map_cons, List.map_map]
      congr 1
      refine List.map_congr_left fun k _ => ?_
      show uDel a b nc (i + 1 + k + 1) = uDel a b nc (i + (k + 1) + 1)
      congr 1; omega
    · exact ⟨0, rfl⟩

/-- What is known of the cells `ds` of an accepted region. -/
structure RegionFacts (isT : Prop) (wid a b : ℝ) (n : Nat) (ds : List ℝ) : Prop where
  near : |(n : ℝ) - wid / avgRes a b| ≤ tol
  round : cround (wid / avgRes a b) = n
  pos : 0 < n
  len : ds.length = n
  cells : ∀ d ∈ ds, 0 < d
  sumT : isT → ds.sum = n * avgRes a b
  sumU : ¬ isT → ds.sum = n * avgRes a b + 1 / 2 * chgRes a b
  last : ¬ isT → ds.getD (n - 1) 0 = b

theorem region_facts {center : String} {wid a b db : ℝ} (ha : 0 < a) (hb : 0 < b)
    (hw : avgRes a b / 100000 < wid) {ds : List ℝ} (h : region center wid a b db = .ok ds) :
    RegionFacts (center = "t_cell") wid a b ds.length ds := by
  have hav : 0 < avgRes a b := by unfold avgRes; linarith
  have hw0 : 0 < wid := lt_trans (by positivity) hw
  have han : 0 ≤ wid / avgRes a b := by positivity
  have htol : tol < wid / avgRes a b := by
    rw [lt_div_iff₀ hav]; unfold tol; linarith
  unfold region at h
  rw [if_neg (ne_of_gt hav)] at h
  simp only at h
  by_cases hc : center = "t_cell"
  · rw [if_pos hc] at h
    split at h
    · cases h
    · rename_i hn
      have h0 := cround_nonneg han
      obtain ⟨n, hrn⟩ := Int.eq_ofNat_of_zero_le h0
      rw [hrn] at h hn
      cases h
      have hnear : |(n : ℝ) - wid / avgRes a b| ≤ tol := by
        rw [abs_sub_comm]
        simpa using hn
      have hl : ((List.range (n : Int).toNat).map (tDel a b (n : Int))).length = n := by simp
      rw [hl]
      have hpos : 0 < n := by
        rcases Nat.eq_zero_or_pos n with rfl | h'
        · have := (abs_le.1 hnear).1
          simp at this
          linarith
        · exact h'
      refine ⟨hnear, hrn, hpos, hl, ?_, ?_, fun h => absurd hc h, fun h => absurd hc h⟩
      · intro d hd
        obtain ⟨i, _, rfl⟩ := List.mem_map.1 hd
        exact del_pos ha hb (Real.neg_one_le_cos _) (Real.cos_le_one _)
      · intro _
        rw [Int.toNat_natCast, sum_rangeMap, sum_tDel]
  · rw [if_neg hc] at h
    split at h
    · cases h
    · rename_i hn
      by_cases h0 : cround (wid / avgRes a b) = 0
      · unfold uCells at h hn
        rw [if_pos h0] at h hn
        simp only [List.length_nil, Nat.cast_zero, sub_zero] at hn
        rw [abs_of_nonneg han] at hn
        exact absurd htol hn
      · unfold uCells at h hn
        rw [if_neg h0] at h hn
        obtain ⟨n, hu⟩ := uLoop_eq a b (cround (wid / avgRes a b)) (wid * (1 + tol)) 100000 0 (1 / 2 * a - 1 / 2 * db)
        rw [hu] at h hn
        cases h
        simp only [List.length_map, List.length_range] at hn ⊢
        have hnear : |(n : ℝ) - wid / avgRes a b| ≤ tol := by
          rw [abs_sub_comm]; exact not_lt.1 hn
        have hr : cround (wid / avgRes a b) = n := cround_near han (not_lt.1 hn)
        have hpos : 0 < n := by
          rcases Nat.eq_zero_or_pos n with rfl | h'
          · exact absurd hr h0
          · exact h'
        refine ⟨hnear, hr, hpos, by simp, ?_, fun h => absurd h hc, ?_, ?_⟩
        · intro d hd
          obtain ⟨i, _, rfl⟩ := List.mem_map.1 hd
          exact del_pos ha hb (Real.neg_one_le_cos _) (Real.cos_le_one _)
        · intro _
          rw [hr, sum_rangeMap]
          simp only [Nat.zero_add]
          exact sum_uDel a b n hpos
        · intro _
          rw [hr, List.getD_eq_getElem?_getD, GridBound.getElem?_rangeMap _ (by omega)]
          show uDel a b n (0 + (n - 1) + 1) = b
          rw [show 0 + (n - 1) + 1 = n by omega]
          exact uDel_last a b n hpos

/-! ### All regions -/

theorem farSize_eq (nb : Nat) (dbnds : Nat → ℝ) (s : ℝ) (l : Nat) : farSize nb dbnds s l = endSize nb dbnds s l := by
  unfold farSize endSize; split <;> simp

theorem avgRes_eq (nb : Nat) (dbnds : Nat → ℝ) (s : ℝ) (l : Nat) :
    avgRes (dbnds l) (endSize nb dbnds s l) = meanSize nb dbnds s l := by
  unfold avgRes meanSize; ring

/-- Size at bound `j` as seen from the region before it. -/
def sizeAt (nb : Nat) (dbnds : Nat → ℝ) (s : ℝ) : Nat → ℝ
  | 0 => dbnds 0
  | j + 1 => endSize nb dbnds s j

theorem sizeAt_inner {nb : Nat} {dbnds : Nat → ℝ} {s : ℝ} {k : Nat} (hk : k + 1 < nb) : sizeAt nb dbnds s k = dbnds k := by
  cases k with
  | zero => rfl
  | succ k =>
    show endSize nb dbnds s k = _
    unfold endSize
    rw [if_neg (by omega), one_mul]

theorem sizeAt_pos {nb : Nat} {bnds dbnds : Nat → ℝ} {s : ℝ} (ok : RegionsOk nb bnds dbnds s) {k : Nat} (hk : k < nb) :
    0 < sizeAt nb dbnds s k := by
  obtain ⟨_, hs, hd, _⟩ := ok
  cases k with
  | zero => exact hd 0 hk
  | succ k =>
    show 0 < endSize nb dbnds s k
    unfold endSize
    have := hd (k + 1) hk
    split
    · positivity
    · simpa using this

/-- Sum of the first `k` cells. -/
def sumTo (ds : List ℝ) (k : Nat) : ℝ := (ds.take k).sum

theorem getD_append_left (a b : List ℝ) {k : Nat} (h : k < a.length) : (a ++ b).getD k 0 = a.getD k 0 := by
  rw [List.getD_eq_getElem?_getD, List.getElem?_append_left h, List.getD_eq_getElem?_getD]

theorem getD_append_right (a b : List ℝ) {k : Nat} (h : a.length ≤ k) : (a ++ b).getD k 0 = b.getD (k - a.length) 0 := by
  rw [List.getD_eq_getElem?_getD, List.getElem?_append_right h, List.getD_eq_getElem?_getD]

theorem sumTo_succ (ds : List ℝ) (k : Nat) : sumTo ds (k + 1) = sumTo ds k + ds.getD k 0 := by
  unfold sumTo
  rw [List.take_add_one, List.sum_append, List.getD_eq_getElem?_getD]
  cases ds[k]? <;> simp

structure DeltaFacts (isT : Prop) (nb : Nat) (bnds dbnds : Nat → ℝ) (s : ℝ) (l : Nat) (n : Nat → Nat) (ds : List ℝ) :
    Prop where
  near : ∀ k, k < l → |(n k : ℝ) - widthOf bnds k / meanSize nb dbnds s k| ≤ tol
  round : ∀ k, k < l → cround (widthOf bnds k / meanSize nb dbnds s k) = n k
  pos : ∀ k, k < l → 0 < n k
  len : ds.length = countBefore n l
  cells : ∀ d ∈ ds, 0 < d
  sumT : isT → ∀ j, j ≤ l → sumTo ds (countBefore n j) = ∑ k ∈ range j, n k * meanSize nb dbnds s k
  sumU : ¬ isT → ∀ j, j ≤ l → sumTo ds (countBefore n j) =
    ∑ k ∈ range j, n k * meanSize nb dbnds s k + 1 / 2 * (sizeAt nb dbnds s j - dbnds 0)
  last : ¬ isT → ∀ j, 0 < j → j ≤ l → ds.getD (countBefore n j - 1) 0 = sizeAt nb dbnds s j

theorem countBefore_succ (n : Nat → Nat) (l : Nat) : countBefore n (l + 1) = countBefore n l + n l := by
  unfold countBefore; exact sum_range_succ _ _

theorem countBefore_mono (n : Nat → Nat) {i j : Nat} (h : i ≤ j) : countBefore n i ≤ countBefore n j := by
  induction j, h using Nat.le_induction with
  | base => exact le_refl _
  | succ j _ ih => rw [countBefore_succ]; omega

theorem countBefore_congr {n n' : Nat → Nat} {l : Nat} (h : ∀ k, k < l → n k = n' k) {j : Nat} (hj : j ≤ l) :
    countBefore n j = countBefore n' j := by
  unfold countBefore
  exact sum_congr rfl fun k hk => h k (by have := mem_range.1 hk; omega)

theorem delta_facts {cap nb : Nat} {bnds dbnds : Nat → ℝ} {s : ℝ} {center : String} (ok : RegionsOk nb bnds dbnds s) :
    ∀ l, l < nb → ∀ ds, deltas cap nb bnds dbnds s center l = .ok ds →
      ∃ n, DeltaFacts (center = "t_cell") nb bnds dbnds s l n ds := by
  intro l
  induction l with
  | zero =>
    intro hl ds h
    cases h
    refine ⟨fun _ => 0, by omega, by omega, by omega, rfl, by simp, ?_, ?_, by omega⟩
    · intro _ j hj
      obtain rfl : j = 0 := by omega
      simp [sumTo]
    · intro _ j hj
      obtain rfl : j = 0 := by omega
      simp [sumTo, sizeAt]
  | succ l ih =>
    intro hl ds h
    unfold deltas at h
    cases h1 : deltas cap nb bnds dbnds s center l with
    | error e => rw [h1] at h; cases h
    | ok ds1 =>
      rw [h1] at h
      cases h2 : region center |bnds (l + 1) - bnds l| (dbnds l) (farSize nb dbnds s l) (dbnds (l + 1)) with
      | error e =>
        simp only [h2, bind, Except.bind] at h
        cases h
      | ok r =>
        simp only [h2, bind, Except.bind] at h
        split at h
        · cases h
        · cases h
          obtain ⟨n, hf⟩ := ih (by omega) ds1 h1
          rw [farSize_eq] at h2
          have hw := ok.2.2.2 l hl
          have hb : 0 < endSize nb dbnds s l := sizeAt_pos ok hl
          have hr := region_facts (ok.2.2.1 l (by omega)) hb (by rw [avgRes_eq]; exact hw) h2
          have c1 : ∀ j, j ≤ l → countBefore (Function.update n l r.length) j = countBefore n j := by
            intro j hj
            refine countBefore_congr (l := l) ?_ hj
            intro k hk
            rw [Function.update_of_ne (by omega)]
          have c2 : countBefore (Function.update n l r.length) (l + 1) = countBefore n l + r.length := by
            rw [countBefore_succ, c1 l (le_refl _), Function.update_self]
          have tk : ∀ j, j ≤ l → sumTo (ds1 ++ r) (countBefore n j) = sumTo ds1 (countBefore n j) := by
            intro j hj
            unfold sumTo
            rw [List.take_append_of_le_length]
            rw [hf.len]; exact countBefore_mono n hj
          have tl : sumTo (ds1 ++ r) (countBefore n l + r.length) = sumTo ds1 (countBefore n l) + r.sum := by
            have : (ds1 ++ r).length = countBefore n l + r.length := by rw [List.length_append, hf.len]
            unfold sumTo
            rw [← this, List.take_length, List.sum_append, ← hf.len, List.take_length]
          have sm : ∀ j, j ≤ l → ∑ k ∈ range j, ((Function.update n l r.length k : Nat) : ℝ) * meanSize nb dbnds s k =
              ∑ k ∈ range j, (n k : ℝ) * meanSize nb dbnds s k := by
            intro j hj
            refine sum_congr rfl fun k hk => ?_
            have := mem_range.1 hk
            rw [Function.update_of_ne (by omega)]
          have up : ∀ k, k < l + 1 → k ≠ l → k < l := by omega
          refine ⟨Function.update n l r.length, ?_, ?_, ?_, ?_, ?_, ?_, ?_, ?_⟩
          · intro k hk
            by_cases hkl : k = l
            · subst hkl
              rw [Function.update_self, ← avgRes_eq]; exact hr.near
            · rw [Function.update_of_ne hkl]; exact hf.near k (up k hk hkl)
          · intro k hk
            by_cases hkl : k = l
            · subst hkl
              rw [Function.update_self, ← avgRes_eq]; exact hr.round
            · rw [Function.update_of_ne hkl]; exact hf.round k (up k hk hkl)
          · intro k hk
            by_cases hkl : k = l
            · subst hkl
              rw [Function.update_self]; exact hr.pos
            · rw [Function.update_of_ne hkl]; exact hf.pos k (up k hk hkl)
          · rw [c2, List.length_append, hf.len]
          · intro d hd
            rcases List.mem_append.1 hd with h' | h'
            · exact hf.cells d h'
            · exact hr.cells d h'
          · intro ht j hj
            rcases Nat.lt_or_ge l j with h' | h'
            · obtain rfl : j = l + 1 := by omega
              rw [c2, tl, hf.sumT ht l (le_refl _), hr.sumT ht, sum_range_succ, sm l (le_refl _), Function.update_self,
                avgRes_eq]
            · rw [c1 j h', tk j h', hf.sumT ht j h', sm j h']
          · intro ht j hj
            rcases Nat.lt_or_ge l j with h' | h'
            · obtain rfl : j = l + 1 := by omega
              rw [c2, tl, hf.sumU ht l (le_refl _), hr.sumU ht, sum_range_succ, sm l (le_refl _), Function.update_self,
                avgRes_eq]
              have e1 : sizeAt nb dbnds s (l + 1) = endSize nb dbnds s l := rfl
              rw [e1, sizeAt_inner (by omega : l + 1 < nb)]
              unfold chgRes
              ring
            · rw [c1 j h', tk j h', hf.sumU ht j h', sm j h']
          · intro ht j h0 hj
            rcases Nat.lt_or_ge l j with h' | h'
            · obtain rfl : j = l + 1 := by omega
              rw [c2, getD_append_right _ _ (by rw [hf.len]; have := hr.pos; omega), hf.len]
              have := hr.last ht
              rw [show countBefore n l + r.length - 1 - countBefore n l = r.length - 1 by omega]
              exact this
            · have hp : 0 < countBefore n j := by
                have := hf.pos 0 (by omega)
                have := countBefore_mono n (show 1 ≤ j by omega)
                rw [countBefore_succ] at this
                omega
              rw [c1 j h', getD_append_left _ _ (by rw [hf.len]; have := countBefore_mono n h'; omega)]
              exact hf.last ht j h0 h'

/-! ### The lines -/

theorem tLine_even (b0 : ℝ) (ds : List ℝ) : ∀ k, tLine b0 ds (2 * k) = b0 + sumTo ds k
  | 0 => by simp [tLine, sumTo]
  | k + 1 => by
    show tLine b0 ds (2 * k + 1 + 1) = _
    rw [tLine, tLine, tLine_even b0 ds k, sumTo_succ, show (2 * k + 1) / 2 = k by omega, show 2 * k / 2 = k by omega]
    ring

theorem cLine_odd (b0 db0 : ℝ) (ds : List ℝ) : ∀ k, cLine b0 db0 ds (2 * k + 1) = b0 + 1 / 2 * db0 + sumTo ds k
  | 0 => by simp [cLine, sumTo]
  | k + 1 => by
    show cLine b0 db0 ds (2 * k + 1 + 2) = _
    rw [cLine, show 2 * k + 1 + 1 = 2 * k + 2 by omega, cLine, cLine_odd b0 db0 ds k, sumTo_succ,
      show (2 * k + 1) / 2 = k by omega, show 2 * k / 2 = k by omega]
    ring

theorem cLine_even (b0 db0 : ℝ) (ds : List ℝ) (k : Nat) :
    cLine b0 db0 ds (2 * (k + 1)) = b0 + 1 / 2 * db0 + sumTo ds (k + 1) - 1 / 2 * ds.getD k 0 := by
  show cLine b0 db0 ds (2 * k + 2) = _
  rw [cLine, cLine_odd, sumTo_succ, show 2 * k / 2 = k by omega]
  ring

/-- The parts of an accepted call. -/
theorem accepted {cap nb : Nat} {bnds dbnds : Nat → ℝ} {s : ℝ} {center : String} {grid : List ℝ}
    (h : computeGridBoundLegacy cap nb bnds dbnds s center = .ok grid) :
    ∃ ds, deltas cap nb bnds dbnds s center (nb - 1) = .ok ds ∧
      grid = (List.range (2 * ds.length + 1)).map
        (if center = "t_cell" then tLine (bnds 0) ds else cLine (bnds 0) (dbnds 0) ds) := by
  unfold computeGridBoundLegacy at h
  split at h
  · cases h
  · split at h
    · cases h
    · cases hd : deltas cap nb bnds dbnds s center (nb - 1) with
      | error e => rw [hd] at h; cases h
      | ok ds =>
        rw [hd] at h
        refine ⟨ds, rfl, ?_⟩
        simp only [bind, Except.bind] at h
        unfold lines at h
        by_cases hc : center = "t_cell"
        · rw [if_pos hc] at h ⊢
          cases h; rfl
        · rw [if_neg hc] at h ⊢
          split at h
          · cases h
          · cases h; rfl

/-! ### The property -/

/-- C51. In an accepted call every region `l` has a number `n l` of model cells that is its width divided by the mean
of the cell sizes at its ends up to 10⁻⁵. The grid has two cells for each, and the line at the start of a region is at
the first bound plus the sum over the regions before of `n` times the mean size. -/
theorem C51_lines (cap nb : Nat) (bnds dbnds : Nat → ℝ) (s : ℝ) (center : String) (grid : List ℝ)
    (ok : RegionsOk nb bnds dbnds s) (h : computeGridBoundLegacy cap nb bnds dbnds s center = .ok grid) :
    ∃ n : Nat → Nat,
      (∀ l, l + 1 < nb → 0 < n l ∧ |(n l : ℝ) - widthOf bnds l / meanSize nb dbnds s l| ≤ 1 / 100000) ∧
      grid.length = 2 * countBefore n (nb - 1) + 1 ∧
      ∀ l, l < nb → LineAt grid (2 * countBefore n l) (bnds 0 + ∑ k ∈ range l, n k * meanSize nb dbnds s k) := by
  obtain ⟨ds, hd, rfl⟩ := accepted h
  have h2 := ok.1
  obtain ⟨n, hf⟩ := delta_facts ok (nb - 1) (by omega) ds hd
  refine ⟨n, ?_, ?_, ?_⟩
  · intro l hl
    exact ⟨hf.pos l (by omega), hf.near l (by omega)⟩
  · rw [List.length_map, List.length_range, hf.len]
  · intro l hl
    have hle : countBefore n l ≤ ds.length := by rw [hf.len]; exact countBefore_mono n (by omega)
    refine ⟨by positivity, ?_⟩
    rw [show (2 * (countBefore n l : Int)).toNat = 2 * countBefore n l by omega, GridBound.getElem?_rangeMap _ (by omega)]
    congr 1
    by_cases hc : center = "t_cell"
    · rw [if_pos hc, tLine_even, hf.sumT hc l (by omega)]
    · rw [if_neg hc]
      cases l with
      | zero => simp [countBefore, cLine]
      | succ l =>
        have hp : 0 < countBefore n (l + 1) := by
          rw [countBefore_succ]; have := hf.pos l (by omega); omega
        have hl' := hf.last hc (l + 1) (by omega) (by omega)
        have hsum := hf.sumU hc (l + 1) (by omega)
        obtain ⟨q, hq⟩ : ∃ q, countBefore n (l + 1) = q + 1 := ⟨countBefore n (l + 1) - 1, by omega⟩
        rw [hq] at hl' hsum ⊢
        rw [cLine_even, hsum, show q = q + 1 - 1 by omega, hl']
        ring

/-- C51. The lines of an accepted call increase. -/
theorem C51_increasing (cap nb : Nat) (bnds dbnds : Nat → ℝ) (s : ℝ) (center : String) (grid : List ℝ)
    (ok : RegionsOk nb bnds dbnds s) (h : computeGridBoundLegacy cap nb bnds dbnds s center = .ok grid) :
    LinesIncrease grid := by
  obtain ⟨ds, hd, rfl⟩ := accepted h
  have h2 := ok.1
  obtain ⟨n, hf⟩ := delta_facts ok (nb - 1) (by omega) ds hd
  have hp : ∀ k, k < ds.length → 0 < ds.getD k 0 := by
    intro k hk
    rw [List.getD_eq_getElem?_getD, List.getElem?_eq_getElem hk]
    exact hf.cells _ (List.getElem_mem hk)
  have key := GridBound.rangeMap_signed (s := (1 : ℝ)) (m := 2 * ds.length + 1)
    (f := if center = "t_cell" then tLine (bnds 0) ds else cLine (bnds 0) (dbnds 0) ds) (by
      intro k hk
      by_cases hc : center = "t_cell"
      · rw [if_pos hc, tLine]
        have := hp (k / 2) (by omega)
        linarith
      · rw [if_neg hc]
        cases k with
        | zero =>
          have := ok.2.2.1 0 (by omega)
          show 0 < 1 * (cLine _ _ _ 1 - cLine _ _ _ 0)
          rw [cLine, cLine]
          linarith
        | succ k =>
          rw [cLine]
          have := hp (k / 2) (by omega)
          linarith)
  exact key.imp fun h => by linarith

/-- C51. Without stretching the number of cells is the one that get_legacy_grid_size gives, by which make_hgrid
allocates its arrays. -/
theorem C51_size (cap nb : Nat) (bnds dbnds : Nat → ℝ) (center : String) (grid : List ℝ)
    (ok : RegionsOk nb bnds dbnds 1) (h : computeGridBoundLegacy cap nb bnds dbnds 1 center = .ok grid) :
    legacyGridSize nb bnds dbnds = (grid.length : Int) - 1 := by
  obtain ⟨ds, hd, rfl⟩ := accepted h
  have h2 := ok.1
  obtain ⟨n, hf⟩ := delta_facts ok (nb - 1) (by omega) ds hd
  rw [List.length_map, List.length_range, hf.len]
  unfold legacyGridSize
  have key : ∀ m, m ≤ nb - 1 → ((List.range m).map fun l =>
      cround (|bnds (l + 1) - bnds l| / avgRes (dbnds l) (dbnds (l + 1)))).sum = (countBefore n m : Int) := by
    intro m
    induction m with
    | zero => intro _; rfl
    | succ m ih =>
      intro hm
      rw [List.range_succ, List.map_append, List.sum_append, ih (by omega), countBefore_succ]
      have hr := hf.round m (by omega)
      rw [← avgRes_eq] at hr
      have e : endSize nb dbnds 1 m = dbnds (m + 1) := by unfold endSize; split <;> simp
      rw [e] at hr
      unfold widthOf at hr
      simp [hr]
  rw [key _ (le_refl _)]
  push_cast
  ring

/-! ### Which calls are accepted -/

theorem region_accepts {center : String} {wid a b : ℝ} {n : Nat} (ha : 0 < a) (hb : 0 < b) (hn : 0 < n)
    (hn' : n ≤ 100000) (hw : wid = n * avgRes a b) (ht : center ≠ "t_cell" → wid / 100000 < a ∧ wid / 100000 < b) :
    ∃ ds, region center wid a b b = .ok ds ∧ ds.length = n := by
  have hav : 0 < avgRes a b := by unfold avgRes; linarith
  have han : wid / avgRes a b = n := by rw [hw]; field_simp
  have hr : cround (n : ℝ) = n := cround_near (by positivity) (by simp [tol_pos.le])
  unfold region
  rw [if_neg (ne_of_gt hav)]
  simp only [han, hr]
  by_cases hc : center = "t_cell"
  · rw [if_pos hc]
    have : ¬ |(n : ℝ) - (n : Int)| > tol := by simp [tol_pos.le]
    rw [if_neg this]
    exact ⟨_, rfl, by simp⟩
  · rw [if_neg hc]
    obtain ⟨wa, wb⟩ := ht hc
    have hwid : 0 < wid := by rw [hw]; positivity
    have hn0 : ¬ ((n : Int) = 0) := by omega
    unfold uCells
    rw [if_neg hn0]
    -- the loop takes exactly `n` cells
    have pos : ∀ i, 0 < uDel a b n i := fun i => del_pos ha hb (Real.neg_one_le_cos _) (Real.cos_le_one _)
    have ge : ∀ i, wid / 100000 < uDel a b n i := by
      intro i
      have := del_ge (a := a) (b := b) (m := min a b) (c := Real.cos (Real.pi / ((n : Int) : ℝ) * i)) (min_le_left _ _)
        (min_le_right _ _) (Real.neg_one_le_cos _) (Real.cos_le_one _)
      have h2 : wid / 100000 < min a b := lt_min wa wb
      unfold uDel
      linarith
    have start : ∀ k, k ≤ n → 1 / 2 * a - 1 / 2 * b + ∑ i ∈ range k, uDel a b n (i + 1) ≤ wid := by
      intro k hk
      have hsum := sum_uDel a b n hn
      have hle : ∑ i ∈ range k, uDel a b n (i + 1) ≤ ∑ i ∈ range n, uDel a b n (i + 1) :=
        sum_le_sum_of_subset_of_nonneg (range_subset_range.2 hk) fun i _ _ => (pos _).le
      rw [hsum] at hle
      unfold chgRes at hle
      rw [hw]; linarith
    have full : 1 / 2 * a - 1 / 2 * b + ∑ i ∈ range n, uDel a b n (i + 1) = wid := by
      rw [sum_uDel a b n hn, hw]; unfold chgRes; ring
    have loop : ∀ f k s, k ≤ n → n ≤ k + f → s = 1 / 2 * a - 1 / 2 * b + ∑ i ∈ range k, uDel a b n (i + 1) →
        (uLoop a b n (wid * (1 + tol)) f k s).length = n - k := by
      intro f
      induction f with
      | zero => intro k s hk hf _; simp [uLoop]; omega
      | succ f ih =>
        intro k s hk hf hs
        unfold uLoop
        simp only
        rcases Nat.lt_or_ge k n with hlt | hge
        · have h1 := start (k + 1) hlt
          rw [sum_range_succ] at h1
          have : s + uDel a b n (k + 1) ≤ wid * (1 + tol) := by
            have := mul_pos hwid tol_pos
            rw [hs]; linarith
          rw [if_pos this, List.length_cons, ih (k + 1) _ hlt (by omega) (by rw [hs, sum_range_succ]; ring)]
          omega
        · obtain rfl : k = n := by omega
          have : ¬ s + uDel a b k (k + 1) ≤ wid * (1 + tol) := by
            have := ge (k + 1)
            rw [hs, full]
            unfold tol
            linarith
          rw [if_neg this]; simp
    have hl := loop 100000 0 (1 / 2 * a - 1 / 2 * b) (by omega) (by omega) (by simp)
    rw [Nat.sub_zero] at hl
    have : ¬ |(n : ℝ) - ((uLoop a b n (wid * (1 + tol)) 100000 0 (1 / 2 * a - 1 / 2 * b)).length : ℝ)| > tol := by
      rw [hl]; simp [tol_pos.le]
    rw [if_neg this]
    exact ⟨_, rfl, hl⟩

/-- C51. Regions whose widths are whole multiples of their mean cell sizes are accepted without stretching, if the
total is not too large (and, for "c_cell", no cell size is below 10⁻⁵ of the width of its region); the grid has these
numbers of cells, increases, and has all the bounds as lines. -/
theorem C51_exact (cap nb : Nat) (bnds dbnds : Nat → ℝ) (center : String) (n : Nat → Nat) (h2 : 2 ≤ nb)
    (hc : center = "t_cell" ∨ center = "c_cell" ∨ nb = 2) (hd : ∀ l, l < nb → 0 < dbnds l)
    (hb : ∀ l, l + 1 < nb → bnds (l + 1) - bnds l = n l * meanSize nb dbnds 1 l)
    (hn : ∀ l, l + 1 < nb → 0 < n l ∧ n l ≤ 100000) (hcap : countBefore n (nb - 1) ≤ cap)
    (hs : center ≠ "t_cell" → ∀ l, l + 1 < nb → widthOf bnds l / 100000 < dbnds l ∧
      widthOf bnds l / 100000 < dbnds (l + 1)) :
    ∃ grid, computeGridBoundLegacy cap nb bnds dbnds 1 center = .ok grid ∧
      grid.length = 2 * countBefore n (nb - 1) + 1 ∧ LinesIncrease grid ∧
      ∀ l, l < nb → LineAt grid (2 * countBefore n l) (bnds l) := by
  have e : ∀ m, endSize nb dbnds 1 m = dbnds (m + 1) := by intro m; unfold endSize; split <;> simp
  have mpos : ∀ l, l + 1 < nb → 0 < meanSize nb dbnds 1 l := by
    intro l hl
    unfold meanSize
    rw [e]
    have := hd l (by omega)
    have := hd (l + 1) hl
    linarith
  have wv : ∀ l, l + 1 < nb → widthOf bnds l = n l * meanSize nb dbnds 1 l := by
    intro l hl
    unfold widthOf
    rw [hb l hl, abs_of_nonneg]
    have := mpos l hl
    positivity
  have ok : RegionsOk nb bnds dbnds 1 := by
    refine ⟨h2, one_pos, hd, ?_⟩
    intro l hl
    rw [wv l hl]
    have h1 := mpos l hl
    have h3 : (1 : ℝ) ≤ n l := by exact_mod_cast (hn l hl).1
    nlinarith
  have acc : ∀ l, l < nb → ∃ ds, deltas cap nb bnds dbnds 1 center l = .ok ds ∧ ds.length = countBefore n l := by
    intro l
    induction l with
    | zero => intro _; exact ⟨[], rfl, rfl⟩
    | succ l ih =>
      intro hl
      obtain ⟨ds, h1, hlen⟩ := ih (by omega)
      obtain ⟨r, hr, hrl⟩ := region_accepts (center := center) (wid := widthOf bnds l) (n := n l) (hd l (by omega))
        (hd (l + 1) hl) (hn l hl).1 (hn l hl).2 (by rw [wv l hl, ← avgRes_eq, e]) (fun h => hs h l hl)
      refine ⟨ds ++ r, ?_, ?_⟩
      · unfold deltas
        rw [h1, farSize_eq, e]
        unfold widthOf at hr
        simp only [bind, Except.bind, hr]
        rw [if_neg]
        rw [List.length_append, hlen, hrl, ← countBefore_succ]
        have := countBefore_mono n (show l + 1 ≤ nb - 1 by omega)
        omega
      · rw [List.length_append, hlen, hrl, countBefore_succ]
  obtain ⟨ds, hds, hlen⟩ := acc (nb - 1) (by omega)
  obtain ⟨grid, hg⟩ : ∃ grid, computeGridBoundLegacy cap nb bnds dbnds 1 center = .ok grid := by
    unfold computeGridBoundLegacy
    rw [if_neg (not_not.2 hc), if_neg (by simp), hds]
    simp only [bind, Except.bind]
    unfold lines
    by_cases ht : center = "t_cell"
    · rw [if_pos ht]; exact ⟨_, rfl⟩
    · rw [if_neg ht, if_neg]
      · exact ⟨_, rfl⟩
      · rw [hlen]
        have := (hn 0 (by omega)).1
        have := countBefore_mono n (show 1 ≤ nb - 1 by omega)
        rw [countBefore_succ] at this
        omega
  obtain ⟨m, hm, hml, hlines⟩ := C51_lines cap nb bnds dbnds 1 center grid ok hg
  have mn : ∀ l, l + 1 < nb → n l = m l := by
    intro l hl
    have h1 := (hm l hl).2
    rw [wv l hl, mul_div_cancel_right₀ _ (ne_of_gt (mpos l hl))] at h1
    have h3 := abs_le.1 h1
    have a1 : (m l : ℝ) < n l + 1 := by linarith
    have a2 : (n l : ℝ) < m l + 1 := by linarith
    have a1 : m l < n l + 1 := by exact_mod_cast a1
    have a2 : n l < m l + 1 := by exact_mod_cast a2
    omega
  have cm : ∀ j, j ≤ nb - 1 → countBefore n j = countBefore m j :=
    fun j hj => countBefore_congr (l := nb - 1) (fun k hk => mn k (by omega)) hj
  refine ⟨grid, hg, by rw [hml, cm _ (le_refl _)], C51_increasing cap nb bnds dbnds 1 center grid ok hg, ?_⟩
  intro l hl
  have := hlines l hl
  rw [← cm l (by omega)] at this
  have sumB : ∀ j, j < nb → bnds 0 + ∑ k ∈ range j, (m k : ℝ) * meanSize nb dbnds 1 k = bnds j := by
    intro j
    induction j with
    | zero => intro _; simp
    | succ j ih =>
      intro hj
      have h1 := ih (by omega)
      have h3 := hb j hj
      rw [sum_range_succ, ← mn j hj]
      linarith
  rwa [sumB l hl] at this

/-! ### Where the code differs -/

def downBnds : Nat → ℝ := fun l => if l = 0 then 10 else 0
def upBnds : Nat → ℝ := fun l => if l = 0 then 0 else 30

theorem down_width : |downBnds (0 + 1) - downBnds 0| = 10 := by unfold downBnds; norm_num
theorem up_width : |upBnds (0 + 1) - upBnds 0| = 30 := by unfold upBnds; norm_num

/-- Bounds that decrease are not followed: bounds 10, 0 with cells of size 1 give a grid from 10 up to 20. -/
theorem C51_decreasing_wrong :
    ∃ grid, computeGridBoundLegacy 5000 2 downBnds (fun _ => 1) 1 "t_cell" = .ok grid ∧
      LineAt grid 20 20 ∧ ∀ k, ¬ LineAt grid k 0 := by
  have hacc := region_accepts (center := "t_cell") (wid := 10) (a := 1) (b := 1) (n := 10) (by norm_num) (by norm_num)
    (by norm_num) (by norm_num) (by unfold avgRes; norm_num) (fun h => absurd rfl h)
  obtain ⟨ds, hds, hlen⟩ := hacc
  obtain ⟨grid, hg⟩ : ∃ grid, computeGridBoundLegacy 5000 2 downBnds (fun _ => 1) 1 "t_cell" =
      .ok grid := by
    unfold computeGridBoundLegacy
    rw [if_neg (by simp), if_neg (by simp)]
    show ∃ grid, (deltas 5000 2 downBnds (fun _ => 1) 1 "t_cell" (0 + 1) >>= _) = _
    unfold deltas
    unfold deltas
    have e2 : farSize 2 (fun _ => 1) 1 0 = 1 := by unfold farSize; simp
    rw [down_width, e2, hds]
    simp only [bind, Except.bind, List.nil_append, hlen]
    rw [if_neg (by omega)]
    unfold lines
    simp only [if_true]
    exact ⟨_, rfl⟩
  have ok : RegionsOk 2 downBnds (fun _ => 1) 1 := by
    refine ⟨by omega, one_pos, fun _ _ => one_pos, ?_⟩
    intro l hl
    obtain rfl : l = 0 := by omega
    unfold meanSize endSize widthOf downBnds
    norm_num
  obtain ⟨n, hn, hlen', hl⟩ := C51_lines _ _ _ _ _ _ _ ok hg
  have h10 : n 0 = 10 := by
    have h1 := (hn 0 (by omega)).2
    have e : widthOf downBnds 0 / meanSize 2 (fun _ => 1) 1 0 = 10 := by
      unfold meanSize endSize widthOf downBnds; norm_num
    rw [e] at h1
    have h3 := abs_le.1 h1
    have a1 : (n 0 : ℝ) < 11 := by linarith
    have a2 : (9 : ℝ) < n 0 := by linarith
    have a1 : n 0 < 11 := by exact_mod_cast a1
    have a2 : 9 < n 0 := by exact_mod_cast a2
    omega
  have c1 : countBefore n 1 = 10 := by rw [countBefore_succ, h10]; rfl
  have hm : meanSize 2 (fun _ => 1) 1 0 = 1 := by unfold meanSize endSize; norm_num
  refine ⟨grid, hg, ?_, ?_⟩
  · have := hl 1 (by omega)
    rw [c1, sum_range_one, h10, hm] at this
    unfold downBnds at this
    norm_num at this
    exact this
  · rintro k ⟨_, hk⟩
    have h0 := (hl 0 (by omega)).2
    simp only [countBefore, range_zero, sum_empty, downBnds] at h0
    norm_num at h0
    have inc := C51_increasing _ _ _ _ _ _ _ ok hg
    rcases Nat.eq_zero_or_pos k.toNat with hz | hz
    · rw [hz, h0] at hk
      norm_num at hk
    · have hlt : k.toNat < grid.length := (List.getElem?_eq_some_iff.1 hk).1
      have := List.pairwise_iff_getElem.1 inc 0 k.toNat (by omega) hlt hz
      rw [(List.getElem?_eq_some_iff.1 hk).2, (List.getElem?_eq_some_iff.1 h0).2] at this
      norm_num at this

/-- Stretching with a factor above one is refused with "c_cell", in spite of the comment "provide for stretching last
region if needed": here is the case of one region with bounds 0, 30, cell sizes 1 and 1 and the factor 2, whose width
is 20 times the mean size. -/
theorem C51_stretch_wrong :
    widthOf upBnds 0 = 20 * meanSize 2 (fun _ => 1) 2 0 ∧
    computeGridBoundLegacy 5000 2 upBnds (fun _ => 1) 2 "c_cell" = .error .notIntegral := by
  constructor
  · unfold widthOf meanSize endSize upBnds; norm_num
  · have hreg : region "c_cell" 30 1 2 1 = .error .notIntegral := by
      cases hr : region "c_cell" 30 1 2 1 with
      | error e =>
        unfold region at hr
        rw [if_neg (by unfold avgRes; norm_num), if_neg (by decide)] at hr
        simp only at hr
        split at hr
        · cases hr; rfl
        · cases hr
      | ok ds =>
        exfalso
        have hf := region_facts (by norm_num) (by norm_num) (by unfold avgRes; norm_num) hr
        have e : (30 : ℝ) / avgRes 1 2 = 20 := by unfold avgRes; norm_num
        have h20 : ds.length = 20 := by
          have h3 := hf.near
          rw [e] at h3
          have h3 := abs_le.1 h3
          have := tol_lt
          have a1 : (ds.length : ℝ) < 21 := by linarith
          have a2 : (19 : ℝ) < ds.length := by linarith
          have a1 : ds.length < 21 := by exact_mod_cast a1
          have a2 : 19 < ds.length := by exact_mod_cast a2
          omega
        have hsum := hf.sumU (by decide)
        rw [h20] at hsum
        -- the loop keeps the sum below the limit
        have bound : ∀ (f i : Nat) (s : ℝ), s ≤ 30 * (1 + tol) →
            s + (uLoop 1 2 20 (30 * (1 + tol)) f i s).sum ≤ 30 * (1 + tol) := by
          intro f
          induction f with
          | zero => intro i s hs; simpa [uLoop] using hs
          | succ f ih =>
            intro i s hs
            unfold uLoop
            simp only
            split
            · rename_i hle
              have := ih (i + 1) _ hle
              rw [List.sum_cons]
              linarith
            · simpa using hs
        have hround := hf.round
        rw [e, h20] at hround
        unfold region at hr
        rw [if_neg (by unfold avgRes; norm_num), if_neg (by decide)] at hr
        simp only [e, hround] at hr
        unfold uCells at hr
        rw [if_neg (show ¬ ((20 : Nat) : Int) = 0 by decide)] at hr
        split at hr
        · cases hr
        · cases hr
          have := bound 100000 0 (1 / 2 * 1 - 1 / 2 * 1) (by unfold tol; norm_num)
          rw [show ((20 : Nat) : Int) = 20 from rfl] at hsum
          rw [hsum] at this
          unfold avgRes chgRes tol at this
          norm_num at this
    unfold computeGridBoundLegacy
    rw [if_neg (by simp), if_neg (by simp)]
    show (deltas 5000 2 upBnds (fun _ => 1) 2 "c_cell" (0 + 1) >>= _) = _
    unfold deltas
    unfold deltas
    have e2 : farSize 2 (fun _ => 1) 2 0 = 2 := by unfold farSize; simp
    rw [up_width, e2, hreg]
    rfl

/-! ### Concrete case, near to the example of make_vgrid's help: bounds 0, 220, 5540 and sizes 10, 10, 370 -/

example : ∃ n : Nat → Nat, (∀ l, l + 1 < 3 →
    (fun k : Nat => ([0, 220, 5540] : List ℝ).getD k 0) (l + 1) - (fun k : Nat => ([0, 220, 5540] : List ℝ).getD k 0) l =
      n l * meanSize 3 (fun k => ([10, 10, 370] : List ℝ).getD k 0) 1 l) ∧ countBefore n 2 = 50 := by
  refine ⟨fun l => if l = 0 then 22 else 28, ?_, by decide⟩
  intro l hl
  obtain rfl | rfl : l = 0 ∨ l = 1 := by omega
  · unfold meanSize endSize; norm_num
  · unfold meanSize endSize; norm_num

end Verif.GridLegacy
