import Verif.Model.FloatExtent
import Verif.Spec.Rounding
import Verif.Lemmas.Extent
import Mathlib.Data.Int.Log
import Mathlib.Algebra.Order.Archimedean.Basic
import Mathlib.Tactic.Linarith
import Mathlib.Tactic.Positivity
import Mathlib.Tactic.FieldSimp
import Mathlib.Tactic.Ring
/-
C44: the floating-point quotient in the domain decomposition.
-/
namespace Verif.FloatExtent
open Verif.Spec

/-! ### The quotient -/

theorem ceilDiv_isCeil {a b : Int} (hb : 0 < b) : IsCeil a b (ceilDiv a b) := by
  have h := ceilDiv_bounds a b hb
  constructor
  · rw [Int.mul_comm]; exact h.1
  · rw [Int.sub_mul, Int.mul_comm]; omega

theorem isCeil_unique {a b q q' : Int} (hb : 0 < b) (h : IsCeil a b q) (h' : IsCeil a b q') : q = q' := by
  obtain ⟨h1, h2⟩ := h
  obtain ⟨h3, h4⟩ := h'
  rcases Int.lt_trichotomy q q' with h | h | h
  · have : q * b ≤ (q' - 1) * b := Int.mul_le_mul_of_nonneg_right (by omega) (by omega)
    omega
  · exact h
  · have : q' * b ≤ (q - 1) * b := Int.mul_le_mul_of_nonneg_right (by omega) (by omega)
    omega

/-- C44. With any rounding to `p` bits the rounded quotient, rounded up, is the exact quotient rounded up, for
dividends below `2^p`. -/
theorem C44_ceil (p : Nat) (rd : ℝ → ℝ) (h : Rounds p rd) (a b : Int) (ha : 0 ≤ a) (ha' : a < 2 ^ p) (hb : 0 < b)
    (hb' : b ≤ 2 ^ p) : IsCeil a b (floatCeil rd a b) := by
  obtain ⟨q, hq⟩ : ∃ q, q = ceilDiv a b := ⟨_, rfl⟩
  have hc := ceilDiv_isCeil (a := a) hb
  rw [← hq] at hc
  suffices hs : floatCeil rd a b = q by rw [hs]; exact hc
  unfold floatCeil
  rw [h.whole a (by rw [abs_of_nonneg ha]; exact le_of_lt ha'), h.whole b (by rw [abs_of_pos hb]; exact hb')]
  obtain ⟨h1, h2⟩ := hc
  have bK : (0 : ℝ) < b := Int.cast_pos.2 hb
  have aK : (0 : ℝ) ≤ a := Int.cast_nonneg ha
  by_cases he : a = q * b
  · -- a whole quotient is kept
    have hx : (a : ℝ) / b = (q : ℝ) := by rw [he]; push_cast; field_simp
    have q0 : 0 ≤ q := by
      by_contra hn
      have : q * b < 0 := Int.mul_neg_of_neg_of_pos (by omega) hb
      omega
    have qa : q ≤ a := by
      have := Int.mul_le_mul_of_nonneg_left (show (1 : Int) ≤ b by omega) q0
      omega
    rw [hx, h.whole q (by rw [abs_of_nonneg q0]; omega), Int.ceil_intCast]
  · have h3 : a + 1 ≤ q * b := by omega
    have h4 : (q - 1) * b + 1 ≤ a := by omega
    have h3' : (a : ℝ) + 1 ≤ q * b := by exact_mod_cast h3
    have h4' : ((q : ℝ) - 1) * b + 1 ≤ a := by exact_mod_cast h4
    have err := h.near ((a : ℝ) / b)
    have small : |(a : ℝ) / b| / 2 ^ p < 1 / b := by
      rw [abs_of_nonneg (by positivity), div_div, div_lt_div_iff₀ (by positivity) bK]
      have : (a : ℝ) < 2 ^ p := by exact_mod_cast ha'
      nlinarith
    have e := abs_le.1 err
    have x1 : (a : ℝ) / b + 1 / b ≤ q := by
      rw [← add_div, div_le_iff₀ bK]; exact h3'
    have x2 : (q : ℝ) - 1 ≤ a / b - 1 / b := by
      rw [← sub_div, le_div_iff₀ bK]; linarith
    rw [Int.ceil_eq_iff]
    constructor <;> linarith

theorem floatCeil_eq {p : Nat} {rd : ℝ → ℝ} (h : Rounds p rd) {a b : Int} (ha : 0 ≤ a) (ha' : a < 2 ^ p) (hb : 0 < b)
    (hb' : b ≤ 2 ^ p) : floatCeil rd a b = ceilDiv a b :=
  isCeil_unique hb (C44_ceil p rd h a b ha ha' hb hb') (ceilDiv_isCeil hb)

/-! ### The loops -/

theorem forLoop_congr {ε σ : Type} {f g : Nat → σ → Except ε σ} (I : Nat → σ → Prop) :
    ∀ (n s0 : Nat) (st : σ), I s0 st →
      (∀ k st, s0 ≤ k → k < s0 + n → I k st → f k st = g k st ∧ ∀ st', g k st = .ok st' → I (k + 1) st') →
      forLoop f s0 n st = forLoop g s0 n st := by
  intro n
  induction n with
  | zero => intro s0 st _ _; rfl
  | succ n ih =>
    intro s0 st h hs
    obtain ⟨h1, h2⟩ := hs s0 st (Nat.le_refl _) (by omega) h
    simp only [forLoop, h1]
    cases hg : g s0 st with
    | error e => rfl
    | ok st' => exact ih (s0 + 1) st' (h2 st' hg) fun k st hk hk' => hs k st (by omega) (by omega)

theorem ceilDiv_le {a b : Int} (ha : 0 ≤ a) (hb : 0 < b) : ceilDiv a b ≤ a := by
  have h := (ceilDiv_isCeil (a := a) hb).2
  by_contra hn
  have : a * b ≤ (ceilDiv a b - 1) * b := Int.mul_le_mul_of_nonneg_right (by omega) (by omega)
  have : a * 1 ≤ a * b := Int.mul_le_mul_of_nonneg_left (by omega) ha
  omega

/-- What is known before round `k` as long as quotients are still to be computed. -/
structure Inv (sym : Bool) (isg ieg : Int) (ndivs k : Nat) (st : ExtSt) : Prop where
  low : isg ≤ st.is
  mid : st.is ≤ st.imax + 1
  high : st.imax ≤ ieg
  nd : st.ndmax ≤ ndivs
  nd' : (ndivs : Int) - (if sym then (k : Int) else 0) ≤ st.ndmax

theorem extStep_congr {cd : Int → Int → Int} {M : Int} (hcd : ∀ a b, 0 ≤ a → a < M → 0 < b → b ≤ M → cd a b = ceilDiv a b)
    {sym : Bool} {isg ieg : Int} {ndivs k : Nat} (hM : ieg - isg + 1 < M) (hn : (ndivs : Int) ≤ M) (hk : k < ndivs)
    {st : ExtSt} (hI : (sym = true ∧ (ndivs - 1) / 2 + 1 ≤ k) ∨ Inv sym isg ieg ndivs k st) :
    extStepWith cd sym isg ieg ndivs k st = extStep sym isg ieg ndivs k st ∧
      ∀ st', extStep sym isg ieg ndivs k st = .ok st' →
        (sym = true ∧ (ndivs - 1) / 2 + 1 ≤ k + 1) ∨ Inv sym isg ieg ndivs (k + 1) st' := by
  unfold extStepWith extStep
  by_cases hh : k < (ndivs - 1) / 2 + 1
  · obtain ⟨hs, hle⟩ | hI := hI
    · omega
    have b0 : 0 < st.ndmax - k := by
      have := hI.nd'
      split at this <;> omega
    have a0 : 0 ≤ st.imax - st.is + 1 := by have := hI.mid; omega
    have a1 : st.imax - st.is + 1 < M := by have := hI.low; have := hI.high; omega
    have he := hcd (st.imax - st.is + 1) (st.ndmax - k) a0 a1 b0 (by have := hI.nd; omega)
    have hle := ceilDiv_le a0 b0
    simp only [if_pos hh, he]
    refine ⟨trivial, ?_⟩
    intro st' hst
    have := hI.low
    have := hI.mid
    have := hI.high
    have := hI.nd
    have hnd := hI.nd'
    by_cases hm : ndivs - 1 - k > k ∧ sym = true
    · simp only [if_pos hm] at hst
      split at hst
      · cases hst
      · split at hst
        · cases hst
        · cases hst
          right
          simp only [hm.2, if_true] at hnd
          refine ⟨?_, ?_, ?_, ?_, ?_⟩ <;> simp only [hm.2, if_true] <;> push_cast <;> omega
    · simp only [if_neg hm] at hst
      split at hst
      · cases hst
      · split at hst
        · cases hst
        · cases hst
          right
          refine ⟨?_, ?_, ?_, ?_, ?_⟩
          · show isg ≤ _ + 1; omega
          · show _ + 1 ≤ st.imax + 1; omega
          · show st.imax ≤ ieg; omega
          · show st.ndmax ≤ _; omega
          · show _ ≤ st.ndmax
            cases sym with
            | true => simp only [if_true] at hnd ⊢; omega
            | false => simpa using hnd
  · simp only [if_neg hh]
    by_cases hs : sym = true
    · simp only [if_pos hs]
      exact ⟨rfl, fun _ _ => Or.inl ⟨hs, by omega⟩⟩
    · obtain ⟨hs', _⟩ | hI := hI
      · exact absurd hs' hs
      have hsf : sym = false := by simpa using hs
      have hnd := hI.nd'
      rw [hsf] at hnd
      simp only [Bool.false_eq_true, if_false] at hnd
      have := hI.low
      have := hI.mid
      have := hI.high
      have := hI.nd
      have b0 : 0 < st.ndmax - k := by omega
      have a0 : 0 ≤ st.imax - st.is + 1 := by omega
      have a1 : st.imax - st.is + 1 < M := by omega
      have he := hcd (st.imax - st.is + 1) (st.ndmax - k) a0 a1 b0 (by omega)
      have hle := ceilDiv_le a0 b0
      simp only [if_neg hs, he]
      refine ⟨trivial, ?_⟩
      intro st' hst
      split at hst
      · cases hst
      · split at hst
        · cases hst
        · cases hst
          right
          refine ⟨?_, ?_, ?_, ?_, ?_⟩
          · show isg ≤ _ + 1; omega
          · show _ + 1 ≤ st.imax + 1; omega
          · show st.imax ≤ ieg; omega
          · show st.ndmax ≤ _; omega
          · show _ ≤ st.ndmax
            rw [hsf]; simpa using hnd

/-- C44. `mpp_compute_extent` of the library, with `double` rounded in any way, gives the exact result for all `int`
sizes. -/
theorem C44_library (rd : ℝ → ℝ) (h : Rounds 53 rd) (npts ndivs : Nat) (hn : npts < 2 ^ 31) :
    mppComputeExtentWith (floatCeil rd) npts ndivs = mppComputeExtent npts ndivs := by
  unfold mppComputeExtentWith mppComputeExtent extLoop
  split
  · rfl
  · rename_i hle
    have hcd : ∀ a b, 0 ≤ a → a < 2 ^ 53 → 0 < b → b ≤ 2 ^ 53 → floatCeil rd a b = ceilDiv a b :=
      fun a b h1 h2 h3 h4 => floatCeil_eq h h1 h2 h3 h4
    rw [forLoop_congr (g := extStep (symmetrize ((npts : Int) - 1 - 0 + 1) ndivs) 0 ((npts : Int) - 1) ndivs)
      (fun k st => (symmetrize ((npts : Int) - 1 - 0 + 1) ndivs = true ∧ (ndivs - 1) / 2 + 1 ≤ k) ∨
      Inv (symmetrize ((npts : Int) - 1 - 0 + 1) ndivs) 0 ((npts : Int) - 1) ndivs k st) ndivs 0 _ (Or.inr ?_) ?_]
    · rfl
    · refine ⟨le_refl _, ?_, le_refl _, le_refl _, ?_⟩
      · show (0 : Int) ≤ (npts : Int) - 1 + 1; omega
      · show _ ≤ (ndivs : Int)
        split <;> simp
    · intro k st _ hk hI
      exact extStep_congr hcd (by omega) (by omega) (by omega) hI

/-! ### mppncscatter -/

/-- What is known before round `k` of the loop in mppncscatter. -/
structure SInv (isg ieg : Int) (ndivs : Nat) (st : ExtSt) : Prop where
  low : isg ≤ st.is
  high : st.imax ≤ ieg
  nd : st.ndmax ≤ ndivs

theorem scatterStep_congr {cd : Int → Int → Int} {M : Int}
    (hcd : ∀ a b, 0 ≤ a → a < M → 0 < b → b ≤ M → cd a b = ceilDiv a b)
    {sym : Bool} {isg ieg : Int} {ndivs k : Nat} (hM : ieg - isg + 1 < M) (hn : (ndivs : Int) ≤ M)
    {s : ExtSt × Nat} (hI : (sym = true ∧ (ndivs - 1) / 2 + 1 ≤ k) ∨ SInv isg ieg ndivs s.1) :
    scatterStepWith cd sym isg ieg ndivs k s = scatterStep sym isg ieg ndivs k s ∧
      ∀ s', scatterStep sym isg ieg ndivs k s = .ok s' →
        (sym = true ∧ (ndivs - 1) / 2 + 1 ≤ k + 1) ∨ SInv isg ieg ndivs s'.1 := by
  unfold scatterStepWith scatterStep
  by_cases hh : k < (ndivs - 1) / 2 + 1
  · obtain ⟨hs, hle⟩ | hI := hI
    · omega
    simp only [if_pos hh]
    by_cases hw : s.1.imax < s.1.is ∨ s.1.ndmax ≤ k
    · simp only [if_pos hw]
      exact ⟨trivial, fun s' h => nomatch h⟩
    · simp only [if_neg hw]
      have := hI.low
      have := hI.high
      have := hI.nd
      have b0 : 0 < s.1.ndmax - k := by omega
      have a0 : 0 ≤ s.1.imax - s.1.is + 1 := by omega
      have he := hcd (s.1.imax - s.1.is + 1) (s.1.ndmax - k) a0 (by omega) b0 (by omega)
      have hp := ceilDiv_pos (s.1.imax - s.1.is + 1) (s.1.ndmax - k) b0 (by omega)
      have hle := ceilDiv_le a0 b0
      simp only [he]
      refine ⟨trivial, ?_⟩
      intro s' hst
      by_cases hm : ndivs - 1 - k > k ∧ sym = true
      · simp only [if_pos hm] at hst
        cases hst
        right
        refine ⟨?_, ?_, ?_⟩
        · show isg ≤ _ + 1; omega
        · show max _ _ - 1 ≤ ieg; omega
        · show s.1.ndmax - 1 ≤ _; omega
      · simp only [if_neg hm] at hst
        cases hst
        right
        refine ⟨?_, ?_, ?_⟩
        · show isg ≤ _ + 1; omega
        · show s.1.imax ≤ ieg; omega
        · show s.1.ndmax ≤ _; omega
  · simp only [if_neg hh]
    by_cases hs : sym = true
    · simp only [if_pos hs]
      exact ⟨rfl, fun _ _ => Or.inl ⟨hs, by omega⟩⟩
    · obtain ⟨hs', _⟩ | hI := hI
      · exact absurd hs' hs
      simp only [if_neg hs]
      by_cases hw : s.1.imax < s.1.is ∨ s.1.ndmax ≤ k
      · simp only [if_pos hw]
        exact ⟨trivial, fun s' h => nomatch h⟩
      · simp only [if_neg hw]
        have := hI.low
        have := hI.high
        have := hI.nd
        have b0 : 0 < s.1.ndmax - k := by omega
        have a0 : 0 ≤ s.1.imax - s.1.is + 1 := by omega
        have he := hcd (s.1.imax - s.1.is + 1) (s.1.ndmax - k) a0 (by omega) b0 (by omega)
        have hp := ceilDiv_pos (s.1.imax - s.1.is + 1) (s.1.ndmax - k) b0 (by omega)
        simp only [he]
        refine ⟨trivial, ?_⟩
        intro s' hst
        cases hst
        right
        refine ⟨?_, ?_, ?_⟩
        · show isg ≤ _ + 1; omega
        · show s.1.imax ≤ ieg; omega
        · show s.1.ndmax ≤ _; omega

/-- C44. `mpp_compute_extent` of mppncscatter, with `float` rounded in any way, gives the exact result for ranges below
2^24 points. -/
theorem C44_scatter (rd : ℝ → ℝ) (h : Rounds 24 rd) (isg ieg : Int) (ndivs : Nat) (hn : ieg - isg + 1 < 2 ^ 24)
    (hd : ndivs ≤ 2 ^ 24) :
    scatterComputeExtentWith (floatCeil rd) isg ieg ndivs = scatterComputeExtent isg ieg ndivs := by
  unfold scatterComputeExtentWith scatterComputeExtent
  have hcd : ∀ a b, 0 ≤ a → a < 2 ^ 24 → 0 < b → b ≤ 2 ^ 24 → floatCeil rd a b = ceilDiv a b :=
    fun a b h1 h2 h3 h4 => floatCeil_eq h h1 h2 h3 h4
  rw [forLoop_congr (g := scatterStep (symmetrize (ieg - isg + 1) ndivs) isg ieg ndivs)
    (fun k (s : ExtSt × Nat) => (symmetrize (ieg - isg + 1) ndivs = true ∧ (ndivs - 1) / 2 + 1 ≤ k) ∨
    SInv isg ieg ndivs s.1) ndivs 0 _ (Or.inr ⟨le_refl _, le_refl _, le_refl _⟩) ?_]
  · rfl
  intro k st _ hk hI
  exact scatterStep_congr hcd hn (by omega) hI

theorem float_not_odd {x : ℝ} (h : IsFloat 24 x) : ⌈x⌉ ≠ 16777217 := by
  obtain ⟨m, e, hm, rfl⟩ := h
  intro hc
  rw [Int.ceil_eq_iff] at hc
  obtain ⟨h1, h2⟩ := hc
  push_cast at h1 h2
  have hm' : (m : ℝ) < 16777216 := by
    have : m < 2 ^ 24 := lt_of_le_of_lt (le_abs_self m) hm
    have : m < 16777216 := by omega
    exact_mod_cast this
  rcases le_or_gt e 0 with he | he
  · have p1 : (2 : ℝ) ^ e ≤ 1 := zpow_le_one_of_nonpos₀ (by norm_num) he
    have p0 : (0 : ℝ) < (2 : ℝ) ^ e := by positivity
    have : (m : ℝ) * 2 ^ e ≤ 16777216 := by
      rcases le_or_gt (m : ℝ) 0 with hm0 | hm0
      · have : (m : ℝ) * 2 ^ e ≤ 0 := mul_nonpos_of_nonpos_of_nonneg hm0 p0.le
        linarith
      · have : (m : ℝ) * 2 ^ e ≤ m * 1 := mul_le_mul_of_nonneg_left p1 hm0.le
        linarith
    linarith
  · obtain ⟨j, rfl⟩ : ∃ j : Nat, e = (j + 1 : Nat) := ⟨e.toNat - 1, by omega⟩
    rw [zpow_natCast] at h1 h2
    have e1 : (m : ℝ) * 2 ^ (j + 1) = ((m * 2 ^ (j + 1) : Int) : ℝ) := by push_cast; rfl
    rw [e1] at h1 h2
    have h1' : (16777216 : Int) < m * 2 ^ (j + 1) := by
      have : ((16777216 : Int) : ℝ) < ((m * 2 ^ (j + 1) : Int) : ℝ) := by push_cast at h1 ⊢; linarith
      exact_mod_cast this
    have h2' : m * 2 ^ (j + 1) ≤ 16777217 := by
      have : ((m * 2 ^ (j + 1) : Int) : ℝ) ≤ ((16777217 : Int) : ℝ) := by push_cast at h2 ⊢; exact h2
      exact_mod_cast this
    rw [pow_succ, ← Int.mul_assoc] at h1' h2'
    omega

/-- In mppncscatter one division of 16777217 points does not cover the points, whatever the rounding of `float`: the
exact extent is 0 to 16777216. -/
theorem C44_scatter_wrong (rd : ℝ → ℝ) (h : Rounds 24 rd) :
    scatterComputeExtent 0 16777216 1 = .ok ([(0, 16777216)], 0) ∧
    ∃ ie msgs, scatterComputeExtentWith (floatCeil rd) 0 16777216 1 = .ok ([(0, ie)], msgs) ∧ ie ≠ 16777216 ∧ 0 < msgs := by
  refine ⟨by rfl, floatCeil rd 16777217 1 - 1, ?_⟩
  have hne : floatCeil rd 16777217 1 ≠ 16777217 := float_not_odd (h.float _)
  refine ⟨0 + (if floatCeil rd 16777217 1 - 1 < 0 then 1 else 0) + 1, ?_, by omega, by omega⟩
  unfold scatterComputeExtentWith
  have hs : scatterStepWith (floatCeil rd) (symmetrize (16777216 - 0 + 1) (1 : Nat)) 0 16777216 1 0
      ({ is := 0, imax := 16777216, ndmax := (1 : Nat), tab := fun _ => none }, 0) =
      .ok ((⟨floatCeil rd 16777217 1 - 1 + 1, 16777216, 1,
        setTab (fun _ => none) 0 (0, floatCeil rd 16777217 1 - 1)⟩ : ExtSt),
        0 + (if floatCeil rd 16777217 1 - 1 < 0 then 1 else 0) + 1) := by
    unfold scatterStepWith
    simp only [show (0 < (1 - 1) / 2 + 1) from by decide, if_true]
    rw [if_neg (by decide)]
    simp only [show ¬ (1 - 1 - 0 > 0 ∧ symmetrize (16777216 - 0 + 1) ((1 : Nat) : Int) = true) from by decide, if_false]
    norm_num
    intro hx
    exact absurd (by omega) hne
  simp only [forLoop]
  rw [hs]
  simp [readTab, setTab]

/-! ### A rounding -/

/-- Round to the nearest number with `p` bits. -/
noncomputable def roundNearest (p : Nat) (x : ℝ) : ℝ :=
  if x = 0 then 0
  else
    let e : ℤ := Int.log 2 |x| + 1 - p
    (round (x / (2 : ℝ) ^ e) : ℝ) * (2 : ℝ) ^ e

/-- Rounding to nearest is a rounding in the sense of these theorems, with 24 bits, 53 bits and so on. -/
theorem roundNearest_rounds (p : Nat) (hp : 1 ≤ p) : Rounds p (roundNearest p) := by
  have lo : ∀ x : ℝ, x ≠ 0 → (2 : ℝ) ^ (Int.log 2 |x|) ≤ |x| := fun x hx => by
    have := Int.zpow_log_le_self (b := 2) (r := |x|) (by norm_num) (abs_pos.2 hx)
    exact_mod_cast this
  have hi : ∀ x : ℝ, |x| < (2 : ℝ) ^ (Int.log 2 |x| + 1) := fun x => by
    have := Int.lt_zpow_succ_log_self (b := 2) (by norm_num) |x|
    exact_mod_cast this
  have two : (2 : ℝ) ≠ 0 := by norm_num
  constructor
  · intro x
    unfold roundNearest
    split
    · exact ⟨0, 0, by positivity, by simp⟩
    · rename_i hx
      simp only
      set e : ℤ := Int.log 2 |x| + 1 - p with he
      have pe : (0 : ℝ) < (2 : ℝ) ^ e := by positivity
      have hb : |x / (2 : ℝ) ^ e| < 2 ^ p := by
        rw [abs_div, abs_of_pos pe, div_lt_iff₀ pe, ← zpow_natCast, ← zpow_add₀ two]
        have := hi x
        rwa [show (p : ℤ) + e = Int.log 2 |x| + 1 by omega]
      have hr : |round (x / (2 : ℝ) ^ e)| ≤ 2 ^ p := by
        have h1 := abs_lt.1 hb
        rw [abs_le]
        constructor
        · by_contra hn
          have hn : round (x / (2 : ℝ) ^ e) ≤ -2 ^ p - 1 := by omega
          have h2 := abs_le.1 (abs_sub_round (x / (2 : ℝ) ^ e))
          have h3 : ((round (x / (2 : ℝ) ^ e) : ℤ) : ℝ) ≤ ((-2 ^ p - 1 : ℤ) : ℝ) := Int.cast_le.2 hn
          push_cast at h3
          linarith
        · by_contra hn
          have hn : 2 ^ p + 1 ≤ round (x / (2 : ℝ) ^ e) := by omega
          have h2 := abs_le.1 (abs_sub_round (x / (2 : ℝ) ^ e))
          have h3 : ((2 ^ p + 1 : ℤ) : ℝ) ≤ ((round (x / (2 : ℝ) ^ e) : ℤ) : ℝ) := Int.cast_le.2 hn
          push_cast at h3
          linarith
      rcases lt_or_eq_of_le hr with hlt | heq
      · exact ⟨_, e, hlt, rfl⟩
      · -- a carry to the next power of two
        obtain ⟨q, rfl⟩ : ∃ q, p = q + 1 := ⟨p - 1, by omega⟩
        have hpos : (0 : ℤ) < 2 ^ q := by positivity
        have hmul : (2 : ℝ) ^ (q + 1) * (2 : ℝ) ^ e = 2 ^ q * (2 : ℝ) ^ (e + 1) := by
          rw [zpow_add_one₀ two, pow_succ]; ring
        rcases abs_eq (show (0 : ℤ) ≤ 2 ^ (q + 1) by positivity) |>.1 heq with h | h
        · refine ⟨2 ^ q, e + 1, ?_, ?_⟩
          · rw [abs_of_pos hpos, pow_succ]; omega
          · rw [h]; push_cast; exact hmul
        · refine ⟨-2 ^ q, e + 1, ?_, ?_⟩
          · rw [abs_neg, abs_of_pos hpos, pow_succ]; omega
          · rw [h]; push_cast; rw [neg_mul, neg_mul, hmul]
  · intro n hn
    unfold roundNearest
    split
    · rename_i hx; exact hx.symm
    · rename_i hx
      simp only
      set e : ℤ := Int.log 2 |(n : ℝ)| + 1 - p with he
      have pe : (2 : ℝ) ^ e ≠ 0 := by positivity
      obtain ⟨k, hk⟩ : ∃ k : ℤ, (n : ℝ) / (2 : ℝ) ^ e = k := by
        rcases le_or_gt e 0 with h0 | h0
        · refine ⟨n * 2 ^ (-e).toNat, ?_⟩
          push_cast
          have : (2 : ℝ) ^ e = ((2 : ℝ) ^ (-e).toNat)⁻¹ := by
            rw [← zpow_natCast, ← zpow_neg, show -(((-e).toNat : Nat) : ℤ) = e by omega]
          rw [this, div_inv_eq_mul]
        · -- only `2^p` itself
          have h1 := lo n hx
          have h2 : |(n : ℝ)| ≤ 2 ^ p := by exact_mod_cast hn
          have h3 : (2 : ℝ) ^ (p : ℤ) ≤ (2 : ℝ) ^ (Int.log 2 |(n : ℝ)|) := zpow_le_zpow_right₀ (by norm_num) (by omega)
          rw [zpow_natCast] at h3
          have h4 : |(n : ℝ)| = 2 ^ p := le_antisymm h2 (le_trans h3 h1)
          have h5 : Int.log 2 |(n : ℝ)| = p := by
            have h6 : (2 : ℝ) ^ (Int.log 2 |(n : ℝ)|) ≤ (2 : ℝ) ^ (p : ℤ) := by rw [zpow_natCast, ← h4]; exact h1
            have := (zpow_le_zpow_iff_right₀ (by norm_num : (1 : ℝ) < 2)).1 h6
            omega
          have e1 : e = 1 := by omega
          rw [e1, zpow_one]
          obtain ⟨q, rfl⟩ : ∃ q, p = q + 1 := ⟨p - 1, by omega⟩
          rcases abs_eq (show (0 : ℝ) ≤ 2 ^ (q + 1) by positivity) |>.1 h4 with h | h
          · exact ⟨2 ^ q, by rw [h, pow_succ]; push_cast; field_simp⟩
          · exact ⟨-2 ^ q, by rw [h, pow_succ]; push_cast; field_simp⟩
      rw [hk, round_intCast, ← hk, div_mul_cancel₀ _ pe]
  · intro x
    unfold roundNearest
    split
    · rename_i hx; rw [hx]; simp
    · rename_i hx
      simp only
      set e : ℤ := Int.log 2 |x| + 1 - p with he
      have pe : (0 : ℝ) < (2 : ℝ) ^ e := by positivity
      have h1 := abs_sub_round (x / (2 : ℝ) ^ e)
      have h2 : |(round (x / (2 : ℝ) ^ e) : ℝ) * (2 : ℝ) ^ e - x| ≤ 1 / 2 * (2 : ℝ) ^ e := by
        have : (round (x / (2 : ℝ) ^ e) : ℝ) * (2 : ℝ) ^ e - x =
            -((x / (2 : ℝ) ^ e - round (x / (2 : ℝ) ^ e)) * (2 : ℝ) ^ e) := by field_simp; ring
        rw [this, abs_neg, abs_mul, abs_of_pos pe]
        exact mul_le_mul_of_nonneg_right h1 pe.le
      refine le_trans h2 ?_
      rw [le_div_iff₀ (by positivity)]
      have : 1 / 2 * (2 : ℝ) ^ e * 2 ^ p = (2 : ℝ) ^ (Int.log 2 |x|) := by
        rw [← zpow_natCast, mul_assoc, ← zpow_add₀ two, show e + (p : ℤ) = Int.log 2 |x| + 1 by omega,
          zpow_add_one₀ two]
        ring
      rw [this]
      exact lo x hx

example : Rounds 53 (roundNearest 53) := roundNearest_rounds 53 (by norm_num)
example : Rounds 24 (roundNearest 24) := roundNearest_rounds 24 (by norm_num)
example : mppComputeExtent 18 4 = .ok [(0, 4), (5, 8), (9, 12), (13, 17)] := by rfl

end Verif.FloatExtent
