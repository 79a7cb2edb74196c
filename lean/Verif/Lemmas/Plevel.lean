import Verif.Model.Plevel
import Verif.Spec.Plevel
import Mathlib.Analysis.SpecialFunctions.Log.Deriv
import Mathlib.Tactic.Linarith
import Mathlib.Tactic.Ring
import Mathlib.Tactic.FieldSimp
import Mathlib.Tactic.NormNum
import Mathlib.Tactic.Positivity
import Mathlib.Tactic.ByContra
/-
Lemmas about the model of plevel: columns, position of a level, full level pressures.
-/
namespace Verif.Plevel

open Real Spec.Plev

/-! ### Columns -/

theorem _root_.Verif.Spec.Plev.Column.lt {p : Nat → ℝ} {n : Nat} (h : Column p n) {i j : Nat} (hi : 1 ≤ i)
    (hij : i < j) (hj : j ≤ n) : p i < p j := by
  induction j with
  | zero => omega
  | succ j ih =>
    by_cases e : i = j
    · subst e; exact h.2 i hi (by omega)
    · exact lt_trans (ih (by omega) (by omega)) (h.2 j (by omega) (by omega))

theorem _root_.Verif.Spec.Plev.Column.le {p : Nat → ℝ} {n : Nat} (h : Column p n) {i j : Nat} (hi : 1 ≤ i)
    (hij : i ≤ j) (hj : j ≤ n) : p i ≤ p j := by
  rcases Nat.eq_or_lt_of_le hij with e | e
  · subst e; exact le_refl _
  · exact (h.lt hi e hj).le

theorem _root_.Verif.Spec.Plev.Column.pos {p : Nat → ℝ} {n : Nat} (h : Column p n) {i : Nat} (hi : 1 ≤ i)
    (hn : i ≤ n) : 0 < p i := lt_of_lt_of_le h.1 (h.le (le_refl 1) hi hn)

theorem _root_.Verif.Spec.Plev.Column.mono {p : Nat → ℝ} {n m : Nat} (h : Column p n) (hm : m ≤ n) :
    Column p m := ⟨h.1, fun k h1 h2 => h.2 k h1 (by omega)⟩

theorem not_hasNonPos {p : Nat → ℝ} {n : Nat} (h : Column p n) : ¬ HasNonPos p n := by
  rintro ⟨k, h1, h2, h3⟩
  exact absurd (h.pos h1 h2) (not_lt.mpr h3)

/-! ### The search -/

theorem search_some {lo : ℝ} {lp : Nat → ℝ} {n k r : Nat} (h : search lo lp n k = some r) :
    k ≤ r ∧ r < k + n ∧ lo ≤ lp r ∧ ∀ j, k ≤ j → j < r → lp j < lo := by
  induction n generalizing k with
  | zero => simp [search] at h
  | succ n ih =>
    simp only [search] at h
    by_cases e : lo ≤ lp k
    · rw [if_pos e] at h
      simp only [Option.some.injEq] at h
      subst h
      exact ⟨le_refl _, by omega, e, fun j h1 h2 => by omega⟩
    · rw [if_neg e] at h
      obtain ⟨a, b, c, d⟩ := ih h
      refine ⟨by omega, by omega, c, fun j h1 h2 => ?_⟩
      rcases Nat.eq_or_lt_of_le h1 with e' | e'
      · subst e'; exact not_le.mp e
      · exact d j (by omega) h2

theorem search_none {lo : ℝ} {lp : Nat → ℝ} {n k : Nat} (h : search lo lp n k = none) :
    ∀ j, k ≤ j → j < k + n → lp j < lo := by
  induction n generalizing k with
  | zero => intro j h1 h2; omega
  | succ n ih =>
    simp only [search] at h
    by_cases e : lo ≤ lp k
    · rw [if_pos e] at h; simp at h
    · rw [if_neg e] at h
      intro j h1 h2
      rcases Nat.eq_or_lt_of_le h1 with e' | e'
      · subst e'; exact not_le.mp e
      · exact ih h j (by omega) (by omega)

/-- The factor of a position. -/
noncomputable def factorOf (p : Nat → ℝ) (k : Nat) (pout : ℝ) : ℝ :=
  (log pout - log (p k)) / (log (p (k - 1)) - log (p k))

/-- Full description of the position in an increasing column. -/
theorem slot_spec {p : Nat → ℝ} {kx kbot : Nat} {pout : ℝ} (hp : Column p kx) (h2 : 2 ≤ kbot) (hk : kbot ≤ kx)
    (ho : 0 < pout) :
    ∃ s, slot p kx kbot pout = some s ∧ 2 ≤ s.index ∧ s.index ≤ kbot
      ∧ s.factr = max (-0.5) (min 1.5 (factorOf p s.index pout))
      ∧ (s.mask = true ↔ p kbot < pout)
      ∧ (s.mask = true → s.index = kbot)
      ∧ (s.mask = false → pout ≤ p s.index)
      ∧ (s.index = 2 ∨ p (s.index - 1) < pout) := by
  have hlog : ∀ k, 1 ≤ k → k ≤ kx → (log pout ≤ log (p k) ↔ pout ≤ p k) := fun k h1 h2 =>
    Real.log_le_log_iff ho (hp.pos h1 h2)
  have hlogt : ∀ k, 1 ≤ k → k ≤ kx → (log (p k) < log pout ↔ p k < pout) := fun k h1 h2 =>
    Real.log_lt_log_iff (hp.pos h1 h2) ho
  unfold slot
  rw [if_neg (by rintro (h | h); exacts [not_hasNonPos hp h, absurd ho (not_lt.mpr h)]), if_neg (by omega)]
  cases hs : search (log pout) (fun k => log (p k)) (kbot - 1) 2 with
  | none =>
    have hn := search_none hs
    simp only [hs, Option.getD_none, Option.isNone_none]
    rw [if_neg (by omega)]
    have hb : p kbot < pout := (hlogt kbot (by omega) hk).mp (hn kbot (by omega) (by omega))
    refine ⟨_, rfl, h2, le_refl _, rfl, by simp [hb], fun _ => rfl, fun h => by simp at h, ?_⟩
    right
    exact lt_trans (hp.lt (i := kbot - 1) (j := kbot) (by omega) (by omega) hk) hb
  | some r =>
    obtain ⟨a, b, c, d⟩ := search_some hs
    simp only [hs, Option.getD_some, Option.isNone_some]
    rw [if_neg (by omega)]
    have hr : pout ≤ p r := (hlog r (by omega) (by omega)).mp c
    refine ⟨_, rfl, a, by show r ≤ kbot; omega, rfl, ?_, fun h => by simp at h, fun _ => hr, ?_⟩
    · constructor
      · intro h; simp at h
      · intro h
        exact absurd (lt_of_lt_of_le h hr) (not_lt.mpr (hp.le (by omega) (by omega) (by omega)))
    · show r = 2 ∨ p (r - 1) < pout
      by_cases e : r = 2
      · exact Or.inl e
      · right
        exact (hlogt (r - 1) (by omega) (by omega)).mp (d (r - 1) (by omega) (by omega))

theorem log_gap_pos {p : Nat → ℝ} {n k : Nat} (hp : Column p n) (h2 : 2 ≤ k) (hk : k ≤ n) :
    0 < log (p k) - log (p (k - 1)) :=
  sub_pos.mpr (Real.log_lt_log (hp.pos (by omega) (by omega)) (hp.lt (by omega) (by omega) hk))

/-- `factorOf` as a quotient of positive differences. -/
theorem factorOf_eq {p : Nat → ℝ} (k : Nat) (pout : ℝ) :
    factorOf p k pout = (log (p k) - log pout) / (log (p k) - log (p (k - 1))) := by
  unfold factorOf
  rw [← neg_div_neg_eq]
  congr 1 <;> ring

theorem factorOf_le_one {p : Nat → ℝ} {n k : Nat} {pout : ℝ} (hp : Column p n) (h2 : 2 ≤ k) (hk : k ≤ n)
    (h : p (k - 1) ≤ pout) : factorOf p k pout ≤ 1 := by
  rw [factorOf_eq, div_le_one (log_gap_pos hp h2 hk)]
  have := Real.log_le_log (hp.pos (i := k - 1) (by omega) (by omega)) h
  linarith

theorem factorOf_nonneg {p : Nat → ℝ} {n k : Nat} {pout : ℝ} (hp : Column p n) (h2 : 2 ≤ k) (hk : k ≤ n)
    (ho : 0 < pout) (h : pout ≤ p k) : 0 ≤ factorOf p k pout := by
  rw [factorOf_eq]
  have := Real.log_le_log ho h
  exact div_nonneg (by linarith) (log_gap_pos hp h2 hk).le

theorem clamp_eq {f : ℝ} (h0 : -0.5 ≤ f) (h1 : f ≤ 1.5) : max (-0.5) (min 1.5 f) = f := by
  rw [min_eq_right h1, max_eq_right h0]

/-- An output level within the levels of a column lies between two neighbouring levels and has the factor of
linear interpolation in the logarithm of the pressure. -/
theorem slot_inside {p : Nat → ℝ} {kx kbot : Nat} {pout : ℝ} (hp : Column p kx) (h2 : 2 ≤ kbot) (hk : kbot ≤ kx)
    (hlo : p 1 ≤ pout) (hhi : pout ≤ p kbot) :
    ∃ s, slot p kx kbot pout = some s ∧ 2 ≤ s.index ∧ s.index ≤ kbot ∧ s.mask = false
      ∧ p (s.index - 1) ≤ pout ∧ pout ≤ p s.index ∧ s.factr = factorOf p s.index pout
      ∧ 0 ≤ s.factr ∧ s.factr ≤ 1 := by
  have ho : 0 < pout := lt_of_lt_of_le hp.1 hlo
  obtain ⟨s, hs, a, b, c, d, -, f, g⟩ := slot_spec hp h2 hk ho
  have hm : s.mask = false := by
    cases e : s.mask with
    | false => rfl
    | true => exact absurd (d.mp e) (not_lt.mpr hhi)
  have h1 : p (s.index - 1) ≤ pout := by
    rcases g with g | g
    · rw [g]; exact hlo
    · exact g.le
  have hf := f hm
  have l0 := factorOf_nonneg hp a (by omega) ho hf
  have l1 := factorOf_le_one hp a (by omega) h1
  have hc : s.factr = factorOf p s.index pout := by
    rw [c]; exact clamp_eq (by norm_num; linarith) (by norm_num; linarith)
  exact ⟨s, hs, a, b, hm, h1, hf, hc, hc ▸ l0, hc ▸ l1⟩

/-- The factor times the difference of logarithms. -/
theorem factorOf_mul {p : Nat → ℝ} {n k : Nat} (pout : ℝ) (hp : Column p n) (h2 : 2 ≤ k) (hk : k ≤ n) :
    factorOf p k pout * (log (p (k - 1)) - log (p k)) = log pout - log (p k) := by
  unfold factorOf
  have := log_gap_pos hp h2 hk
  have hne : log (p (k - 1)) - log (p k) ≠ 0 := by intro e; linarith
  exact div_mul_cancel₀ _ hne

/-! ### Full level pressures -/

theorem plogp_eq {ph : Nat → ℝ} {n k : Nat} (hp : HalfColumn ph n) (h1 : 1 ≤ k) (_hk : k ≤ n) :
    plogp ph k = ph k * log (ph k) := by
  unfold plogp
  by_cases e : k = 1
  · subst e
    rw [if_pos rfl]
    by_cases h0 : 0 < ph 1
    · rw [if_pos h0]
    · rw [if_neg h0, le_antisymm (not_lt.mp h0) hp.1, zero_mul]
  · rw [if_neg e]

theorem _root_.Verif.Spec.Plev.HalfColumn.nonneg {p : Nat → ℝ} {n k : Nat} (h : HalfColumn p n) (h1 : 1 ≤ k)
    (hk : k ≤ n) : 0 ≤ p k := by
  induction k with
  | zero => omega
  | succ k ih =>
    by_cases e : k = 0
    · subst e; exact h.1
    · exact le_trans (ih (by omega) (by omega)) (h.2 k (by omega) (by omega)).le

theorem _root_.Verif.Spec.Plev.HalfColumn.pos {p : Nat → ℝ} {n k : Nat} (h : HalfColumn p n) (h1 : 2 ≤ k)
    (hk : k ≤ n) : 0 < p k := by
  obtain ⟨j, rfl⟩ : ∃ j, k = j + 1 := ⟨k - 1, by omega⟩
  exact lt_of_le_of_lt (h.nonneg (k := j) (by omega) (by omega)) (h.2 j (by omega) (by omega))

/-- The mean used by `compute_pres_full` lies strictly between its arguments. -/
theorem identric {a b : ℝ} (ha : 0 ≤ a) (hab : a < b) :
    a < exp ((b * log b - a * log a) / (b - a) - 1) ∧ exp ((b * log b - a * log a) / (b - a) - 1) < b := by
  have hb : 0 < b := lt_of_le_of_lt ha hab
  have hd : 0 < b - a := sub_pos.mpr hab
  by_cases h0 : a = 0
  · subst h0
    refine ⟨exp_pos _, ?_⟩
    have : (b * log b - 0 * log 0) / (b - 0) - 1 = log b - 1 := by
      rw [zero_mul, sub_zero, sub_zero, mul_div_cancel_left₀ _ hb.ne']
    rw [this]
    calc exp (log b - 1) < exp (log b) := exp_lt_exp.mpr (by linarith)
      _ = b := exp_log hb
  · have ha' : 0 < a := lt_of_le_of_ne ha (Ne.symm h0)
    constructor
    · rw [← Real.log_lt_iff_lt_exp ha', lt_sub_iff_add_lt, lt_div_iff₀ hd]
      have h1 := Real.log_lt_sub_one_of_pos (div_pos ha' hb) (by
        intro e; rw [div_eq_one_iff_eq hb.ne'] at e; linarith)
      rw [Real.log_div ha'.ne' hb.ne'] at h1
      have h2 : b * (log a - log b) < b * (a / b - 1) := mul_lt_mul_of_pos_left h1 hb
      have h3 : b * (a / b - 1) = a - b := by field_simp
      rw [h3] at h2
      nlinarith
    · rw [← Real.lt_log_iff_exp_lt hb, sub_lt_iff_lt_add, div_lt_iff₀ hd]
      have h1 := Real.log_lt_sub_one_of_pos (div_pos hb ha') (by
        intro e; rw [div_eq_one_iff_eq ha'.ne'] at e; linarith)
      rw [Real.log_div hb.ne' ha'.ne'] at h1
      have h2 : a * (log b - log a) < a * (b / a - 1) := mul_lt_mul_of_pos_left h1 ha'
      have h3 : a * (b / a - 1) = b - a := by field_simp
      rw [h3] at h2
      nlinarith

theorem fullPressure_eq {ph : Nat → ℝ} {n k : Nat} (hp : HalfColumn ph (n + 1)) (h1 : 1 ≤ k) (hk : k ≤ n) :
    fullPressure ph k
      = exp ((ph (k + 1) * log (ph (k + 1)) - ph k * log (ph k)) / (ph (k + 1) - ph k) - 1) := by
  unfold fullPressure
  rw [plogp_eq hp (k := k + 1) (by omega) (by omega), plogp_eq hp h1 (by omega)]

theorem fullPressure_between {ph : Nat → ℝ} {n k : Nat} (hp : HalfColumn ph (n + 1)) (h1 : 1 ≤ k) (hk : k ≤ n) :
    ph k < fullPressure ph k ∧ fullPressure ph k < ph (k + 1) := by
  rw [fullPressure_eq hp h1 hk]
  exact identric (hp.nonneg h1 (by omega)) (hp.2 k h1 (by omega))

theorem fullPressure_column {ph : Nat → ℝ} {n : Nat} (hp : HalfColumn ph (n + 1)) (hn : 1 ≤ n) :
    Column (fullPressure ph) n :=
  ⟨lt_of_le_of_lt hp.1 (fullPressure_between hp (le_refl 1) hn).1, fun _ h1 hk =>
    lt_trans (fullPressure_between hp h1 (by omega)).2 (fullPressure_between hp (by omega) (by omega)).1⟩

/-! ### Lowest valid level -/

theorem kbotLoop_spec (miss : Nat → Nat → Bool) (ncol c m : Nat) (hc : c < ncol) :
    ∀ (k : Nat) (kb : Nat → Nat), (∀ j, 1 ≤ j → j ≤ k → (miss c j = true ↔ m < j)) →
      (k ≤ m → kb c = m) → kbotLoop miss ncol k kb c = m := by
  intro k
  induction k with
  | zero =>
    intro kb _ h
    exact h (Nat.zero_le _)
  | succ k ih =>
    intro kb hm h
    unfold kbotLoop
    by_cases e : m < k + 1
    · have hmc : miss c (k + 1) = true := (hm (k + 1) (by omega) (le_refl _)).mpr e
      rw [if_pos (by
        simp only [List.any_eq_true, List.mem_range]
        exact ⟨c, hc, hmc⟩)]
      apply ih _ (fun j h1 h2 => hm j h1 (by omega))
      intro hk
      simp only [hmc, if_true]
      omega
    · have hmc : ¬ miss c (k + 1) = true := fun h' => e ((hm (k + 1) (by omega) (le_refl _)).mp h')
      split
      · apply ih _ (fun j h1 h2 => hm j h1 (by omega))
        intro hk
        rw [if_neg hmc]
        exact h (by omega)
      · exact h (by omega)

end Verif.Plevel
