import Verif.Lemmas.PlevelHeight
import Mathlib.Analysis.Complex.ExponentialBounds
/-
C62 to C66: interpolation of a column to pressure levels (plevel).
Specification: `Verif/Spec/Plevel.lean`.
-/
namespace Verif

open Plevel Spec.Plev Real

/-! ### C62: levels -/

/-- C62. Every full level lies strictly between the half levels above and below it. -/
theorem C62_full_between {ph : Nat → ℝ} {nlev k : Nat} (hp : HalfColumn ph (nlev + 1)) (h1 : 1 ≤ k)
    (hk : k ≤ nlev) : ph k < fullPressure ph k ∧ fullPressure ph k < ph (k + 1) :=
  fullPressure_between hp h1 hk

/-- C62. The full levels of a column have positive and increasing pressures. -/
theorem C62_full_increasing {ph : Nat → ℝ} {nlev : Nat} (hp : HalfColumn ph (nlev + 1)) (hn : 1 ≤ nlev) :
    Column (fullPressure ph) nlev := fullPressure_column hp hn

/-- C62. Where the coordinate is a pressure on both sides of a level, the pressure of the level is the same for
every surface pressure. -/
theorem C62_pressure_levels {pk bk : Nat → ℝ} {k : Nat} (h1 : 1 ≤ k) (hb : bk k = 0) (hb' : bk (k + 1) = 0)
    (ht : k ≠ 1 → bk 1 = 0) (ps ps' : ℝ) :
    fullPressure (halfPressure pk bk ps) k = fullPressure (halfPressure pk bk ps') k := by
  have e : ∀ p, halfPressure pk bk p k = pk k := fun p => by simp [halfPressure, hb]
  have e' : ∀ p, halfPressure pk bk p (k + 1) = pk (k + 1) := fun p => by simp [halfPressure, hb']
  have e1 : ∀ p, halfPressure pk bk p 1 = pk 1 := fun p => by
    by_cases h : k = 1
    · subst h; exact e p
    · simp [halfPressure, ht h]
  unfold fullPressure plogp
  simp only [e, e', e1]

/-- C62. Where the coordinate is a fraction of the surface pressure on both sides of a level, so is the pressure of
the level. -/
theorem C62_sigma_levels {pk bk : Nat → ℝ} {k : Nat} (h1 : 1 ≤ k) (hp : pk k = 0) (hp' : pk (k + 1) = 0)
    (hb : 0 ≤ bk k) (hbb : bk k < bk (k + 1)) {ps : ℝ} (hps : 0 < ps) :
    fullPressure (halfPressure pk bk ps) k = ps * fullPressure bk k := by
  have e : halfPressure pk bk ps k = ps * bk k := by simp [halfPressure, hp, mul_comm]
  have e' : halfPressure pk bk ps (k + 1) = ps * bk (k + 1) := by simp [halfPressure, hp', mul_comm]
  have L : ∀ b : ℝ, 0 < b → ps * b * log (ps * b) = ps * (b * log b + b * log ps) := fun b h => by
    rw [Real.log_mul hps.ne' h.ne']; ring
  have hpos : 0 < bk (k + 1) := lt_of_le_of_lt hb hbb
  have q' : plogp (halfPressure pk bk ps) (k + 1) = ps * (plogp bk (k + 1) + bk (k + 1) * log ps) := by
    unfold plogp
    rw [if_neg (by omega), if_neg (by omega), e', L _ hpos]
  have q : plogp (halfPressure pk bk ps) k = ps * (plogp bk k + bk k * log ps) := by
    rcases eq_or_lt_of_le hb with h | h
    · by_cases hk : k = 1
      · subst hk
        simp [plogp, e, ← h]
      · unfold plogp
        rw [if_neg hk, if_neg hk, e, ← h]
        simp
    · unfold plogp
      by_cases hk : k = 1
      · subst hk
        rw [if_pos rfl, if_pos rfl, e, if_pos (mul_pos hps h), if_pos h, L _ h]
      · rw [if_neg hk, if_neg hk, e, L _ h]
  unfold fullPressure
  rw [q, q', e, e']
  have hd : bk (k + 1) - bk k ≠ 0 := (sub_pos.mpr hbb).ne'
  have : (ps * (plogp bk (k + 1) + bk (k + 1) * log ps) - ps * (plogp bk k + bk k * log ps))
      / (ps * bk (k + 1) - ps * bk k) - 1
      = log ps + ((plogp bk (k + 1) - plogp bk k) / (bk (k + 1) - bk k) - 1) := by
    have : ps * bk (k + 1) - ps * bk k ≠ 0 := by rw [← mul_sub]; exact mul_ne_zero hps.ne' hd
    field_simp
    ring
  rw [this, Real.exp_add, Real.exp_log hps]

/-- C62. In a column whose missing values are exactly the levels below level `m`, the lowest valid level is
`m`, whatever the other columns are. -/
theorem C62_kbot {miss : Nat → Nat → Bool} {ncol nlev c m : Nat} (hc : c < ncol) (hm : m ≤ nlev)
    (h : ∀ j, 1 ≤ j → j ≤ nlev → (miss c j = true ↔ m < j)) : kbotOf miss ncol nlev c = m :=
  kbotLoop_spec miss ncol c m hc nlev _ h (fun h' => by omega)

/-- C62, for columns with at least two valid levels. Every output level gets a value.  Missing: columns with
fewer than two valid levels, see `C62_short_wrong`. -/
theorem C62_defined_partial {p : Nat → ℝ} {kx kbot : Nat} {pout : ℝ} (hp : Column p kx) (h2 : 2 ≤ kbot)
    (hk : kbot ≤ kx) (ho : 0 < pout) (me : Bool) (mval : Option ℝ) (d : Nat → ℝ) :
    (fieldOut me mval p kx kbot pout d).isSome = true := by
  obtain ⟨s, hs, -⟩ := slot_spec hp h2 hk ho
  unfold fieldOut
  rw [hs]
  rfl

/-- C62 fails for a column in which all levels, or all but the top one, are missing: the program reads level
0 (or -1) of the column. -/
theorem C62_short_wrong {p : Nat → ℝ} {miss : Nat → Nat → Bool} {ncol nlev c m : Nat} (hc : c < ncol)
    (hm : m ≤ 1) (hn : 1 ≤ nlev) (h : ∀ j, 1 ≤ j → j ≤ nlev → (miss c j = true ↔ m < j)) (pout : ℝ) (me : Bool)
    (mval : Option ℝ) (d : Nat → ℝ) :
    fieldOut me mval p nlev (kbotOf miss ncol nlev c) pout d = none := by
  rw [C62_kbot hc (by omega) h]
  have : slot p nlev m pout = none := by
    unfold slot
    split
    · rfl
    · split
      · rfl
      · have e : m - 1 = 0 := by omega
        simp only [e, search, Option.getD_none]
        rw [if_pos (by omega)]
  unfold fieldOut
  rw [this]
  rfl

/-! ### C63: values of a field on full levels -/

/-- C63. At the pressure of a level the value of that level is written. -/
theorem C63_exact {p : Nat → ℝ} {kx kbot j : Nat} (hp : Column p kx) (h2 : 2 ≤ kbot) (hk : kbot ≤ kx)
    (h1 : 1 ≤ j) (hj : j ≤ kbot) (me : Bool) (mval : Option ℝ) (d : Nat → ℝ) :
    fieldOut me mval p kx kbot (p j) d = some (d j) := by
  obtain ⟨s, hs, hm, hv⟩ : ∃ s, slot p kx kbot (p j) = some s ∧ s.mask = false ∧ interpAt s d = d j := by
    by_cases e : j = 1
    · subst e
      obtain ⟨s, hs, a, b, c, g, -, f, -, -⟩ := slot_inside hp h2 hk (le_refl (p 1)) (hp.le (le_refl 1) hj hk)
      have hi : s.index = 2 := by
        by_contra h
        exact absurd (hp.lt (i := 1) (j := s.index - 1) (le_refl 1) (by omega) (by omega)) (not_lt.mpr g)
      refine ⟨s, hs, c, ?_⟩
      have hf : s.factr = 1 := by
        rw [f, hi, factorOf_eq]
        exact div_self (log_gap_pos hp (le_refl 2) (by omega)).ne'
      unfold interpAt
      rw [hf, hi]
      show d 2 + 1 * (d 1 - d 2) = d 1
      ring
    · obtain ⟨s, hs, a, b, c⟩ := slot_at_level hp h2 hk (by omega : 2 ≤ j) hj
      refine ⟨s, hs, c, ?_⟩
      unfold interpAt
      rw [a, b, zero_mul, add_zero]
  unfold fieldOut
  rw [hs]
  cases mval <;> simp [maskData, hm, hv]

/-- C63. Between the top and the lowest level the value is the linear interpolation in the logarithm of the
pressure between the two neighbouring levels, and lies between their values. -/
theorem C63_between {p : Nat → ℝ} {kx kbot : Nat} {pout : ℝ} (hp : Column p kx) (h2 : 2 ≤ kbot) (hk : kbot ≤ kx)
    (hlo : p 1 ≤ pout) (hhi : pout ≤ p kbot) (me : Bool) (mval : Option ℝ) (d : Nat → ℝ) :
    ∃ k v, 1 ≤ k ∧ k < kbot ∧ p k ≤ pout ∧ pout ≤ p (k + 1)
      ∧ fieldOut me mval p kx kbot pout d = some v
      ∧ v = d k + log (pout / p k) / log (p (k + 1) / p k) * (d (k + 1) - d k)
      ∧ Between (d k) (d (k + 1)) v := by
  have ho : 0 < pout := lt_of_lt_of_le hp.1 hlo
  obtain ⟨s, hs, a, b, c, g, g', f, f0, f1⟩ := slot_inside hp h2 hk hlo hhi
  obtain ⟨k, hk'⟩ : ∃ k, s.index = k + 1 := ⟨s.index - 1, by omega⟩
  have hgap := log_gap_pos hp a (by omega)
  rw [hk'] at g g' f hgap
  rw [Nat.add_sub_cancel] at g hgap
  have hpk := hp.pos (i := k) (by omega) (by omega)
  have hpk' := hp.pos (i := k + 1) (by omega) (by omega)
  refine ⟨k, interpAt s d, by omega, by omega, g, g', ?_, ?_, ?_⟩
  · unfold fieldOut
    rw [hs]
    cases mval <;> simp [maskData, c]
  · unfold interpAt
    rw [hk', f, factorOf_eq, Nat.add_sub_cancel, Real.log_div ho.ne' hpk.ne', Real.log_div hpk'.ne' hpk.ne']
    field_simp
    ring
  · unfold interpAt Between
    rw [hk', Nat.add_sub_cancel]
    generalize s.factr = w at f0 f1
    constructor
    · rcases le_total (d k) (d (k + 1)) with h | h
      · rw [min_eq_left h]; nlinarith
      · rw [min_eq_right h]; nlinarith
    · rcases le_total (d k) (d (k + 1)) with h | h
      · rw [max_eq_right h]; nlinarith
      · rw [max_eq_left h]; nlinarith

/-- C63. A field that is linear in the logarithm of the pressure is reproduced between the top and the lowest
level. -/
theorem C63_loglinear {p : Nat → ℝ} {kx kbot : Nat} {pout : ℝ} (hp : Column p kx) (h2 : 2 ≤ kbot)
    (hk : kbot ≤ kx) (hlo : p 1 ≤ pout) (hhi : pout ≤ p kbot) (me : Bool) (mval : Option ℝ) (a b : ℝ) :
    fieldOut me mval p kx kbot pout (fun k => a + b * log (p k)) = some (a + b * log pout) := by
  obtain ⟨s, hs, i2, ib, c, -, -, f, -, -⟩ := slot_inside hp h2 hk hlo hhi
  have hv : interpAt s (fun k => a + b * log (p k)) = a + b * log pout := by
    unfold interpAt
    have := factorOf_mul pout hp i2 (by omega)
    rw [← f] at this
    linear_combination b * this
  unfold fieldOut
  rw [hs]
  cases mval <;> simp [maskData, c, hv]

/-- C63. A constant field is reproduced at every output level that is not masked. -/
theorem C63_constant {p : Nat → ℝ} {kx kbot : Nat} {pout : ℝ} (hp : Column p kx) (h2 : 2 ≤ kbot)
    (hk : kbot ≤ kx) (ho : 0 < pout) (mval : Option ℝ) (a : ℝ) :
    fieldOut false mval p kx kbot pout (fun _ => a) = some a := by
  obtain ⟨s, hs, -⟩ := slot_spec hp h2 hk ho
  unfold fieldOut
  rw [hs]
  cases mval <;> simp [maskData, interpAt]

/-- C63. Above the top level and below the lowest one the value differs from that of the outermost level by at
most half the difference of the two outermost levels, on the side away from the column. -/
theorem C63_limited {p : Nat → ℝ} {kx kbot : Nat} {pout : ℝ} (hp : Column p kx) (h2 : 2 ≤ kbot)
    (hk : kbot ≤ kx) (ho : 0 < pout) (mval : Option ℝ) (d : Nat → ℝ) :
    (pout < p 1 → ∃ v, fieldOut false mval p kx kbot pout d = some v
        ∧ Between (d 1) (d 1 + (d 1 - d 2) / 2) v)
    ∧ (p kbot < pout → ∃ v, fieldOut false mval p kx kbot pout d = some v
        ∧ Between (d kbot) (d kbot + (d kbot - d (kbot - 1)) / 2) v) := by
  have key : ∀ x y w : ℝ, 0 ≤ w → w ≤ 0.5 → Between x (x + (x - y) / 2) (x + w * (x - y)) := by
    intro x y w h0 h1
    norm_num at h1
    unfold Between
    rcases le_total y x with h | h
    · rw [min_eq_left (by linarith), max_eq_right (by linarith)]
      constructor <;> nlinarith
    · rw [min_eq_right (by linarith), max_eq_left (by linarith)]
      constructor <;> nlinarith
  constructor
  · intro h
    obtain ⟨s, hs, hi, f1, f2, -⟩ := slot_above hp h2 hk ho h
    refine ⟨interpAt s d, ?_, ?_⟩
    · unfold fieldOut; rw [hs]; cases mval <;> simp [maskData]
    · have e : interpAt s d = d 1 + (s.factr - 1) * (d 1 - d 2) := by
        unfold interpAt
        rw [hi]
        show d 2 + s.factr * (d 1 - d 2) = _
        ring
      rw [e]
      norm_num at f2
      exact key _ _ _ (by linarith) (by norm_num; linarith)
  · intro h
    obtain ⟨s, hs, hi, f1, f2, -⟩ := slot_below hp h2 hk h
    refine ⟨interpAt s d, ?_, ?_⟩
    · unfold fieldOut; rw [hs]; cases mval <;> simp [maskData]
    · have e : interpAt s d = d kbot + (-s.factr) * (d kbot - d (kbot - 1)) := by
        unfold interpAt
        rw [hi]
        ring
      rw [e]
      norm_num at f1
      exact key _ _ _ (by linarith) (by norm_num; linarith)

/-- C63. With `mask_extrap` and a missing value, the output is the missing value exactly at pressures greater
than that of the lowest valid level; elsewhere masking changes nothing. -/
theorem C63_masked {p : Nat → ℝ} {kx kbot : Nat} {pout : ℝ} (hp : Column p kx) (h2 : 2 ≤ kbot)
    (hk : kbot ≤ kx) (ho : 0 < pout) (m : ℝ) (d : Nat → ℝ) :
    (p kbot < pout → fieldOut true (some m) p kx kbot pout d = some m)
    ∧ (pout ≤ p kbot → fieldOut true (some m) p kx kbot pout d = fieldOut false none p kx kbot pout d) := by
  obtain ⟨s, hs, -, -, -, hm, -⟩ := slot_spec hp h2 hk ho
  unfold fieldOut
  rw [hs]
  constructor
  · intro h
    simp [maskData, hm.mpr h]
  · intro h
    have : s.mask = false := by
      cases e : s.mask with
      | false => rfl
      | true => exact absurd (hm.mp e) (not_lt.mpr h)
    simp [maskData, this]

/-! ### C64: temperature, humidity and height -/

/-- C64. The heights of the full levels satisfy the hydrostatic equation with the virtual temperature of each
level on its side of the half level between them; the lowest one starts at the surface. -/
theorem C64_hydrostatic {t q pf ph : Nat → ℝ} {missing : Nat → Bool} {nlev : Nat} {zsurf : ℝ}
    (hm : ∀ k, 1 ≤ k → k ≤ nlev → missing k = false) (hn : 1 ≤ nlev) :
    (fullHeight t q pf ph missing nlev zsurf nlev
      = zsurf + rdgas / grav * (virtualTemp rdgas rvgas (t nlev) (q nlev) * (log (ph (nlev + 1)) - log (pf nlev))))
    ∧ ∀ k, 1 ≤ k → k < nlev → fullHeight t q pf ph missing nlev zsurf k
      = fullHeight t q pf ph missing nlev zsurf (k + 1)
        + rdgas / grav * (virtualTemp rdgas rvgas (t k) (q k) * (log (ph (k + 1)) - log (pf k))
          + virtualTemp rdgas rvgas (t (k + 1)) (q (k + 1)) * (log (pf (k + 1)) - log (ph (k + 1)))) := by
  simp only [← virtTemp_eq]
  exact ⟨fullHeight_bottom (hm nlev hn (le_refl _)), fun k h1 hk =>
    fullHeight_diff hk (hm k h1 (by omega)) (hm (k + 1) (by omega) (by omega))⟩

/-- C64. With positive virtual temperatures the heights of the full levels decrease with increasing pressure
and the lowest one is above the surface. -/
theorem C64_heights_decrease {t q ph : Nat → ℝ} {missing : Nat → Bool} {nlev : Nat} {zsurf : ℝ}
    (hp : HalfColumn ph (nlev + 1)) (hn : 1 ≤ nlev)
    (hm : ∀ k, 1 ≤ k → k ≤ nlev → missing k = false)
    (ht : ∀ k, 1 ≤ k → k ≤ nlev → 0 < virtualTemp rdgas rvgas (t k) (q k)) :
    zsurf < fullHeight t q (fullPressure ph) ph missing nlev zsurf nlev
    ∧ ∀ k, 1 ≤ k → k < nlev → fullHeight t q (fullPressure ph) ph missing nlev zsurf (k + 1)
        < fullHeight t q (fullPressure ph) ph missing nlev zsurf k := by
  obtain ⟨a, b⟩ := C64_hydrostatic (t := t) (q := q) (pf := fullPressure ph) (ph := ph) (zsurf := zsurf) hm hn
  have hR : 0 < rdgas / grav := div_pos rdgas_pos grav_pos
  have hcol := fullPressure_column hp hn
  have hl : ∀ k, 1 ≤ k → k ≤ nlev → 0 < log (ph (k + 1)) - log (fullPressure ph k) := fun k h1 hk =>
    sub_pos.mpr (Real.log_lt_log (hcol.pos h1 hk) (fullPressure_between hp h1 hk).2)
  have hl' : ∀ k, 1 ≤ k → k < nlev → 0 < log (fullPressure ph (k + 1)) - log (ph (k + 1)) := fun k h1 hk =>
    sub_pos.mpr (Real.log_lt_log (hp.pos (k := k + 1) (by omega) (by omega))
      (fullPressure_between hp (by omega) (by omega)).1)
  constructor
  · rw [a]
    have := mul_pos hR (mul_pos (ht nlev hn (le_refl _)) (hl nlev hn (le_refl _)))
    linarith
  · intro k h1 hk
    rw [b k h1 hk]
    have := mul_pos hR (add_pos (mul_pos (ht k h1 (by omega)) (hl k h1 (by omega)))
      (mul_pos (ht (k + 1) (by omega) (by omega)) (hl' k h1 hk)))
    linarith

/-- C64. At the pressure of a level from the second on, temperature, specific humidity and height of that level
are written. -/
theorem C64_level {p : Nat → ℝ} {kx kbot k : Nat} (hp : Column p kx) (h2 : 2 ≤ kbot) (hk : kbot ≤ kx)
    (h1 : 2 ≤ k) (hkb : k ≤ kbot) (es : ℝ → ℝ) (me : Bool) (t q z : Nat → ℝ) :
    levelOut es me p t q z kx kbot (p k) = some (t k, q k, z k) := by
  obtain ⟨s, hs, a, b, c⟩ := slot_at_level hp h2 hk h1 hkb
  unfold levelOut
  rw [hs]
  simp [tempOut, sphumOut, heightOut, interpAt, a, b, c]

/-- C64, within one layer. In a dry column with positive temperatures the height decreases strictly with the
pressure between two neighbouring levels.  Missing: pressures in different layers, see
`C64_monotone_wrong`. -/
theorem C64_layer_partial {p : Nat → ℝ} {kx kbot k : Nat} {pa pb : ℝ} (hp : Column p kx) (h2 : 2 ≤ kbot)
    (hk : kbot ≤ kx) (h1 : 1 ≤ k) (hkb : k < kbot) (ha : p k < pa) (hab : pa < pb) (hb : pb ≤ p (k + 1))
    (es : ℝ → ℝ) (me : Bool) (t z : Nat → ℝ) (ht : 0 < t k) (ht' : 0 < t (k + 1)) :
    ∃ ta qa za tb qb zb, levelOut es me p t (fun _ => 0) z kx kbot pa = some (ta, qa, za)
      ∧ levelOut es me p t (fun _ => 0) z kx kbot pb = some (tb, qb, zb) ∧ zb < za := by
  have hpk := hp.pos (i := k) (by omega) (by omega)
  obtain ⟨s, hs, i, f, m⟩ := slot_in_layer hp h2 hk h1 hkb ha (le_trans hab.le hb)
  obtain ⟨s', hs', i', f', m'⟩ := slot_in_layer hp h2 hk h1 hkb (lt_trans ha hab) hb
  refine ⟨_, _, _, _, _, _, by unfold levelOut; rw [hs]; rfl, by unfold levelOut; rw [hs']; rfl, ?_⟩
  simp only [tempOut, sphumOut, m, m', Bool.and_false, Bool.false_eq_true, if_false, heightOut, interpAt, i, i',
    Nat.add_sub_cancel, sub_self, mul_zero, add_zero, virtTemp_zero, f, f', factorOf_eq]
  have hgap := log_gap_pos hp (k := k + 1) (by omega) (by omega)
  rw [Nat.add_sub_cancel] at hgap
  have la := Real.log_lt_log hpk ha
  have lab := Real.log_lt_log (lt_trans hpk ha) hab
  have lb := Real.log_le_log (lt_trans (lt_trans hpk ha) hab) hb
  have hR : 0 < 0.5 * rdgas / grav := div_pos (mul_pos (by norm_num) rdgas_pos) grav_pos
  generalize log (p (k + 1)) = L at *
  generalize log (p k) = l at *
  generalize log pa = x at *
  generalize log pb = y at *
  generalize hD : L - l = D at *
  have hu : (L - y) / D < (L - x) / D := div_lt_div_of_pos_right (by linarith) hgap
  have hu0 : 0 ≤ (L - y) / D := div_nonneg (by linarith) hgap.le
  have hu1 : (L - x) / D ≤ 1 := by rw [div_le_one hgap]; linarith
  have ex : L - x = (L - x) / D * D := (div_mul_cancel₀ _ hgap.ne').symm
  have ey : L - y = (L - y) / D * D := (div_mul_cancel₀ _ hgap.ne').symm
  rw [add_lt_add_iff_right]
  apply mul_lt_mul_of_pos_right _ hR
  generalize hue : (L - x) / D = u at *
  generalize hve : (L - y) / D = v at *
  rw [ex, ey]
  -- v D (2 T + v (S - T)) < u D (2 T + u (S - T)), where T + u (S - T) > 0
  generalize t (k + 1) = T at *
  generalize t k = S at *
  have e : u * D * (T + u * (S - T) + T) - v * D * (T + v * (S - T) + T)
      = D * ((u - v) * ((T * (1 - u) + S * u) + (T * (1 - v) + S * v))) := by ring
  have hpos : 0 < T * (1 - u) + S * u := by
    by_cases h : u = 1
    · rw [h]; linarith
    · have : u < 1 := lt_of_le_of_ne hu1 h
      have h0 : 0 ≤ u := by linarith
      have := mul_pos ht' (by linarith : 0 < 1 - u)
      have := mul_nonneg ht.le h0
      linarith
  have hpos' : 0 < T * (1 - v) + S * v := by
    have := mul_pos ht' (by linarith : 0 < 1 - v)
    have := mul_nonneg ht.le hu0
    linarith
  have := mul_pos hgap (mul_pos (by linarith : 0 < u - v) (add_pos hpos hpos'))
  linarith

/-- C64. In a dry column of constant temperature above a surface at height `zsurf`, the height written for any
pressure between the top and the lowest level is exactly the hydrostatic one. -/
theorem C64_isothermal {ph : Nat → ℝ} {nlev : Nat} {zsurf t0 pout : ℝ} (hp : HalfColumn ph (nlev + 1))
    (hn : 2 ≤ nlev) (hlo : fullPressure ph 1 ≤ pout) (hhi : pout ≤ fullPressure ph nlev) (es : ℝ → ℝ) (me : Bool) :
    levelOut es me (fullPressure ph) (fun _ => t0) (fun _ => 0)
        (fullHeight (fun _ => t0) (fun _ => 0) (fullPressure ph) ph (fun _ => false) nlev zsurf) nlev nlev pout
      = some (t0, 0, zsurf + rdgas * t0 / grav * log (ph (nlev + 1) / pout)) := by
  have hcol := fullPressure_column hp (by omega : 1 ≤ nlev)
  have ho : 0 < pout := lt_of_lt_of_le hcol.1 hlo
  obtain ⟨s, hs, a, b, c, -⟩ := slot_inside hcol hn (le_refl _) hlo hhi
  have hz := fullHeight_isothermal (pf := fullPressure ph) (ph := ph) (missing := fun _ => false) (zsurf := zsurf)
    (t0 := t0) (nlev := nlev) (fun _ _ _ => rfl) (nlev - s.index) (by omega)
  rw [show nlev - (nlev - s.index) = s.index by omega] at hz
  unfold levelOut
  rw [hs]
  have hb : 0 < ph (nlev + 1) := hp.pos (by omega) (le_refl _)
  simp only [Option.map_some, tempOut, sphumOut, c, Bool.and_false, Bool.false_eq_true, if_false, heightOut,
    interpAt, sub_self, mul_zero, add_zero, virtTemp_zero, hz, Real.log_div hb.ne' ho.ne', Option.some.injEq,
    Prod.mk.injEq, true_and]
  have := grav_pos.ne'
  field_simp
  ring

/-- C64. Below the lowest level the temperature is that of an atmosphere with lapse rate 6.5 K/km hanging on
the last but one level: the difference to the temperature there is the lapse rate times the hydrostatic
thickness of the layer between, taken with the mean temperature; the air there is warmer. -/
theorem C64_lapse {p : Nat → ℝ} {kx kbot : Nat} {pout : ℝ} (hp : Column p kx) (h2 : 2 ≤ kbot) (hk : kbot ≤ kx)
    (hb : p kbot < pout) (es : ℝ → ℝ) (t q z : Nat → ℝ) (ht : 0 < t (kbot - 1))
    (hr : rdgas * lapse * log (pout / p (kbot - 1)) < 2 * grav) :
    ∃ tout qout zout, levelOut es false p t q z kx kbot pout = some (tout, qout, zout)
      ∧ tout - t (kbot - 1)
          = lapse * (rdgas / grav * ((tout + t (kbot - 1)) / 2) * log (pout / p (kbot - 1)))
      ∧ t (kbot - 1) < tout := by
  obtain ⟨s, hs, hi, -, -, hm⟩ := slot_below hp h2 hk hb
  have hq := hp.pos (i := kbot - 1) (by omega) (by omega)
  have hlt : p (kbot - 1) < pout := lt_trans (hp.lt (by omega) (by omega : kbot - 1 < kbot) hk) hb
  have ho : 0 < pout := lt_trans hq hlt
  have hl : 0 < log (pout / p (kbot - 1)) := Real.log_pos ((one_lt_div hq).mpr hlt)
  have hg := grav_pos
  have hL := lapse_pos
  have hR := rdgas_pos
  refine ⟨_, _, _, by unfold levelOut; rw [hs]; rfl, ?_⟩
  simp only [tempOut, hm, Bool.not_false, Bool.and_self, if_true, tempExtrap, hi]
  rw [← Real.log_div ho.ne' hq.ne']
  generalize log (pout / p (kbot - 1)) = x at *
  generalize t (kbot - 1) = T at *
  have hden : 0 < 1 / lapse - 0.5 * (rdgas / grav) * x := by
    have e : 1 / lapse - 0.5 * (rdgas / grav) * x = (2 * grav - rdgas * lapse * x) / (2 * grav * lapse) := by
      field_simp
      ring
    rw [e]
    exact div_pos (by linarith) (by positivity)
  generalize hv : T * (1 / lapse + 0.5 * (rdgas / grav) * x) / (1 / lapse - 0.5 * (rdgas / grav) * x) = v
  have hve : v * (1 / lapse - 0.5 * (rdgas / grav) * x) = T * (1 / lapse + 0.5 * (rdgas / grav) * x) := by
    rw [← hv]; exact div_mul_cancel₀ _ hden.ne'
  have hy : 0 < rdgas / grav * x := mul_pos (div_pos hR hg) hl
  have key : v - T = lapse * (rdgas / grav * ((v + T) / 2) * x) := by
    have e1 : (v - T) / lapse = rdgas / grav * ((v + T) / 2) * x := by
      have : (v - T) / lapse = v * (1 / lapse) - T * (1 / lapse) := by ring
      rw [this]
      norm_num at hve ⊢
      linear_combination hve
    rw [← e1]
    field_simp
  refine ⟨key, ?_⟩
  have hvpos : 0 < v := by
    rw [← hv]
    exact div_pos (mul_pos ht (by positivity)) hden
  have : 0 < lapse * (rdgas / grav * ((v + T) / 2) * x) := by positivity
  linarith

/-- C64. Below the lowest level the specific humidity is such that the relative humidity is that of the last
but one level (for vapour pressures of saturation between 0 and the pressure). -/
theorem C64_humidity {p : Nat → ℝ} {kx kbot : Nat} {pout : ℝ} (hp : Column p kx) (h2 : 2 ≤ kbot) (hk : kbot ≤ kx)
    (hb : p kbot < pout) (es : ℝ → ℝ) (t q z : Nat → ℝ)
    (he : ∀ x, 0 < es x) (hes : es (t (kbot - 1)) < p (kbot - 1)) (hq0 : 0 ≤ q (kbot - 1)) (hq1 : q (kbot - 1) < 1) :
    ∃ tout qout zout, levelOut es false p t q z kx kbot pout = some (tout, qout, zout)
      ∧ (es tout < pout →
          relHum (rdgas / rvgas) es qout tout pout
            = relHum (rdgas / rvgas) es (q (kbot - 1)) (t (kbot - 1)) (p (kbot - 1))
          ∧ 0 ≤ qout ∧ qout < 1) := by
  obtain ⟨s, hs, hi, -, -, hm⟩ := slot_below hp h2 hk hb
  refine ⟨_, _, _, by unfold levelOut; rw [hs]; rfl, ?_⟩
  simp only [sphumOut, hm, Bool.not_false, Bool.and_self, if_true, hi]
  generalize tempOut true s t (fun k => log (p k)) (log pout) = T
  intro heT
  have heps : 0 < rdgas / rvgas := div_pos rdgas_pos rvgas_pos
  have hsat : 0 < eToMixrat (es T) pout := by
    unfold eToMixrat
    exact div_pos (mul_pos heps (he T)) (by linarith)
  have hsat' : 0 < eToMixrat (es (t (kbot - 1))) (p (kbot - 1)) := by
    unfold eToMixrat
    exact div_pos (mul_pos heps (he _)) (by linarith)
  unfold rhToSphum rhToMixrat sphumToRh mixratToRh sphumToMixrat mixratToSphum
  unfold relHum
  change _ = _ / eToMixrat (es (t (kbot - 1))) (p (kbot - 1)) ∧ _
  change _ / eToMixrat (es T) pout = _ ∧ _
  generalize eToMixrat (es T) pout = a at *
  generalize eToMixrat (es (t (kbot - 1))) (p (kbot - 1)) = b at *
  generalize q (kbot - 1) = Q at *
  have hr : 0 ≤ a * (Q / (1 - Q) / b) :=
    mul_nonneg hsat.le (div_nonneg (div_nonneg hq0 (by linarith)) hsat'.le)
  generalize hre : a * (Q / (1 - Q) / b) = r at *
  have hrb : Q / (1 - Q) / b = r / a := by rw [← hre, mul_div_cancel_left₀ _ hsat.ne']
  refine ⟨?_, div_nonneg hr (by linarith), ?_⟩
  · rw [hrb]
    congr 1
    have : 1 - r / (1 + r) = 1 / (1 + r) := by field_simp; ring
    rw [this]
    field_simp
  · rw [div_lt_one (by linarith)]
    linarith

/-- Half levels of `C64_monotone_wrong`: 0, 1, 2 and 2.1. -/
noncomputable def plevHalf (k : Nat) : ℝ := if k ≤ 1 then 0 else if k = 2 then 1 else if k = 3 then 2 else 2.1

/-- Temperatures of `C64_monotone_wrong`: 200, 200 and 300. -/
noncomputable def plevTemp (k : Nat) : ℝ := if k = 3 then 300 else 200

theorem plevHalf_column : HalfColumn plevHalf 4 := by
  refine ⟨by simp [plevHalf], fun k h1 hk => ?_⟩
  have : k = 1 ∨ k = 2 ∨ k = 3 := by omega
  rcases this with rfl | rfl | rfl <;> norm_num [plevHalf]

/-- C64 fails across a level: the height written is not monotone in the pressure. The heights of the levels use
the temperature of each level up to the half level between them, those of output levels the mean temperature.
Here the output level with the greater pressure gets the greater height. -/
theorem C64_monotone_wrong (es : ℝ → ℝ) (me : Bool) :
    ∃ (ph t : Nat → ℝ) (pa pb : ℝ), HalfColumn ph 4 ∧ (∀ k, 0 < t k)
      ∧ fullPressure ph 1 ≤ pa ∧ pa < pb ∧ pb ≤ fullPressure ph 3
      ∧ ∃ ta qa za tb qb zb,
        levelOut es me (fullPressure ph) t (fun _ => 0)
          (fullHeight t (fun _ => 0) (fullPressure ph) ph (fun _ => false) 3 0) 3 3 pa = some (ta, qa, za)
        ∧ levelOut es me (fullPressure ph) t (fun _ => 0)
          (fullHeight t (fun _ => 0) (fullPressure ph) ph (fun _ => false) 3 0) 3 3 pb = some (tb, qb, zb)
        ∧ za < zb := by
  have hp := plevHalf_column
  have hcol : Column (fullPressure plevHalf) 3 := fullPressure_column (n := 3) hp (by omega)
  -- logarithms of the full levels
  have e2 : log (fullPressure plevHalf 2) = 2 * log 2 - 1 := by
    rw [fullPressure_eq (n := 3) hp (by omega) (by omega), Real.log_exp]
    norm_num [plevHalf]
  have b3 := fullPressure_between (n := 3) hp (k := 3) (by omega) (by omega)
  have h3 : plevHalf 3 = 2 := by norm_num [plevHalf]
  have h4 : plevHalf 4 = 2.1 := by norm_num [plevHalf]
  rw [h3, h4] at b3
  have hlow : log 2 < log (fullPressure plevHalf 3) := Real.log_lt_log (by norm_num) b3.1
  have hup : log (fullPressure plevHalf 3) < log 2 + 0.05 := by
    have h1 : log (fullPressure plevHalf 3) < log 2.1 := Real.log_lt_log (lt_trans (by norm_num) b3.1) b3.2
    have h2 : log (2.1 / 2) ≤ 2.1 / 2 - 1 := Real.log_le_sub_one_of_pos (by norm_num)
    rw [Real.log_div (by norm_num) (by norm_num)] at h2
    norm_num at h1 h2 ⊢
    linarith
  have hl2 := Real.log_two_lt_d9
  have hpos2 := hcol.pos (i := 2) (by omega) (by omega)
  have hpos3 := hcol.pos (i := 3) (by omega) (by omega)
  have hlt : log (fullPressure plevHalf 2) < log (fullPressure plevHalf 3) :=
    Real.log_lt_log hpos2 (hcol.lt (by omega) (by omega : 2 < 3) (by omega))
  generalize hlo : log (fullPressure plevHalf 2)
    + 0.1 * (log (fullPressure plevHalf 3) - log (fullPressure plevHalf 2)) = lo
  have hpa : fullPressure plevHalf 2 < exp lo := by
    rw [← Real.log_lt_iff_lt_exp hpos2, ← hlo]
    norm_num
    linarith
  have hpb : exp lo ≤ fullPressure plevHalf 3 := by
    rw [← Real.le_log_iff_exp_le hpos3, ← hlo]
    norm_num
    linarith
  obtain ⟨s, hs, i, f, m⟩ := slot_in_layer hcol (by omega : 2 ≤ 3) (le_refl 3) (by omega : 1 ≤ 2) (by omega)
    hpa hpb
  have hz : fullHeight plevTemp (fun _ => 0) (fullPressure plevHalf) plevHalf (fun _ => false) 3 0 2
      = _ := fullHeight_diff (by omega : 2 < 3) rfl rfl
  refine ⟨plevHalf, plevTemp, fullPressure plevHalf 2, exp lo, hp, ?_,
    hcol.le (le_refl 1) (by omega) (by omega), hpa, hpb, _, _, _, _, _, _,
    C64_level hcol (by omega) (le_refl 3) (le_refl 2) (by omega) es me _ _ _,
    by unfold levelOut; rw [hs]; rfl, ?_⟩
  · intro k; unfold plevTemp; split <;> norm_num
  · rw [hz]
    have ht2 : plevTemp 2 = 200 := by norm_num [plevTemp]
    have ht3 : plevTemp 3 = 300 := by norm_num [plevTemp]
    simp only [tempOut, sphumOut, m, Bool.and_false, Bool.false_eq_true, if_false, heightOut, interpAt, i,
      sub_self, mul_zero, add_zero, virtTemp_zero, f, factorOf_eq, Real.log_exp]
    simp only [show 2 + 1 = 3 from rfl, show 3 - 1 = 2 from rfl, ht2, ht3, h3, e2] at *
    have hR : 0 < rdgas / grav := div_pos rdgas_pos grav_pos
    generalize log (fullPressure plevHalf 3) = y at *
    have hfac : (y - lo) / (y - (2 * log 2 - 1)) = 0.9 := by
      rw [div_eq_iff (by intro h; linarith), ← hlo]
      ring
    rw [hfac]
    have hyl : y - lo = 0.9 * (y - (2 * log 2 - 1)) := by rw [← hlo]; ring
    rw [hyl]
    rw [add_comm]
    apply add_lt_add_left
    have e : 0.9 * (y - (2 * log 2 - 1)) * (300 + 0.9 * (200 - 300) + 300) * (0.5 * rdgas / grav)
        = rdgas / grav * (229.5 * (y - (2 * log 2 - 1))) := by ring
    rw [e]
    apply mul_lt_mul_of_pos_left _ hR
    norm_num at hl2 hup ⊢
    linarith

/-! ### C65: sea level pressure -/

/-- C65. Where the surface is at height 0 (up to a tenth of a millimetre) the sea level pressure is the surface
pressure, in millibars. -/
theorem C65_flat {pf ph t : Nat → ℝ} {kb : Nat} {zsurf : ℝ} (hz : |zsurf| ≤ 0.0001) :
    seaLevelPressure pf ph t kb zsurf = some (ph (kb + 1) / 100) := by
  unfold seaLevelPressure
  rw [if_neg (not_lt.mpr hz)]
  norm_num
  ring

theorem sigmaLevel_some {pf : Nat → ℝ} {pbot : ℝ} {n k : Nat} (h : ∃ j, k ≤ j ∧ j < k + n ∧ 0.8 < pf j / pbot) :
    ∃ r, sigmaLevel pf pbot n k = some r ∧ k ≤ r ∧ r < k + n ∧ 0.8 < pf r / pbot := by
  induction n generalizing k with
  | zero => obtain ⟨j, a, b, -⟩ := h; omega
  | succ n ih =>
    simp only [sigmaLevel]
    by_cases e : 0.8 < pf k / pbot
    · rw [if_pos e]; exact ⟨k, rfl, le_refl _, by omega, e⟩
    · rw [if_neg e]
      obtain ⟨j, a, b, c⟩ := h
      have : k ≠ j := by rintro rfl; exact e c
      obtain ⟨r, x, y, z, w⟩ := ih (k := k + 1) ⟨j, by omega, by omega, c⟩
      exact ⟨r, x, by omega, by omega, w⟩

/-- C65, for columns with a level above 0.8 of the surface pressure. In an atmosphere of constant lapse rate
6.5 K/km, with the temperatures of the levels and the height of the surface taken from it, the sea level pressure
written is that atmosphere's pressure at height 0, above and below sea level.  Missing: columns without such
a level, see `C65_wrong`. -/
theorem C65_lapse_partial {pf ph t : Nat → ℝ} {kb : Nat} {t0 p0 : ℝ} (ht0 : 0 < t0) (hp0 : 0 < p0)
    (hpf : ∀ k, 1 ≤ k → k ≤ kb → 0 < pf k) (hbot : 0 < ph (kb + 1))
    (hlev : ∃ k, 1 ≤ k ∧ k ≤ kb ∧ 0.8 < pf k / ph (kb + 1))
    (ht : ∀ k, 1 ≤ k → k ≤ kb → t k = lapseTemp t0 p0 (rdgas * lapse / grav) (pf k))
    (hz : 0.0001 < |lapseHeight t0 p0 (rdgas * lapse / grav) lapse (ph (kb + 1))|) :
    seaLevelPressure pf ph t kb (lapseHeight t0 p0 (rdgas * lapse / grav) lapse (ph (kb + 1)))
      = some (p0 / 100) := by
  have hkap : 0 < rdgas * lapse / grav := div_pos (mul_pos rdgas_pos lapse_pos) grav_pos
  have hm : mrgog = -(rdgas * lapse / grav) := by
    unfold mrgog gorg
    have := grav_pos.ne'
    have := rdgas_pos.ne'
    have := lapse_pos.ne'
    field_simp
  have hg : gorg = (rdgas * lapse / grav)⁻¹ := by unfold gorg; rw [inv_div]
  unfold seaLevelPressure
  rw [if_pos hz]
  obtain ⟨j, j1, j2, j3⟩ := hlev
  obtain ⟨r, hr, r1, r2, -⟩ := sigmaLevel_some (pf := pf) (pbot := ph (kb + 1)) (n := kb) (k := 1)
    ⟨j, j1, by omega, j3⟩
  simp only [hr, Option.some.injEq]
  rw [ht r r1 (by omega), hm, hg]
  have hL := lapse_pos.ne'
  have hpr := hpf r r1 (by omega)
  generalize rdgas * lapse / grav = kap at *
  unfold lapseHeight lapseTemp
  generalize ph (kb + 1) = pb at *
  generalize pf r = pr at *
  have e1 : (pr / p0) ^ kap * (pr / pb) ^ (-kap) = (pb / p0) ^ kap := by
    rw [Real.rpow_neg (div_pos hpr hbot).le, ← Real.inv_rpow (div_pos hpr hbot).le,
      ← Real.mul_rpow (div_pos hpr hp0).le (inv_nonneg.mpr (div_pos hpr hbot).le), inv_div]
    congr 1
    field_simp
  rw [mul_assoc t0, e1]
  have hx : 0 < (pb / p0) ^ kap := Real.rpow_pos_of_pos (div_pos hbot hp0) _
  have e2 : 1 + lapse * ((t0 - t0 * (pb / p0) ^ kap) / lapse) / (t0 * (pb / p0) ^ kap) = ((pb / p0) ^ kap)⁻¹ := by
    generalize (pb / p0) ^ kap = x at *
    field_simp
    ring
  rw [e2, ← Real.inv_rpow (div_pos hbot hp0).le, ← Real.rpow_mul (inv_nonneg.mpr (div_pos hbot hp0).le),
    mul_inv_cancel₀ hkap.ne', Real.rpow_one, inv_div]
  norm_num
  field_simp

/-- C65. A level above 0.8 of the surface pressure exists when the lowest layer is not thicker than a fifth of
the surface pressure. -/
theorem C65_found {ph : Nat → ℝ} {kb : Nat} (hp : HalfColumn ph (kb + 1)) (hk : 1 ≤ kb)
    (h : 0.8 * ph (kb + 1) ≤ ph kb) : ∃ k, 1 ≤ k ∧ k ≤ kb ∧ 0.8 < fullPressure ph k / ph (kb + 1) :=
  ⟨kb, hk, le_refl _, by
    rw [lt_div_iff₀ (hp.pos (by omega) (le_refl _))]
    exact lt_of_le_of_lt h (fullPressure_between hp hk (le_refl _)).1⟩

/-- C65 fails for a column of one layer from pressure 0 to the surface: no level lies above 0.8 of the surface
pressure and the reference level keeps the value of another column, or none. -/
theorem C65_wrong (t : Nat → ℝ) {ps zsurf : ℝ} (hps : 0 < ps) (hz : 0.0001 < |zsurf|) :
    seaLevelPressure (fullPressure (fun k => if k ≤ 1 then 0 else ps)) (fun k => if k ≤ 1 then 0 else ps) t 1
      zsurf = none := by
  have hp : HalfColumn (fun k => if k ≤ 1 then 0 else ps) (1 + 1) := by
    refine ⟨by simp, fun k h1 hk => ?_⟩
    have : k = 1 := by omega
    subst this
    simpa using hps
  have hf := fullPressure_eq (n := 1) hp (k := 1) (le_refl 1) (le_refl 1)
  unfold seaLevelPressure
  rw [if_pos hz]
  have : ¬ (0.8 < fullPressure (fun k => if k ≤ 1 then 0 else ps) 1 / ps) := by
    rw [hf]
    have e : (ps * log ps - 0 * log 0) / (ps - 0) - 1 = log ps - 1 := by
      rw [zero_mul, sub_zero, sub_zero, mul_div_cancel_left₀ _ hps.ne']
    simp only [show ¬ (1 + 1 ≤ 1) by omega, if_false, le_refl, if_true]
    rw [e, Real.exp_sub, Real.exp_log hps, div_div, mul_comm, ← div_div, div_self hps.ne', one_div, not_lt]
    rw [inv_le_comm₀ (Real.exp_pos 1) (by norm_num)]
    have := Real.exp_one_gt_d9
    norm_num at this ⊢
    linarith
  simp only [sigmaLevel, show ¬ (1 + 1 ≤ 1) by omega, if_false]
  rw [if_neg this]

/-! ### C66: fields on half levels -/

/-- C66, down to half level `kbot`. At the pressure of a half level the value of that level is written, for the
half levels 1 to `kbot`.  Missing: the half level `kbot + 1` below the lowest valid full level (the surface when
no level is missing), see `C66_half_wrong`. -/
theorem C66_half_partial {ph : Nat → ℝ} {nlev kbot j : Nat} (hp : Column ph (nlev + 1)) (h2 : 2 ≤ kbot)
    (hk : kbot ≤ nlev) (h1 : 1 ≤ j) (hj : j ≤ kbot) (me : Bool) (mval : Option ℝ) (d : Nat → ℝ) :
    halfFieldOut me mval ph nlev kbot (ph j) d = some (d j) :=
  C63_exact hp h2 (by omega) h1 hj me mval d

/-- C66 fails between half level `kbot` and the one below it, which bounds the lowest valid full level: such
pressures count as below the column. With `mask_extrap` the missing value is written; without, the value
does not depend on the value of the half level below. -/
theorem C66_half_wrong {ph : Nat → ℝ} {nlev kbot : Nat} {pout : ℝ} (hp : Column ph (nlev + 1)) (h2 : 2 ≤ kbot)
    (hk : kbot ≤ nlev) (ha : ph kbot < pout) (_hb : pout ≤ ph (kbot + 1)) :
    (∀ m d, halfFieldOut true (some m) ph nlev kbot pout d = some m)
    ∧ ∀ (mval : Option ℝ) (d : Nat → ℝ) (x : ℝ),
        halfFieldOut false mval ph nlev kbot pout (fun k => if k = kbot + 1 then x else d k)
          = halfFieldOut false mval ph nlev kbot pout d := by
  obtain ⟨s, hs, hi, -, -, hm⟩ := slot_below hp h2 (by omega) ha
  unfold halfFieldOut fieldOut
  rw [hs]
  constructor
  · intro m d
    simp [maskData, hm]
  · intro mval d x
    have : interpAt s (fun k => if k = kbot + 1 then x else d k) = interpAt s d := by
      unfold interpAt
      simp only [hi]
      rw [if_neg (by omega), if_neg (by omega)]
    cases mval <;> simp [maskData, this]

/-! ### Examples: cases meeting the hypotheses -/

theorem plevLin_column (n : Nat) : Column (fun k => (k : ℝ)) n :=
  ⟨by norm_num, fun k _ _ => by show (k : ℝ) < ((k + 1 : ℕ) : ℝ); push_cast; linarith⟩

-- C62: half levels 0, 1, 2, 2.1.
example : plevHalf 3 < fullPressure plevHalf 3 ∧ fullPressure plevHalf 3 < plevHalf 4 :=
  C62_full_between (nlev := 3) plevHalf_column (by omega) (by omega)
example : Column (fullPressure plevHalf) 3 := C62_full_increasing plevHalf_column (by omega)
-- C62: half levels 100, 200 Pa and, further down, one half and all of the surface pressure.
example := C62_pressure_levels (pk := fun k => if k ≤ 2 then 100 * k else 0) (bk := fun k => if k ≤ 2 then 0 else k / 4)
  (k := 1) (by omega) (by simp) (by simp) (fun h => absurd rfl h) 100000 90000
example : fullPressure (halfPressure (fun k => if k ≤ 2 then 100 * k else 0) (fun k => if k ≤ 2 then 0 else k / 4) 90000)
    3 = 90000 * fullPressure (fun k => if k ≤ 2 then 0 else k / 4) 3 :=
  C62_sigma_levels (by omega) (by norm_num) (by norm_num) (by norm_num) (by norm_num) (by norm_num)
-- C62: two columns of four levels, the first without level 4, the second without levels 3 and 4.
example : kbotOf (fun c j => decide (3 - c < j)) 2 4 1 = 2 :=
  C62_kbot (by omega) (by omega) (fun j _ _ => by simp)
example : (fieldOut true (some (-999)) (fun k => (k : ℝ)) 4 2 3.5 (fun _ => 1)).isSome = true :=
  C62_defined_partial (plevLin_column 4) (by omega) (by omega) (by norm_num) _ _ _
-- C62: the column next to a complete one is missing altogether.
example : fieldOut true (some (-999)) (fun k => (k : ℝ)) 4 (kbotOf (fun c _ => decide (c = 0)) 2 4 0) 3.5
    (fun _ => 1) = none :=
  C62_short_wrong (m := 0) (by omega) (by omega) (by omega) (fun j h1 _ => by simp; omega) _ _ _ _
-- C63: levels 1, 2, 3.
example (d : Nat → ℝ) : fieldOut true (some (-999)) (fun k => (k : ℝ)) 3 3 ((2 : ℕ) : ℝ) d = some (d 2) :=
  C63_exact (p := fun k => (k : ℝ)) (plevLin_column 3) (by omega) (by omega) (by omega) (by omega) _ _ _
example (d : Nat → ℝ) := C63_between (pout := 1.5) (plevLin_column 3) (le_refl 3 |>.trans' (by omega) : 2 ≤ 3)
  (le_refl 3) (by norm_num) (by norm_num) true (some (-999)) d
example := C63_loglinear (pout := 1.5) (plevLin_column 3) (by omega : 2 ≤ 3) (le_refl 3) (by norm_num)
  (by norm_num) false none 1 2
example := C63_constant (pout := 0.5) (plevLin_column 3) (by omega : 2 ≤ 3) (le_refl 3) (by norm_num) none 7
example (d : Nat → ℝ) : ∃ v, fieldOut false none (fun k => (k : ℝ)) 3 3 4 d = some v
    ∧ Between (d 3) (d 3 + (d 3 - d 2) / 2) v :=
  (C63_limited (plevLin_column 3) (by omega) (le_refl 3) (by norm_num) none d).2 (by norm_num)
example (d : Nat → ℝ) : fieldOut true (some (-999)) (fun k => (k : ℝ)) 3 3 4 d = some (-999) :=
  (C63_masked (plevLin_column 3) (by omega) (le_refl 3) (by norm_num) (-999) d).1 (by norm_num)
-- C64: the column of `C64_monotone_wrong`.
example := C64_hydrostatic (t := plevTemp) (q := fun _ => 0.01) (pf := fullPressure plevHalf) (ph := plevHalf)
  (missing := fun _ => false) (nlev := 3) (zsurf := 100) (fun _ _ _ => rfl) (by omega)
example := C64_heights_decrease (t := plevTemp) (q := fun _ => 0) (missing := fun _ => false) (nlev := 3)
  (zsurf := 100) plevHalf_column (by omega) (fun _ _ _ => rfl)
  (fun k _ _ => by rw [← virtTemp_eq, virtTemp_zero]; unfold plevTemp; split <;> norm_num)
example (es : ℝ → ℝ) (t q z : Nat → ℝ) :
    levelOut es true (fun k => (k : ℝ)) t q z 3 3 ((2 : ℕ) : ℝ) = some (t 2, q 2, z 2) :=
  C64_level (p := fun k => (k : ℝ)) (plevLin_column 3) (by omega) (le_refl 3) (by omega) (by omega) es true t q z
example (es : ℝ → ℝ) (z : Nat → ℝ) := C64_layer_partial (k := 2) (pa := 2.2) (pb := 2.8) (plevLin_column 3)
  (by omega : 2 ≤ 3) (le_refl 3) (by omega) (by omega) (by norm_num) (by norm_num) (by norm_num) es false
  (fun _ => 250) z (by norm_num) (by norm_num)
example (es : ℝ → ℝ) := C64_isothermal (nlev := 3) (zsurf := 100) (t0 := 250)
  (pout := fullPressure plevHalf 2) plevHalf_column (by omega)
  ((fullPressure_column plevHalf_column (by omega)).le (le_refl 1) (by omega) (by omega))
  ((fullPressure_column (n := 3) plevHalf_column (by omega)).le (by omega) (by omega) (le_refl 3)) es true
example (es : ℝ → ℝ) (q z : Nat → ℝ) := C64_lapse (pout := 4) (plevLin_column 3) (by omega : 2 ≤ 3) (le_refl 3)
  (by norm_num) es (fun _ => 250) q z (by norm_num) (by
    have h : log (4 / ((3 - 1 : ℕ) : ℝ)) ≤ 4 / ((3 - 1 : ℕ) : ℝ) - 1 := Real.log_le_sub_one_of_pos (by norm_num)
    have h2 : rdgas * lapse * log (4 / ((3 - 1 : ℕ) : ℝ)) ≤ rdgas * lapse * (4 / ((3 - 1 : ℕ) : ℝ) - 1) :=
      mul_le_mul_of_nonneg_left h (mul_pos rdgas_pos lapse_pos).le
    refine lt_of_le_of_lt h2 ?_
    norm_num [rdgas, lapse, grav])
example (z : Nat → ℝ) := C64_humidity (pout := 4) (plevLin_column 3) (by omega : 2 ≤ 3) (le_refl 3)
  (by norm_num) (fun _ => 0.5) (fun _ => 250) (fun _ => 0.01) z (fun _ => by norm_num) (by norm_num) (by norm_num)
  (by norm_num)
-- C65: a surface below sea level, where the temperature is twice that at height 0.
example : seaLevelPressure (fun _ => 0.9 * (2 : ℝ) ^ (rdgas * lapse / grav)⁻¹)
    (fun _ => (2 : ℝ) ^ (rdgas * lapse / grav)⁻¹)
    (fun _ => lapseTemp 300 1 (rdgas * lapse / grav) (0.9 * (2 : ℝ) ^ (rdgas * lapse / grav)⁻¹)) 1
    (lapseHeight 300 1 (rdgas * lapse / grav) lapse ((2 : ℝ) ^ (rdgas * lapse / grav)⁻¹)) = some (1 / 100) := by
  have h2 : 0 < (2 : ℝ) ^ (rdgas * lapse / grav)⁻¹ := Real.rpow_pos_of_pos (by norm_num) _
  refine C65_lapse_partial (kb := 1) (by norm_num) (by norm_num) (fun _ _ _ => by positivity) h2
    ⟨1, le_refl _, le_refl _, by rw [mul_div_assoc, div_self h2.ne']; norm_num⟩ (fun _ _ _ => rfl) ?_
  unfold lapseHeight lapseTemp
  rw [div_one, ← Real.rpow_mul (by norm_num), inv_mul_cancel₀
    (div_pos (mul_pos rdgas_pos lapse_pos) grav_pos).ne', Real.rpow_one]
  norm_num [lapse]
example : ∃ k, 1 ≤ k ∧ k ≤ 3 ∧ 0.8 < fullPressure plevHalf k / plevHalf 4 :=
  C65_found plevHalf_column (by omega) (by norm_num [plevHalf])
-- C66: half levels 1, 2, 3, 4.
example (d : Nat → ℝ) : halfFieldOut true (some (-999)) (fun k => (k : ℝ)) 3 3 3.5 d = some (-999) :=
  (C66_half_wrong (nlev := 3) (kbot := 3) (plevLin_column 4) (by omega) (by omega) (by norm_num)
    (by norm_num)).1 _ _
example (d : Nat → ℝ) : halfFieldOut true (some (-999)) (fun k => (k : ℝ)) 3 3 ((3 : ℕ) : ℝ) d = some (d 3) :=
  C66_half_partial (ph := fun k => (k : ℝ)) (plevLin_column 4) (by omega) (by omega) (by omega) (by omega) _ _ _

end Verif
