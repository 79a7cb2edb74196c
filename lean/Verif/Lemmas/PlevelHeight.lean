import Verif.Lemmas.Plevel
/-
Lemmas about the heights, temperatures and humidities of plevel.
-/
namespace Verif.Plevel

open Real Spec.Plev

theorem grav_pos : 0 < grav := by unfold grav; norm_num
theorem rdgas_pos : 0 < rdgas := by unfold rdgas; norm_num
theorem rvgas_pos : 0 < rvgas := by unfold rvgas; norm_num
theorem lapse_pos : 0 < lapse := by unfold lapse; norm_num

theorem virtTemp_eq (t q : ℝ) : virtTemp t q = Spec.Plev.virtualTemp rdgas rvgas t q := by
  unfold virtTemp Spec.Plev.virtualTemp virtc
  have : rdgas ≠ 0 := rdgas_pos.ne'
  field_simp
  ring

theorem virtTemp_zero (t : ℝ) : virtTemp t 0 = t := by unfold virtTemp; ring

/-- Height of the bottom level. -/
theorem fullHeight_bottom {t q pf ph : Nat → ℝ} {missing : Nat → Bool} {nlev : Nat} {zsurf : ℝ}
    (hm : missing nlev = false) :
    fullHeight t q pf ph missing nlev zsurf nlev
      = zsurf + rdgas / grav * (virtTemp (t nlev) (q nlev) * (log (ph (nlev + 1)) - log (pf nlev))) := by
  have := grav_pos.ne'
  unfold fullHeight
  rw [Nat.sub_self]
  simp only [heightStep, hm, heightBelow, Bool.false_eq_true, if_false]
  field_simp

/-- Difference of the heights of neighbouring levels. -/
theorem fullHeight_diff {t q pf ph : Nat → ℝ} {missing : Nat → Bool} {nlev : Nat} {zsurf : ℝ} {k : Nat}
    (hk : k < nlev) (hm : missing k = false) (hm' : missing (k + 1) = false) :
    fullHeight t q pf ph missing nlev zsurf k
      = fullHeight t q pf ph missing nlev zsurf (k + 1)
        + rdgas / grav * (virtTemp (t k) (q k) * (log (ph (k + 1)) - log (pf k))
          + virtTemp (t (k + 1)) (q (k + 1)) * (log (pf (k + 1)) - log (ph (k + 1)))) := by
  have := grav_pos.ne'
  unfold fullHeight
  have e : nlev - k = (nlev - (k + 1)) + 1 := by omega
  have e' : nlev - (nlev - (k + 1)) = k + 1 := by omega
  rw [e]
  simp only [heightBelow, e']
  generalize heightBelow t q pf ph missing nlev zsurf (nlev - (k + 1)) = zb
  simp only [heightStep, hm, hm', Bool.false_eq_true, if_false]
  field_simp
  ring

/-- Heights in a dry column of constant temperature. -/
theorem fullHeight_isothermal {pf ph : Nat → ℝ} {missing : Nat → Bool} {nlev : Nat} {zsurf t0 : ℝ}
    (hm : ∀ k, 1 ≤ k → k ≤ nlev → missing k = false) (n : Nat) (hn : n + 1 ≤ nlev) :
    fullHeight (fun _ => t0) (fun _ => 0) pf ph missing nlev zsurf (nlev - n)
      = zsurf + rdgas / grav * t0 * (log (ph (nlev + 1)) - log (pf (nlev - n))) := by
  induction n with
  | zero =>
    rw [Nat.sub_zero, fullHeight_bottom (hm nlev (by omega) (le_refl _)), virtTemp_zero]
    ring
  | succ n ih =>
    have e : nlev - n = nlev - (n + 1) + 1 := by omega
    rw [fullHeight_diff (by omega) (hm _ (by omega) (by omega)) (hm _ (by omega) (by omega)), ← e,
      ih (by omega), virtTemp_zero]
    ring

/-- Everything `levelOut` gives at a level of the column. -/
theorem slot_at_level {p : Nat → ℝ} {kx kbot k : Nat} (hp : Column p kx) (h2 : 2 ≤ kbot) (hk : kbot ≤ kx)
    (h1 : 2 ≤ k) (hkb : k ≤ kbot) :
    ∃ s, slot p kx kbot (p k) = some s ∧ s.index = k ∧ s.factr = 0 ∧ s.mask = false := by
  obtain ⟨s, hs, a, b, c, d, e, f, -, -⟩ := slot_inside hp h2 hk (hp.le (le_refl 1) (by omega) (by omega) :
    p 1 ≤ p k) (hp.le (by omega) hkb hk)
  have hi : s.index = k := by
    rcases Nat.lt_trichotomy s.index k with h | h | h
    · exact absurd (hp.lt (by omega) h (by omega)) (not_lt.mpr e)
    · exact h
    · by_cases g : s.index - 1 = k
      · exfalso
        obtain ⟨s', hs', a', b', c', d', e', f', g'⟩ := slot_spec hp h2 hk (hp.pos (i := k) (by omega) (by omega))
        rw [hs] at hs'
        simp only [Option.some.injEq] at hs'
        subst hs'
        rcases g' with g' | g'
        · omega
        · rw [g] at g'; exact absurd g' (lt_irrefl _)
      · exact absurd (hp.lt (i := k) (j := s.index - 1) (by omega) (by omega) (by omega)) (not_lt.mpr d)
  refine ⟨s, hs, hi, ?_, c⟩
  rw [f, hi]
  unfold factorOf
  rw [sub_self, zero_div]

/-- In a layer of the column. -/
theorem slot_in_layer {p : Nat → ℝ} {kx kbot k : Nat} {pout : ℝ} (hp : Column p kx) (h2 : 2 ≤ kbot)
    (hk : kbot ≤ kx) (h1 : 1 ≤ k) (hkb : k < kbot) (ha : p k < pout) (hb : pout ≤ p (k + 1)) :
    ∃ s, slot p kx kbot pout = some s ∧ s.index = k + 1 ∧ s.factr = factorOf p (k + 1) pout
      ∧ s.mask = false := by
  obtain ⟨s, hs, a, b, c, d, e, f, -, -⟩ := slot_inside hp h2 hk (le_trans (hp.le (le_refl 1) h1 (by omega)) ha.le)
    (le_trans hb (hp.le (by omega) (by omega : k + 1 ≤ kbot) hk))
  have hi : s.index = k + 1 := by
    rcases Nat.lt_trichotomy s.index (k + 1) with h | h | h
    · exact absurd (lt_of_le_of_lt (hp.le (by omega) (by omega : s.index ≤ k) (by omega)) ha) (not_lt.mpr e)
    · exact h
    · by_cases g : s.index - 1 = k + 1
      · obtain ⟨s', hs', a', b', c', d', e', f', g'⟩ := slot_spec hp h2 hk
          (lt_trans (hp.pos (i := k) (by omega) (by omega)) ha)
        rw [hs] at hs'
        simp only [Option.some.injEq] at hs'
        subst hs'
        rcases g' with g' | g'
        · omega
        · rw [g] at g'; exact absurd g' (not_lt.mpr hb)
      · exact absurd (lt_of_le_of_lt hb (hp.lt (i := k + 1) (j := s.index - 1) (by omega) (by omega) (by omega)))
          (not_lt.mpr d)
  exact ⟨s, hs, hi, by rw [f, hi], c⟩

/-- Below the lowest level. -/
theorem slot_below {p : Nat → ℝ} {kx kbot : Nat} {pout : ℝ} (hp : Column p kx) (h2 : 2 ≤ kbot)
    (hk : kbot ≤ kx) (hb : p kbot < pout) :
    ∃ s, slot p kx kbot pout = some s ∧ s.index = kbot ∧ -0.5 ≤ s.factr ∧ s.factr ≤ 0 ∧ s.mask = true := by
  have ho : 0 < pout := lt_trans (hp.pos (i := kbot) (by omega) hk) hb
  obtain ⟨s, hs, a, b, c, d, e, -, -⟩ := slot_spec hp h2 hk ho
  have hm := d.mpr hb
  have hi := e hm
  refine ⟨s, hs, hi, ?_, ?_, hm⟩
  · rw [c]; exact le_max_left _ _
  · rw [c, hi]
    apply max_le (by norm_num)
    apply le_trans (min_le_right _ _)
    rw [factorOf_eq]
    have := Real.log_lt_log (hp.pos (i := kbot) (by omega) hk) hb
    exact div_nonpos_of_nonpos_of_nonneg (by linarith) (log_gap_pos hp h2 hk).le

/-- Above the top level. -/
theorem slot_above {p : Nat → ℝ} {kx kbot : Nat} {pout : ℝ} (hp : Column p kx) (h2 : 2 ≤ kbot)
    (hk : kbot ≤ kx) (ho : 0 < pout) (hb : pout < p 1) :
    ∃ s, slot p kx kbot pout = some s ∧ s.index = 2 ∧ 1 ≤ s.factr ∧ s.factr ≤ 1.5 ∧ s.mask = false := by
  obtain ⟨s, hs, a, b, c, d, e, -, g⟩ := slot_spec hp h2 hk ho
  have hm : s.mask = false := by
    cases em : s.mask with
    | false => rfl
    | true =>
      have h1 : p 1 < pout := lt_of_le_of_lt (hp.le (le_refl 1) (by omega) hk) (d.mp em)
      exact absurd (lt_trans hb h1) (lt_irrefl _)
  have hi : s.index = 2 := by
    rcases g with g | g
    · exact g
    · exact absurd (lt_of_lt_of_le hb (hp.le (le_refl 1) (by omega) (by omega : s.index - 1 ≤ kx)))
        (not_lt.mpr g.le)
  have hf : 1 ≤ factorOf p s.index pout := by
    rw [factorOf_eq, one_le_div (log_gap_pos hp a (by omega)), hi]
    have := Real.log_lt_log ho hb
    show log (p 2) - log (p 1) ≤ _
    linarith
  refine ⟨s, hs, hi, ?_, ?_, hm⟩
  · rw [c]; exact le_trans (le_min (by norm_num) hf) (le_max_right _ _)
  · rw [c]; exact max_le (by norm_num) (min_le_left _ _)

end Verif.Plevel
