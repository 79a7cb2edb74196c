import Mathlib.Tactic.Linarith
import Mathlib.Tactic.NormNum
import Mathlib.Tactic.Ring
import Mathlib.Tactic.SplitIfs
import Verif.Model.Topog

/-! # Lemmas about `filter_topo` -/

namespace Verif.Topog

variable {K : Type _} [Field K] [LinearOrder K] [IsStrictOrderedRing K]

/-- The value taken for a neighbour. -/
def pick (mask : Nat → Nat → Bool) (d : Nat → Nat → K) (j i ip jp : Nat) : K :=
  if mask (j + jp - 1) (i + ip - 1) then d (j + jp - 1) (i + ip - 1) else d j i

theorem smoothed_eq (mask : Nat → Nat → Bool) (d : Nat → Nat → K) (j i : Nat) :
    smoothed mask d j i =
      (pick mask d j i 0 0 + 2 * pick mask d j i 0 1 + pick mask d j i 0 2
        + 2 * pick mask d j i 1 0 + 4 * pick mask d j i 1 1 + 2 * pick mask d j i 1 2
        + pick mask d j i 2 0 + 2 * pick mask d j i 2 1 + pick mask d j i 2 2) / 16 := by
  simp only [smoothed, term, weight, pick]
  ring

theorem smoothed_bounds {mask : Nat → Nat → Bool} {d : Nat → Nat → K} {lo hi : K} {j i : Nat}
    (hc : lo ≤ d j i ∧ d j i ≤ hi) (h : ∀ j' i', mask j' i' = true → lo ≤ d j' i' ∧ d j' i' ≤ hi) :
    lo ≤ smoothed mask d j i ∧ smoothed mask d j i ≤ hi := by
  have hp : ∀ ip jp, lo ≤ pick mask d j i ip jp ∧ pick mask d j i ip jp ≤ hi := by
    intro ip jp
    unfold pick
    split_ifs with hm
    · exact h _ _ hm
    · exact hc
  rw [smoothed_eq]
  have a := hp 0 0; have b := hp 0 1; have c := hp 0 2
  have e := hp 1 0; have f := hp 1 1; have g := hp 1 2
  have k := hp 2 0; have l := hp 2 1; have m := hp 2 2
  constructor
  · rw [le_div_iff₀ (by norm_num)]; linarith [a.1, b.1, c.1, e.1, f.1, g.1, k.1, l.1, m.1]
  · rw [div_le_iff₀ (by norm_num)]; linarith [a.2, b.2, c.2, e.2, f.2, g.2, k.2, l.2, m.2]

/-- A positive cell and non-negative neighbours give a positive mean. -/
theorem smoothed_pos {mask : Nat → Nat → Bool} {d : Nat → Nat → K} {j i : Nat}
    (hc : 0 < d j i) (h : ∀ j' i', 0 ≤ d j' i') : 0 < smoothed mask d j i := by
  have hp : ∀ ip jp, 0 ≤ pick mask d j i ip jp := by
    intro ip jp
    unfold pick
    split_ifs with hm
    · exact h _ _
    · exact hc.le
  have h11 : pick mask d j i 1 1 = d j i := by
    simp [pick]
  rw [smoothed_eq, h11]
  have a := hp 0 0; have b := hp 0 1; have c := hp 0 2
  have e := hp 1 0; have g := hp 1 2
  have k := hp 2 0; have l := hp 2 1; have m := hp 2 2
  apply div_pos _ (by norm_num)
  linarith

/-- What a whole run keeps, from what one pass keeps. -/
theorem filterLoop_induct {nxg nyg : Nat} {deepen : Bool} {mask : Nat → Nat → Bool}
    (P : (Nat → Nat → K) → Prop)
    (step : ∀ d, P d → P (filterPass nxg nyg deepen mask d d)) :
    ∀ n d, P d → P (filterLoop nxg nyg deepen mask n d d)
  | 0, _, h => h
  | n + 1, d, h => filterLoop_induct P step n _ (step d h)

end Verif.Topog
