import Verif.Model.HgridHalo
import Verif.Lemmas.TransferMosaic
/-
Lemmas about `fill_cubic_grid_halo`: what each place of the result holds.
-/
namespace Verif.HgridHalo
open Verif.TransferMosaic (fold_hit fold_miss flat_inj)

variable {F : Type}

theorem put_same (a : Nat → F) (k : Nat) (v : F) : put a k v k = v := by simp [put]
theorem put_other (a : Nat → F) {k m : Nat} (v : F) (h : m ≠ k) : put a k v m = a m := by simp [put, h]

theorem own_in (nxp nyp W tile : Nat) (all1 a : Nat → F) {r c : Nat} (hr : r < nyp) (hc : c < nxp) (hW : nxp + 2 ≤ W) :
    own nxp nyp W tile all1 a ((r + 1) * W + (c + 1)) = all1 (tile * nxp * nyp + r * nxp + c) := by
  unfold own
  refine fold_hit (fun a : Nat → F => a ((r + 1) * W + (c + 1))) (fun _ => True) _ nyp r hr _ (fun _ _ _ _ => trivial) (fun s _ => ?_)
    (fun s j hj hne => ?_) a trivial
  · refine fold_hit (fun a : Nat → F => a ((r + 1) * W + (c + 1))) (fun _ => True) _ nxp c hc _ (fun _ _ _ _ => trivial) (fun s _ => ?_)
      (fun s i hi hne => ?_) s trivial
    · exact put_same _ _ _
    · exact put_other _ _ (by omega)
  · refine fold_miss (fun a : Nat → F => a ((r + 1) * W + (c + 1))) _ _ (fun s i hi => ?_) s
    have hi := List.mem_range.mp hi
    refine put_other _ _ (fun h => hne ?_)
    have := (flat_inj (n := W) (by omega) (by omega)).1 h
    omega

theorem own_out (nxp nyp W tile : Nat) (all1 a : Nat → F) {r c : Nat} (hc : c < W) (hW : nxp + 2 ≤ W)
    (h : ¬ (1 ≤ r ∧ r ≤ nyp ∧ 1 ≤ c ∧ c ≤ nxp)) : own nxp nyp W tile all1 a (r * W + c) = a (r * W + c) := by
  unfold own
  refine fold_miss (fun a : Nat → F => a (r * W + c)) _ _ (fun s j hj => ?_) a
  refine fold_miss (fun a : Nat → F => a (r * W + c)) _ _ (fun s i hi => ?_) s
  have hi := List.mem_range.mp hi
  have hj := List.mem_range.mp hj
  refine put_other _ _ (fun he => h ?_)
  have := (flat_inj (n := W) (by omega) (by omega)).1 he
  omega

/-- What the places hold, for a halo of 1. -/
theorem fill_at (miss : F) (nx ny ioff joff tile : Nat) (all1 all2 : Nat → F) {r c : Nat} (hr : r ≤ ny + joff + 1) (hc : c ≤ nx + ioff + 1) :
    fillHalo miss nx ny 1 ioff joff tile all1 all2 (r * (nx + ioff + 2) + c) =
      if r = 0 then (if 1 ≤ c ∧ c ≤ nx + ioff then south nx ny ioff joff tile all1 all2 c else miss)
      else if r = ny + joff + 1 then (if 1 ≤ c ∧ c ≤ nx + ioff then north nx ny ioff joff tile all1 all2 c else miss)
      else if c = 0 then west nx ny ioff joff tile all1 all2 r
      else if c = nx + ioff + 1 then east nx ny ioff joff tile all1 all2 r
      else all1 (tile * (nx + ioff) * (ny + joff) + (r - 1) * (nx + ioff) + (c - 1)) := by
  unfold fillHalo
  rw [show nx + ioff + 2 * 1 = nx + ioff + 2 from rfl]
  generalize hW : nx + ioff + 2 = W
  generalize hnxp : nx + ioff = nxp at *
  generalize hnyp : ny + joff = nyp at *
  -- rows
  have rowMiss : ∀ (a : Nat → F), ¬ ((r = 0 ∨ r = nyp + 1) ∧ 1 ≤ c ∧ c ≤ nxp) →
      ((List.range nxp).foldl (fun a i => put (put a (i + 1) (south nx ny ioff joff tile all1 all2 (i + 1))) ((nyp + 1) * W + (i + 1))
        (north nx ny ioff joff tile all1 all2 (i + 1))) a) (r * W + c) = a (r * W + c) := by
    intro a h
    refine fold_miss (fun a : Nat → F => a (r * W + c)) _ _ (fun s i hi => ?_) a
    have hi := List.mem_range.mp hi
    rw [put_other, put_other]
    · intro he
      have := (flat_inj (n := W) (r' := 0) (c' := i + 1) (by omega) (by omega)).1 (by omega : r * W + c = 0 * W + (i + 1))
      exact h (by omega)
    · intro he
      have := (flat_inj (n := W) (by omega) (by omega)).1 he
      exact h (by omega)
  have colMiss : ∀ (a : Nat → F), ¬ ((c = 0 ∨ c = nxp + 1) ∧ 1 ≤ r ∧ r ≤ nyp) →
      ((List.range nyp).foldl (fun a j => put (put a ((j + 1) * W) (west nx ny ioff joff tile all1 all2 (j + 1))) ((j + 1) * W + nxp + 1)
        (east nx ny ioff joff tile all1 all2 (j + 1))) a) (r * W + c) = a (r * W + c) := by
    intro a h
    refine fold_miss (fun a : Nat → F => a (r * W + c)) _ _ (fun s j hj => ?_) a
    have hj := List.mem_range.mp hj
    rw [put_other, put_other]
    · intro he
      have := (flat_inj (n := W) (r' := j + 1) (c' := 0) (by omega) (by omega)).1 (by omega : r * W + c = (j + 1) * W + 0)
      exact h (by omega)
    · intro he
      have := (flat_inj (n := W) (r' := j + 1) (c' := nxp + 1) (by omega) (by omega)).1 (by omega : r * W + c = (j + 1) * W + (nxp + 1))
      exact h (by omega)
  by_cases h0 : r = 0
  · rw [if_pos h0]
    by_cases h1 : 1 ≤ c ∧ c ≤ nxp
    · rw [if_pos h1]
      refine fold_hit (fun a : Nat → F => a (r * W + c)) (fun _ => True) _ nxp (c - 1) (by omega) _ (fun _ _ _ _ => trivial) (fun s _ => ?_)
        (fun s i hi hne => ?_) _ trivial
      · skip
        rw [put_other, show c - 1 + 1 = c by omega, h0, Nat.zero_mul, Nat.zero_add, put_same]
        intro he
        have := (flat_inj (n := W) (by omega) (by omega)).1 he
        omega
      · skip
        rw [put_other, put_other]
        · subst h0; omega
        · intro he
          have := (flat_inj (n := W) (by omega) (by omega)).1 he
          omega
    · rw [if_neg h1, rowMiss _ (by omega), colMiss _ (by omega), own_out _ _ _ _ _ _ (by omega) (by omega) (by omega)]
      rfl
  · rw [if_neg h0]
    by_cases hn : r = nyp + 1
    · rw [if_pos hn]
      by_cases h1 : 1 ≤ c ∧ c ≤ nxp
      · rw [if_pos h1]
        refine fold_hit (fun a : Nat → F => a (r * W + c)) (fun _ => True) _ nxp (c - 1) (by omega) _ (fun _ _ _ _ => trivial) (fun s _ => ?_)
          (fun s i hi hne => ?_) _ trivial
        · skip
          rw [show c - 1 + 1 = c by omega, hn, put_same]
        · skip
          rw [put_other, put_other]
          · intro he
            have := (flat_inj (n := W) (r' := 0) (c' := i + 1) (by omega) (by omega)).1 (by omega : r * W + c = 0 * W + (i + 1))
            omega
          · intro he
            have := (flat_inj (n := W) (by omega) (by omega)).1 he
            omega
      · rw [if_neg h1, rowMiss _ (by omega), colMiss _ (by omega), own_out _ _ _ _ _ _ (by omega) (by omega) (by omega)]
        rfl
    · rw [if_neg hn, rowMiss _ (by omega)]
      by_cases hc0 : c = 0
      · rw [if_pos hc0]
        refine fold_hit (fun a : Nat → F => a (r * W + c)) (fun _ => True) _ nyp (r - 1) (by omega) _ (fun _ _ _ _ => trivial) (fun s _ => ?_)
          (fun s j hj hne => ?_) _ trivial
        · skip
          rw [put_other, show r - 1 + 1 = r by omega, hc0, Nat.add_zero, put_same]
          rw [show r - 1 + 1 = r by omega]
          omega
        · skip
          rw [put_other, put_other]
          · intro he
            have := (flat_inj (n := W) (r' := j + 1) (c' := 0) (by omega) (by omega)).1 (by omega : r * W + c = (j + 1) * W + 0)
            omega
          · intro he
            have := (flat_inj (n := W) (r' := j + 1) (c' := nxp + 1) (by omega) (by omega)).1 (by omega : r * W + c = (j + 1) * W + (nxp + 1))
            omega
      · rw [if_neg hc0]
        by_cases hce : c = nxp + 1
        · rw [if_pos hce]
          refine fold_hit (fun a : Nat → F => a (r * W + c)) (fun _ => True) _ nyp (r - 1) (by omega) _ (fun _ _ _ _ => trivial) (fun s _ => ?_)
            (fun s j hj hne => ?_) _ trivial
          · skip
            rw [show r - 1 + 1 = r by omega, hce, ← Nat.add_assoc, put_same]
          · skip
            rw [put_other, put_other]
            · intro he
              have := (flat_inj (n := W) (r' := j + 1) (c' := 0) (by omega) (by omega)).1 (by omega : r * W + c = (j + 1) * W + 0)
              omega
            · intro he
              have := (flat_inj (n := W) (r' := j + 1) (c' := nxp + 1) (by omega) (by omega)).1 (by omega : r * W + c = (j + 1) * W + (nxp + 1))
              omega
        · rw [if_neg hce, colMiss _ (by omega)]
          have := own_in nxp nyp W tile all1 (init miss) (r := r - 1) (c := c - 1) (by omega) (by omega) (by omega)
          rw [show r - 1 + 1 = r by omega, show c - 1 + 1 = c by omega] at this
          exact this

end Verif.HgridHalo
