import Verif.Lemmas.CouplerTile
import Mathlib.Algebra.Order.Ring.Rat
import Mathlib.Algebra.Field.Rat
/-
C71, C72 and C74: exchange cells, centroid distances and masks of make_coupler_mosaic.
Specification: `Verif/Spec/CouplerTile.lean`.
-/
namespace Verif

open CouplerTile Spec Spec.Tile

variable {K L O : Type} [Field K] [LinearOrder K] [IsStrictOrderedRing K]

/-! ### C71: the exchange cells tile the atmosphere cell -/

/-- C71. The exchange cells of an atmosphere cell with land and ocean never cover more than the cell, and what
they leave uncovered is at most 1/10000 of the cell plus the area ratio threshold for each part. -/
theorem C71_tiling {g : Geometry K L O} {lnds : List L} {ocns : List O} {T : L → O → K}
    (hp : Pieces g lnds ocns T) {thresh : K} (ht : 0 ≤ thresh) {mx : Nat} {axo : List (O × K)} {axl : List (L × K)}
    (h : cellXgrid g thresh mx lnds ocns = .ok (axo, axl)) :
    total axo Prod.snd + total axl Prod.snd ≤ g.areaA
    ∧ g.areaA ≤ total axo Prod.snd + total axl Prod.snd + 1 / 10000 * g.areaA
        + thresh * g.areaA * (parts lnds ocns T : K) := by
  obtain ⟨rfl, rfl⟩ := cellXgrid_eq h
  rw [total_axo, total_axl]
  have bO := fun o ho => ocnArea_bound hp ht (o := o) ho
  have bL := fun l hl => lndArea_bound hp ht (l := l) hl
  have hA := hp.areaA
  -- the cell is the sum of its ocean and land parts
  have hsplit : g.areaA = total ocns (fun o => g.frac o * total lnds (T · o))
      + total lnds (fun l => total ocns (fun o => (1 - g.frac o) * T l o)) := by
    rw [← hp.whole, total_swap lnds ocns (fun l o => (1 - g.frac o) * T l o), ← total_add, total_swap]
    apply total_congr
    intro o _
    rw [← total_mul, ← total_add]
    apply total_congr
    intro l _
    ring
  constructor
  · have h1 := total_le (xs := ocns) (f := ocnArea g thresh) (g := fun o => g.frac o * total lnds (T · o))
      fun o ho => by linarith [(bO o ho).1]
    have h2 := total_le (xs := lnds) (f := lndArea g thresh ocns) fun l hl => (bL l hl).2.1
    linarith
  · have h1 := total_le (xs := ocns) (f := fun o => g.frac o * total lnds (T · o) - ocnArea g thresh o)
      (g := fun o => total lnds (fun l => if g.frac o ≤ minFrac then minFrac * T l o else 0)
        + (if decide (0 < total lnds (T · o)) = true then thresh * g.areaA else 0)) fun o ho => by
      refine (bO o ho).2.1.trans (add_le_add (le_of_eq ?_) ?_)
      · by_cases hf : g.frac o ≤ minFrac
        · simp only [hf, if_true, total_mul]
        · simp only [hf, if_false, total_zero]
      · by_cases h0 : 0 < total lnds (T · o)
        · simp only [h0, if_true, decide_true]
          exact mul_le_mul_of_nonneg_left (min_le_right _ _) ht
        · simp [h0]
    have h2 := total_le (xs := lnds)
      (f := fun l => total ocns (fun o => (1 - g.frac o) * T l o) - lndArea g thresh ocns l)
      (g := fun l => (total ocns (fun o => (if 1 - g.frac o ≤ minFrac then minFrac * T l o else 0))
          + thresh * g.areaA * ((ocns.filter fun o => decide (0 < T l o)).length : K))
        + (if decide (0 < total ocns (T l)) = true then thresh * g.areaA else 0)) fun l hl => by
      refine (bL l hl).2.2.trans (add_le_add ?_ ?_)
      · rw [total_add]
        refine add_le_add (le_refl _) ?_
        rw [← total_count]
        apply total_le
        intro o _
        by_cases h0 : 0 < T l o
        · simp only [h0, if_true, decide_true]
          exact mul_le_mul_of_nonneg_left (min_le_right _ _) ht
        · simp [h0]
      · by_cases h0 : 0 < total ocns (T l)
        · simp only [h0, if_true, decide_true]
          exact mul_le_mul_of_nonneg_left (min_le_right _ _) ht
        · simp [h0]
    rw [total_sub, total_add, total_count] at h1
    rw [total_sub, total_add, total_add, total_count, total_natCast] at h2
    -- an ocean cell is nearly all land or nearly all ocean, not both
    have h3 : total ocns (fun o => total lnds (fun l => if g.frac o ≤ minFrac then minFrac * T l o else 0))
        + total lnds (fun l => total ocns (fun o => if 1 - g.frac o ≤ minFrac then minFrac * T l o else 0))
        ≤ 1 / 10000 * g.areaA := by
      rw [total_swap lnds ocns (fun l o => if 1 - g.frac o ≤ minFrac then minFrac * T l o else 0), ← total_add,
        ← hp.whole, total_swap lnds ocns T, ← total_mul]
      apply total_le
      intro o _
      rw [← total_add, ← total_mul]
      apply total_le
      intro l _
      have hT := mul_nonneg minFrac_pos.le (hp.nonneg l o) (b := T l o)
      have h2m := two_minFrac (K := K)
      have hm : (1 / 10000 : K) * T l o = minFrac * T l o := rfl
      rw [hm]
      by_cases c1 : g.frac o ≤ minFrac
      · rw [if_pos c1, if_neg (by intro c2; linarith)]
        linarith
      · rw [if_neg c1]
        split <;> linarith
    unfold parts
    push_cast
    have e : thresh * g.areaA * (((ocns.filter fun o => decide (0 < total lnds (T · o))).length : K)
          + ((lnds.filter fun l => decide (0 < total ocns (T l))).length : K)
          + (((lnds.map fun l => (ocns.filter fun o => decide (0 < T l o)).length).sum : Nat) : K))
        = thresh * g.areaA * ((ocns.filter fun o => decide (0 < total lnds (T · o))).length : K)
          + thresh * g.areaA * ((lnds.filter fun l => decide (0 < total ocns (T l))).length : K)
          + thresh * g.areaA * (((lnds.map fun l => (ocns.filter fun o => decide (0 < T l o)).length).sum : Nat) : K) := by
      ring
    push_cast at e h2
    rw [e]
    linarith

/-- C71, per parent cell. The exchange cell with ocean cell `o` has the area of the ocean part of the overlap, the
exchange cell with land cell `l` the area of the land part, up to the thresholds. -/
theorem C71_parents [DecidableEq L] [DecidableEq O] {g : Geometry K L O} {lnds : List L} {ocns : List O}
    {T : L → O → K} (hp : Pieces g lnds ocns T) (hnl : lnds.Nodup) (hno : ocns.Nodup) {thresh : K} (ht : 0 ≤ thresh)
    {mx : Nat} {axo : List (O × K)} {axl : List (L × K)} (h : cellXgrid g thresh mx lnds ocns = .ok (axo, axl)) :
    (∀ o ∈ ocns, 0 ≤ areaOf axo o ∧ areaOf axo o ≤ g.frac o * total lnds (T · o)
      ∧ g.frac o * total lnds (T · o) - areaOf axo o
        ≤ (if g.frac o ≤ 1 / 10000 then 1 / 10000 * total lnds (T · o) else 0)
          + (if 0 < total lnds (T · o) then thresh * min (g.areaO o) g.areaA else 0))
    ∧ (∀ l ∈ lnds, 0 ≤ areaOf axl l ∧ areaOf axl l ≤ total ocns (fun o => (1 - g.frac o) * T l o)
      ∧ total ocns (fun o => (1 - g.frac o) * T l o) - areaOf axl l
        ≤ total ocns (fun o => (if 1 - g.frac o ≤ 1 / 10000 then 1 / 10000 * T l o else 0)
            + (if 0 < T l o then thresh * min (g.areaL l) g.areaA else 0))
          + (if 0 < total ocns (T l) then thresh * min (g.areaL l) g.areaA else 0)) := by
  obtain ⟨rfl, rfl⟩ := cellXgrid_eq h
  refine ⟨fun o ho => ?_, fun l hl => ?_⟩
  · rw [areaOf_axo g thresh hno, if_pos ho]
    have b := ocnArea_bound hp ht ho
    exact ⟨b.2.2, by linarith [b.1], b.2.1⟩
  · rw [areaOf_axl g thresh ocns hnl, if_pos hl]
    exact lndArea_bound hp ht hl

/-- C71 without thresholds: with `--area_ratio_thresh 0` and no ocean cell that is nearly but not quite all land or
all ocean, the exchange cells tile the atmosphere cell exactly. -/
theorem C71_exact {g : Geometry K L O} {lnds : List L} {ocns : List O} {T : L → O → K}
    (hp : Pieces g lnds ocns T)
    (h0 : ∀ o ∈ ocns, g.frac o ≤ 1 / 10000 → g.frac o = 0) (h1 : ∀ o ∈ ocns, 1 - g.frac o ≤ 1 / 10000 → g.frac o = 1)
    {mx : Nat} {axo : List (O × K)} {axl : List (L × K)} (h : cellXgrid g 0 mx lnds ocns = .ok (axo, axl)) :
    total axo Prod.snd = total ocns (fun o => g.frac o * total lnds (T · o))
    ∧ total axl Prod.snd = total lnds (fun l => total ocns (fun o => (1 - g.frac o) * T l o))
    ∧ total axo Prod.snd + total axl Prod.snd = g.areaA := by
  obtain ⟨rfl, rfl⟩ := cellXgrid_eq h
  rw [total_axo, total_axl]
  have hsplit : g.areaA = total ocns (fun o => g.frac o * total lnds (T · o))
      + total lnds (fun l => total ocns (fun o => (1 - g.frac o) * T l o)) := by
    rw [← hp.whole, total_swap lnds ocns (fun l o => (1 - g.frac o) * T l o), ← total_add, total_swap]
    apply total_congr
    intro o _
    rw [← total_mul, ← total_add]
    apply total_congr
    intro l _
    ring
  have hlo : ∀ l ∈ lnds, ∀ o ∈ ocns, landOf g 0 l o = (1 - g.frac o) * T l o := by
    intro l hl o ho
    have b := landOf_bound hp (le_refl (0 : K)) hl ho
    rcases le_or_gt (1 - g.frac o) minFrac with hf | hf
    · have h1 := h1 o ho hf
      have b2 := b.2.1
      rw [h1, sub_self, zero_mul] at b2 ⊢
      exact le_antisymm b2 b.1
    · have b3 := b.2.2
      rw [if_neg (not_le.mpr hf)] at b3
      simp only [zero_mul, ite_self, add_zero] at b3
      exact le_antisymm b.2.1 (by linarith)
  have e1 : total ocns (ocnArea g 0) = total ocns (fun o => g.frac o * total lnds (T · o)) := by
    apply total_congr
    intro o ho
    have b := ocnArea_bound hp (le_refl (0 : K)) ho
    rcases le_or_gt (g.frac o) minFrac with hf | hf
    · have h0 := h0 o ho hf
      have b1 := b.1
      rw [h0, zero_mul] at b1 ⊢
      exact le_antisymm (by linarith) b.2.2
    · have b2 := b.2.1
      rw [if_neg (not_le.mpr hf)] at b2
      simp only [zero_mul, ite_self, add_zero] at b2
      exact le_antisymm (by linarith [b.1]) (by linarith)
  have e2 : total lnds (lndArea g 0 ocns) = total lnds (fun l => total ocns (fun o => (1 - g.frac o) * T l o)) := by
    apply total_congr
    intro l hl
    have hm : 0 < min (g.areaL l) g.areaA := lt_min (hp.areaL l hl) hp.areaA
    have es : total ocns (landOf g 0 l) = total ocns (fun o => (1 - g.frac o) * T l o) :=
      total_congr fun o ho => hlo l hl o ho
    have hS : 0 ≤ total ocns (fun o => (1 - g.frac o) * T l o) :=
      total_nonneg fun o ho => mul_nonneg (by linarith [(hp.frac o ho).2]) (hp.nonneg l o)
    have hle : total ocns (fun o => (1 - g.frac o) * T l o) ≤ total ocns (T l) := by
      apply total_le
      intro o ho
      have := mul_le_mul_of_nonneg_right (show 1 - g.frac o ≤ 1 by linarith [(hp.frac o ho).1]) (hp.nonneg l o)
      linarith
    unfold lndArea
    rw [es, kept_iff hp (le_refl (0 : K)) hl]
    rcases hS.eq_or_lt with hz | hz
    · rw [← hz]; simp
    · rw [if_pos]
      refine ⟨?_, div_pos hz hm⟩
      rw [zero_mul, decide_eq_true_eq]
      exact lt_of_lt_of_le hz hle
  rw [e1, e2]
  exact ⟨rfl, rfl, hsplit.symm⟩

/-- C71, size of the internal arrays: the exchange cells of an atmosphere cell are computed if at most `MX` land
cells cover more of it than the threshold. -/
theorem C71_room {g : Geometry K L O} {lnds : List L} {ocns : List O} {T : L → O → K} (hp : Pieces g lnds ocns T)
    {thresh : K} (ht : 0 ≤ thresh) {mx : Nat}
    (hmx : (lnds.filter fun l => decide (thresh * min (g.areaL l) g.areaA < total ocns (T l))).length ≤ mx) :
    ∃ r, cellXgrid g thresh mx lnds ocns = .ok r := by
  apply (cellXgrid_cases g thresh mx lnds ocns).1
  rwa [List.filter_congr fun l hl => kept_iff hp ht hl]

/-- With more land cells the arrays are written outside their bounds; the message "count is greater than MX" is
never reached, because the count is tested after the write. -/
theorem C71_room_wrong {g : Geometry K L O} {lnds : List L} {ocns : List O} {T : L → O → K}
    (hp : Pieces g lnds ocns T) {thresh : K} (ht : 0 ≤ thresh) {mx : Nat}
    (hmx : mx < (lnds.filter fun l => decide (thresh * min (g.areaL l) g.areaA < total ocns (T l))).length) :
    cellXgrid g thresh mx lnds ocns = .error .oob := by
  apply (cellXgrid_cases g thresh mx lnds ocns).2
  rwa [List.filter_congr fun l hl => kept_iff hp ht hl]

/-- Test geometry: an atmosphere cell of area 4, two land cells and two ocean cells, four pieces of area 1. Half of
the first ocean cell is land, the second is all land. -/
def tileEx : Geometry ℚ Nat Nat where
  areaA := 4
  areaL := fun _ => 3
  areaO := fun _ => 2
  clipAL := fun _ => some 2
  clipAO := fun _ => some 2
  clipALO := fun _ _ => some 1
  outside := fun _ => false
  frac := fun o => if o = 0 then 1 / 2 else 0

theorem tileEx_pieces : Pieces tileEx [0, 1] [0, 1] (fun _ _ => 1) where
  nonneg := fun _ _ => by norm_num
  areaA := by norm_num [tileEx]
  areaL := fun _ _ => by norm_num [tileEx]
  areaO := fun _ _ => by norm_num [tileEx]
  frac := fun o _ => by unfold tileEx; simp only; split <;> norm_num
  clipAL := fun _ _ => by norm_num [tileEx, total]
  clipAO := fun _ _ => by norm_num [tileEx, total]
  clipALO := fun _ _ _ _ => rfl
  outside := fun _ _ h => by simp [tileEx] at h
  whole := by norm_num [tileEx, total]

/- Test: one ocean exchange cell of area 1, two land exchange cells of area 3/2. -/
example : (cellXgrid tileEx (1 / 1000000) 2000 [0, 1] [0, 1]).toOption
    = some ([((0 : Nat), (1 : ℚ))], [((0 : Nat), (3 / 2 : ℚ)), (1, 3 / 2)]) := by decide +kernel

/- Test: the hypotheses of `C71_tiling` and of `C71_room_wrong` (room for one piece only) are met. -/
example : ∃ axo axl, cellXgrid tileEx 0 2000 [0, 1] [0, 1] = .ok (axo, axl)
    ∧ total axo Prod.snd + total axl Prod.snd ≤ 4 := by
  obtain ⟨⟨a, b⟩, h⟩ := C71_room tileEx_pieces (le_refl 0) (mx := 2000) (by decide +kernel)
  exact ⟨a, b, h, (C71_tiling tileEx_pieces (le_refl _) h).1⟩

example : cellXgrid tileEx 0 1 [0, 1] [0, 1] = .error .oob :=
  C71_room_wrong tileEx_pieces (le_refl _) (by decide +kernel)

/-! ### C74: land and ocean masks -/

/-- C74, ocean. If the atmosphere covers the ocean cells, the ocean mask written is at most the mask read and differs
from it by at most 1/10000 or the area ratio threshold times the number of atmosphere cells over the ocean cell. -/
theorem C74_ocean_mask {A : Type} [DecidableEq L] [DecidableEq O] {geo : A → Geometry K L O} {lnds : List L}
    {ocns : List O} {T : A → L → O → K} {atms : List A} (hp : ∀ a ∈ atms, Pieces (geo a) lnds ocns (T a))
    (hnl : lnds.Nodup) (hno : ocns.Nodup) {areaO omask : O → K}
    (hO : ∀ a ∈ atms, ∀ o, (geo a).areaO o = areaO o ∧ (geo a).frac o = omask o) (nest : A → Bool)
    (hcover : ∀ o ∈ ocns, total atms (fun a => if nest a then 0 else total lnds (T a · o)) = areaO o)
    {thresh : K} (ht : 0 ≤ thresh) {mx : Nat} {xo : List (A × O × K)} {xl : List (A × L × K)}
    (h : xgrid geo thresh mx lnds ocns atms = .ok (xo, xl)) {o : O} (ho : o ∈ ocns) (hpos : 0 < areaO o)
    (hrange : 0 ≤ omask o) :
    0 ≤ mask nest areaO xo o ∧ mask nest areaO xo o ≤ omask o
    ∧ omask o - mask nest areaO xo o
      ≤ if omask o ≤ 1 / 10000 then 1 / 10000 else thresh * (overlaps nest atms lnds T o : K) := by
  have e := (xgrid_areas hnl hno nest atms h).1 o ho
  have b := fun a ha => ocnArea_bound (hp a ha) ht ho
  unfold mask
  rw [e]
  have h0 : 0 ≤ total atms (fun a => if nest a then 0 else ocnArea (geo a) thresh o) := by
    apply total_nonneg
    intro a ha
    cases nest a with
    | true => simp
    | false => simpa using (b a ha).2.2
  have h1 : total atms (fun a => if nest a then 0 else ocnArea (geo a) thresh o) ≤ omask o * areaO o := by
    rw [← hcover o ho, ← total_mul]
    apply total_le
    intro a ha
    cases nest a with
    | true => simp
    | false =>
      have := (b a ha).1
      rw [(hO a ha o).2] at this
      simpa using this
  have hz : 0 ≤ total atms (fun a => if nest a then 0 else ocnArea (geo a) thresh o) / areaO o :=
    div_nonneg h0 hpos.le
  refine ⟨hz, by rw [div_le_iff₀ hpos]; exact h1, ?_⟩
  by_cases hf : omask o ≤ 1 / 10000
  · rw [if_pos hf]; linarith
  · rw [if_neg hf]
    have h2 : omask o * areaO o - total atms (fun a => if nest a then 0 else ocnArea (geo a) thresh o)
        ≤ thresh * areaO o * (overlaps nest atms lnds T o : K) := by
      unfold overlaps
      rw [← hcover o ho, ← total_mul, ← total_sub, hcover o ho, ← total_count]
      apply total_le
      intro a ha
      cases hn : nest a with
      | true => simp
      | false =>
        have b2 := (b a ha).2.1
        rw [(hO a ha o).1, (hO a ha o).2, if_neg (by exact hf), zero_add] at b2
        have hmin : thresh * min (areaO o) (geo a).areaA ≤ thresh * areaO o :=
          mul_le_mul_of_nonneg_left (min_le_left _ _) ht
        simp only [Bool.false_eq_true, if_false, Bool.not_false, Bool.true_and, decide_eq_true_eq]
        refine b2.trans ?_
        split
        · exact hmin
        · exact le_refl _
    rw [sub_le_iff_le_add, ← sub_le_iff_le_add', le_div_iff₀ hpos]
    nlinarith [h2]

/-- C74, the check of the ocean mask. With a threshold small against the number of atmosphere cells over an ocean
cell, no ocean cell is reported as bad, so the program does not end with an error. Missing: that a bad cell does end
the program with an error, see `C74_silent_wrong`. -/
theorem C74_no_bad_cell_partial {A : Type} [DecidableEq L] [DecidableEq O] {geo : A → Geometry K L O} {lnds : List L}
    {ocns : List O} {T : A → L → O → K} {atms : List A} (hp : ∀ a ∈ atms, Pieces (geo a) lnds ocns (T a))
    (hnl : lnds.Nodup) (hno : ocns.Nodup) {areaO omask : O → K}
    (hO : ∀ a ∈ atms, ∀ o, (geo a).areaO o = areaO o ∧ (geo a).frac o = omask o) (nest : A → Bool)
    (hcover : ∀ o ∈ ocns, total atms (fun a => if nest a then 0 else total lnds (T a · o)) = areaO o)
    {thresh : K} (ht : 0 ≤ thresh) {mx : Nat} {xo : List (A × O × K)} {xl : List (A × L × K)}
    (h : xgrid geo thresh mx lnds ocns atms = .ok (xo, xl)) (hpos : ∀ o ∈ ocns, 0 < areaO o ∧ 0 ≤ omask o)
    (hsmall : ∀ o ∈ ocns, thresh * (overlaps nest atms lnds T o : K) ≤ 1 / 10000) (verbose : Bool) :
    endsWithError verbose (nbad nest areaO omask xo ocns) = false := by
  have : nbad nest areaO omask xo ocns = 0 := by
    unfold nbad
    rw [List.length_eq_zero_iff, List.filter_eq_nil_iff]
    intro o ho
    have b := C74_ocean_mask hp hnl hno hO nest hcover ht h ho (hpos o ho).1 (hpos o ho).2
    have hle : omask o - mask nest areaO xo o ≤ 1 / 10000 := by
      refine b.2.2.trans ?_
      split
      · exact le_refl _
      · exact hsmall o ho
    rw [abs_of_nonneg (by linarith [b.2.1]), decide_eq_true_eq]
    exact not_lt.mpr hle
  rw [this]
  simp [endsWithError]

/-- C74, land. If the atmosphere cells overlap no more of a land cell than there is, its mask is between 0 and 1. -/
theorem C74_land_mask {A : Type} [DecidableEq L] [DecidableEq O] {geo : A → Geometry K L O} {lnds : List L}
    {ocns : List O} {T : A → L → O → K} {atms : List A} (hp : ∀ a ∈ atms, Pieces (geo a) lnds ocns (T a))
    (hnl : lnds.Nodup) (hno : ocns.Nodup) {areaL : L → K} (nest : A → Bool) {l : L} (hl : l ∈ lnds)
    (hcover : total atms (fun a => if nest a then 0 else total ocns (T a l)) ≤ areaL l) (hpos : 0 < areaL l)
    {thresh : K} (ht : 0 ≤ thresh) {mx : Nat} {xo : List (A × O × K)} {xl : List (A × L × K)}
    (h : xgrid geo thresh mx lnds ocns atms = .ok (xo, xl)) :
    0 ≤ mask nest areaL xl l ∧ mask nest areaL xl l ≤ 1 := by
  have e := (xgrid_areas hnl hno nest atms h).2 l hl
  have b := fun a ha => lndArea_bound (hp a ha) ht hl
  unfold mask
  rw [e]
  have h0 : 0 ≤ total atms (fun a => if nest a then 0 else lndArea (geo a) thresh ocns l) := by
    apply total_nonneg
    intro a ha
    cases nest a with
    | true => simp
    | false => simpa using (b a ha).1
  have h1 : total atms (fun a => if nest a then 0 else lndArea (geo a) thresh ocns l) ≤ areaL l := by
    refine le_trans (total_le ?_) hcover
    intro a ha
    cases nest a with
    | true => simp
    | false =>
      simp only [Bool.false_eq_true, if_false]
      refine (b a ha).2.1.trans (total_le ?_)
      intro o ho
      have := mul_le_mul_of_nonneg_right (show 1 - (geo a).frac o ≤ 1 by linarith [((hp a ha).frac o ho).1])
        ((hp a ha).nonneg l o)
      linarith
  exact ⟨div_nonneg h0 hpos.le, by rw [div_le_one hpos]; exact h1⟩

/- Test: one atmosphere cell that covers both ocean cells of the test geometry. -/
example : (xgrid (fun _ : Nat => tileEx) (1 / 1000000) 2000 [0, 1] [0, 1] [7]).toOption
    = some ([((7 : Nat), (0 : Nat), (1 : ℚ))], [(7, (0 : Nat), (3 / 2 : ℚ)), (7, 1, 3 / 2)]) := by decide +kernel

example : mask (fun _ : Nat => false) (fun _ => (2 : ℚ)) [((7 : Nat), (0 : Nat), (1 : ℚ))] 0 = 1 / 2 := by
  decide +kernel

/-- C74, the other direction, fails: an ocean cell of area 2 of which the atmosphere covers only 1. The mask written
is wrong and counted as bad, but without `--verbose` the program ends as if nothing had happened. -/
theorem C74_silent_wrong :
    let xo := [((0 : Nat), (0 : Nat), (1 : ℚ))]
    nbad (fun _ : Nat => false) (fun _ => (2 : ℚ)) (fun _ => 1) xo [0] = 1
    ∧ endsWithError false 1 = false ∧ endsWithError true 1 = true := by
  decide +kernel

/-! ### C72: centroid distances -/

/-- C72. For every parent cell whose exchange cells all take part in the sums, the distances of the exchange cells
from the parent's centroid, weighted by area, add up to zero, and the distances of two exchange cells differ as
their centroids do. Missing: the cells of a nest tile, see `C72_nest_wrong`. -/
theorem C72_centroid_partial {P : Type} [DecidableEq P] {xs : List (XCell K P)} (hpos : ∀ e ∈ xs, 0 < e.area) {p : P}
    (hcount : ∀ e ∈ xs, e.parent = p → e.counted = true) :
    total (xs.filter fun e => e.parent = p) (fun e => e.area * distance xs e) = 0
    ∧ ∀ e ∈ xs, ∀ f ∈ xs, e.parent = p → f.parent = p →
        distance xs e - distance xs f = e.moment / e.area - f.moment / f.area := by
  constructor
  · obtain ⟨hs1, hs2⟩ := sums_eq xs (fun _ => 0, fun _ => 0) p
    rw [zero_add] at hs1 hs2
    have hs1 : (sums xs).1 p = total (xs.filter fun e => e.parent = p) XCell.area := by
      unfold sums
      rw [hs1, total_filter]
      apply total_congr
      intro e he
      by_cases hep : e.parent = p
      · simp [hep, hcount e he hep]
      · simp [hep]
    have hs2 : (sums xs).2 p = total (xs.filter fun e => e.parent = p) XCell.moment := by
      unfold sums
      rw [hs2, total_filter]
      apply total_congr
      intro e he
      by_cases hep : e.parent = p
      · simp [hep, hcount e he hep]
      · simp [hep]
    have e1 : total (xs.filter fun e => e.parent = p) (fun e => e.area * distance xs e)
        = total (xs.filter fun e => e.parent = p) (fun e => e.moment - centroid xs p * e.area) := by
      apply total_congr
      intro e he
      obtain ⟨he, hep⟩ := List.mem_filter.mp he
      rw [decide_eq_true_eq] at hep
      unfold distance
      have := (hpos e he).ne'
      rw [hep, mul_sub, mul_div_cancel₀ _ this]
      ring
    rw [e1, total_sub, total_mul, ← hs1, ← hs2]
    unfold centroid
    split
    · rename_i h
      rw [div_mul_cancel₀ _ h.ne', sub_self]
    · rename_i h
      have h0 : (sums xs).1 p = 0 := by
        apply le_antisymm (not_lt.mp h)
        rw [hs1]
        exact total_nonneg fun e he => (hpos e (List.mem_filter.mp he).1).le
      have hnil : xs.filter (fun e => e.parent = p) = [] := by
        rw [List.filter_eq_nil_iff]
        intro e he hep
        rw [decide_eq_true_eq] at hep
        have hle : ∀ ys : List (XCell K P), e ∈ ys → (∀ f ∈ ys, 0 < f.area) → e.area ≤ total ys XCell.area := by
          intro ys
          induction ys with
          | nil => intro h; simp at h
          | cons y ys ih =>
            intro h hall
            rw [total_cons]
            rcases List.mem_cons.mp h with rfl | h
            · linarith [total_nonneg (xs := ys) (f := XCell.area) fun f hf => (hall f (List.mem_cons_of_mem _ hf)).le]
            · linarith [ih h (fun f hf => hall f (List.mem_cons_of_mem _ hf)), hall y (List.mem_cons_self ..)]
        have := hle (xs.filter fun e => e.parent = p) (List.mem_filter.mpr ⟨he, by simpa using hep⟩)
          (fun f hf => hpos f (List.mem_filter.mp hf).1)
        rw [← hs1, h0] at this
        exact absurd (hpos e he) (not_lt.mpr this)
      have hm : (sums xs).2 p = 0 := by rw [hs2, hnil, total_nil]
      rw [hm, h0]
      ring
  · intro e _ f _ he hf
    unfold distance
    rw [he, hf]
    ring

/-- Test: two exchange cells of one parent cell, with areas 1 and 3 and centroids 10 and 14. -/
def cenEx (counted : Bool) : List (XCell ℚ Nat) := [⟨0, 1, 10, counted⟩, ⟨0, 3, 42, counted⟩]

example : (cenEx true).map (distance (cenEx true)) = [-3, 1] := by decide +kernel

/-- C72 fails for atmosphere cells of a nest tile, which are left out of the sums: the distances written are the
coordinates of the centroids themselves. -/
theorem C72_nest_wrong :
    (cenEx false).map (distance (cenEx false)) = [10, 14]
    ∧ total ((cenEx false).filter fun e => e.parent = 0) (fun e => e.area * distance (cenEx false) e) = 52 := by
  constructor <;> decide +kernel

end Verif
