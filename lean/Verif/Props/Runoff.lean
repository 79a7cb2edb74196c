import Verif.Lemmas.Runoff
/-
C67 and C68: regridding of runoff to the ocean (runoff_regrid).
Specification: `Verif/Spec/Runoff.lean`.
-/
namespace Verif

open Runoff Spec.Run Real Finset

/-! ### C68: the nearest ocean cell -/

/-- C68. The cell chosen for a land point is the nearest ocean cell on the sphere, the first in file order among
equally near ones, and there is one whenever some ocean cell is not exactly opposite to the point. -/
theorem C68_nearest_partial {nx ny : Nat} {mask : Nat → Bool} {lon lat : Nat → ℝ} {l : Nat} (hl : mask l = false)
    (h : Reachable (nx * ny) mask lon lat (lon l) (lat l)) :
    ∃ c, landMap nx ny mask lon lat l = some c ∧ IsNearest (nx * ny) mask lon lat (lon l) (lat l) c := by
  obtain ⟨c, hc⟩ := nearest_isSome h
  refine ⟨c, ?_, ((nearest_iff c).mp hc).2⟩
  simp [landMap, hl, hc]

/-- C68 fails for a land cell whose only ocean cells are exactly opposite to it: none is chosen. -/
theorem C68_opposite_wrong : ∃ (mask : Nat → Bool) (lon lat : Nat → ℝ), mask 0 = false ∧ mask 1 = true
    ∧ landMap 2 1 mask lon lat 0 = none := by
  refine ⟨fun l => decide (l = 1), fun l => if l = 1 then π else 0, fun _ => 0, by simp, by simp, ?_⟩
  have : nearest 2 1 (fun l => decide (l = 1)) (fun l => if l = 1 then π else 0) (fun _ => 0) 0 0 = none := by
    cases h : nearest 2 1 (fun l => decide (l = 1)) (fun l => if l = 1 then π else 0) (fun _ => 0) 0 0 with
    | none => rfl
    | some c =>
      obtain ⟨⟨m, -, m2, m3⟩, -⟩ := (nearest_iff c).mp h
      have m2 : m = 1 := by simpa using m2
      subst m2
      simp [cosAngle] at m3
  simp [landMap, this]

/-! ### C67: where the runoff goes -/

/-- The conditions on a run: an exchange grid within the output grid that carries no negative amounts, and for
every land cell an ocean cell that is not exactly opposite. -/
structure RunoffCase (nxIn nx ny : Nat) (mask : Nat → Bool) (lon lat dataIn : Nat → ℝ) (xs : List XEntry) :
    Prop where
  inside : ∀ e ∈ xs, e.jOut * nx + e.iOut < nx * ny
  nonneg : ∀ e ∈ xs, 0 ≤ amount nxIn dataIn e
  reach : ∀ l, l < nx * ny → mask l = false → Reachable (nx * ny) mask lon lat (lon l) (lat l)

section
open Classical

/-- C67, for amounts that are not negative. A field is written, and for every cell of the file: on land it is 0, in
the ocean it is, per area of the cell, the runoff regridded into the cell itself and into the land cells whose
nearest ocean cell it is.  Missing: negative runoff, see `C67_negative_wrong`. -/
theorem C67_cells_partial {nxIn nx ny nExt : Nat} {mask : Nat → Bool} {lon lat area dataIn : Nat → ℝ}
    {xs : List XEntry} (hc : RunoffCase nxIn nx ny mask lon lat dataIn xs)
    (harea : ∀ l, l < nx * ny → area l ≠ 0) (hext : nExt ≤ ny) :
    ∃ f, process nxIn nx ny nExt mask (landMap nx ny mask lon lat) area dataIn xs = some f
      ∧ ∀ l, l < nx * (ny - nExt) →
        (mask (l + nExt * nx) = false → f l = 0)
        ∧ (mask (l + nExt * nx) = true →
            f l * area (l + nExt * nx) = inflow nxIn nx dataIn xs (l + nExt * nx)
              + ∑ k ∈ (range (nx * ny)).filter (fun k => mask k = false
                  ∧ IsNearest (nx * ny) mask lon lat (lon k) (lat k) (l + nExt * nx)), inflow nxIn nx dataIn xs k) := by
  have hacc : accumulate nxIn nx dataIn xs = inflow nxIn nx dataIn xs := by
    funext l; exact accumulate_eq _ _ _ _ l
  have hmv := move_spec (nx := nx) (ny := ny) (mask := mask) (map := landMap nx ny mask lon lat)
    (a := inflow nxIn nx dataIn xs) (inflow_nonneg hc.nonneg) (fun l h1 _ h3 => by
      obtain ⟨c, h, h'⟩ := C68_nearest_partial (nx := nx) (ny := ny) h3 (hc.reach l h1 h3)
      exact ⟨c, h, h'.2.1⟩)
  refine ⟨_, by unfold process; rw [hacc, hmv]; rfl, ?_⟩
  intro l hl
  have hle : nx * (ny - nExt) + nExt * nx = nx * ny := by
    rw [Nat.mul_comm nExt nx, ← Nat.mul_add, Nat.sub_add_cancel hext]
  have hlt : l + nExt * nx < nx * ny := by omega
  constructor
  · intro hm
    simp [moved, hm, hlt]
  · intro hm
    simp only
    rw [div_mul_cancel₀ _ (harea _ hlt)]
    unfold moved
    rw [if_pos hm]
    congr 1
    apply sum_congr _ (fun _ _ => rfl)
    ext k
    simp only [mem_filter, mem_range]
    constructor
    · rintro ⟨h1, h2, h3⟩
      refine ⟨h1, h2, ?_⟩
      simp only [landMap, h2, Bool.false_eq_true, if_false] at h3
      exact ((nearest_iff _).mp h3).2
    · rintro ⟨h1, h2, h3⟩
      refine ⟨h1, h2, ?_⟩
      simp only [landMap, h2, Bool.false_eq_true, if_false]
      exact (nearest_iff _).mpr ⟨hc.reach k h1 h2, h3⟩

end

/-- C67. The ocean cells of `C67_cells_partial` are those deeper than the sea level: with `depth` the depths of the
topography file, a cell that is not receives nothing, and every other one receives what is regridded into it and
into the land cells, with those of the rows added in the south, whose nearest ocean cell it is. -/
theorem C67_depth_partial {nxIn nx ny nExt : Nat} {depth lon lat area dataIn : Nat → ℝ} {seaLevel : ℝ}
    {xs : List XEntry}
    (hc : RunoffCase nxIn nx ny (oceanMask nx ny nExt depth seaLevel) lon lat dataIn xs)
    (harea : ∀ l, l < nx * ny → area l ≠ 0) (hext : nExt ≤ ny) :
    ∃ f, process nxIn nx ny nExt (oceanMask nx ny nExt depth seaLevel)
        (landMap nx ny (oceanMask nx ny nExt depth seaLevel) lon lat) area dataIn xs = some f
      ∧ ∀ l, l < nx * (ny - nExt) →
        (depth l ≤ seaLevel → f l = 0)
        ∧ (seaLevel < depth l →
            inflow nxIn nx dataIn xs (l + nExt * nx) ≤ f l * area (l + nExt * nx)) := by
  classical
  obtain ⟨f, h1, h2⟩ := C67_cells_partial hc harea hext
  refine ⟨f, h1, ?_⟩
  intro l hl
  have hle : nx * (ny - nExt) + nExt * nx = nx * ny := by
    rw [Nat.mul_comm nExt nx, ← Nat.mul_add, Nat.sub_add_cancel hext]
  have hm : oceanMask nx ny nExt depth seaLevel (l + nExt * nx) = true ↔ seaLevel < depth l := by
    unfold oceanMask
    rw [if_pos (by omega), Nat.add_sub_cancel]
    simp
  constructor
  · intro h
    apply (h2 l hl).1
    rw [← Bool.not_eq_true, hm]
    exact not_lt.mpr h
  · intro h
    rw [(h2 l hl).2 (hm.mpr h)]
    have := Finset.sum_nonneg (s := (range (nx * ny)).filter (fun k => oceanMask nx ny nExt depth seaLevel k = false
      ∧ IsNearest (nx * ny) (oceanMask nx ny nExt depth seaLevel) lon lat (lon k) (lat k) (l + nExt * nx)))
      (f := inflow nxIn nx dataIn xs) (fun k _ => inflow_nonneg hc.nonneg k)
    linarith

/-- C67. Conservation: the total of the field written, weighted with the cell areas, is the total runoff carried
by the exchange grid; the rows added in the south, which are not written, hold nothing. -/
theorem C67_total_partial {nxIn nx ny nExt : Nat} {depth lon lat area dataIn : Nat → ℝ} {seaLevel : ℝ}
    {xs : List XEntry}
    (hc : RunoffCase nxIn nx ny (oceanMask nx ny nExt depth seaLevel) lon lat dataIn xs)
    (harea : ∀ l, l < nx * ny → area l ≠ 0) (hext : nExt ≤ ny) :
    ∃ f, process nxIn nx ny nExt (oceanMask nx ny nExt depth seaLevel)
        (landMap nx ny (oceanMask nx ny nExt depth seaLevel) lon lat) area dataIn xs = some f
      ∧ ∑ l ∈ range (nx * (ny - nExt)), f l * area (l + nExt * nx) = (xs.map (amount nxIn dataIn)).sum := by
  have hext' : ∀ l, l < nExt * nx → oceanMask nx ny nExt depth seaLevel l = false := by
    intro l h
    unfold oceanMask
    rw [if_neg (by omega)]
  generalize oceanMask nx ny nExt depth seaLevel = mask at *
  have hacc : accumulate nxIn nx dataIn xs = inflow nxIn nx dataIn xs := by
    funext l; exact accumulate_eq _ _ _ _ l
  have hmap : ∀ l, l < nx * ny → 0 < inflow nxIn nx dataIn xs l → mask l = false →
      ∃ t, t < nx * ny ∧ landMap nx ny mask lon lat l = some t ∧ mask t = true := fun l h1 _ h3 => by
    obtain ⟨c, h, h'⟩ := C68_nearest_partial (nx := nx) (ny := ny) h3 (hc.reach l h1 h3)
    exact ⟨c, h'.1, h, h'.2.1⟩
  have hmv := move_spec (nx := nx) (ny := ny) (mask := mask) (map := landMap nx ny mask lon lat)
    (a := inflow nxIn nx dataIn xs) (inflow_nonneg hc.nonneg) (fun l h1 h2 h3 => by
      obtain ⟨c, -, h, h'⟩ := hmap l h1 h2 h3
      exact ⟨c, h, h'⟩)
  refine ⟨_, by unfold process; rw [hacc, hmv]; rfl, ?_⟩
  have hle : nExt * nx + nx * (ny - nExt) = nx * ny := by
    rw [Nat.mul_comm nExt nx, ← Nat.mul_add, Nat.add_sub_cancel' hext]
  rw [← sum_inflow hc.inside, ← sum_moved (inflow_nonneg hc.nonneg) hmap, ← hle, Finset.sum_range_add]
  have h0 : ∑ k ∈ range (nExt * nx), moved mask (landMap nx ny mask lon lat) (inflow nxIn nx dataIn xs)
      (nExt * nx + nx * (ny - nExt)) k = 0 := by
    apply sum_eq_zero
    intro k hk
    rw [mem_range] at hk
    unfold moved
    rw [hext' k hk, if_neg (by simp), if_pos (by omega)]
  rw [h0, zero_add]
  apply sum_congr rfl
  intro l hl
  rw [mem_range] at hl
  rw [div_mul_cancel₀ _ (harea _ (by omega)), hle, Nat.add_comm]

/-- C67 fails for negative runoff on land: it is neither moved nor, in a row added in the south, written. Here
the exchange grid carries -1 into the added row, and the file has total 0. -/
theorem C67_negative_wrong : ∃ (depth lon lat dataIn : Nat → ℝ) (xs : List XEntry),
    (∀ l, l < 1 * 2 → oceanMask 1 2 1 depth 0 l = false →
      Reachable (1 * 2) (oceanMask 1 2 1 depth 0) lon lat (lon l) (lat l))
    ∧ (xs.map (amount 1 dataIn)).sum = -1
    ∧ ∃ f, process 1 1 2 1 (oceanMask 1 2 1 depth 0) (landMap 1 2 (oceanMask 1 2 1 depth 0) lon lat) (fun _ => 1)
        dataIn xs = some f
      ∧ ∑ l ∈ range (1 * (2 - 1)), f l * 1 = 0 := by
  have hm0 : oceanMask 1 2 1 (fun _ => 1) 0 0 = false := by simp [oceanMask]
  have hm1 : oceanMask 1 2 1 (fun _ => 1) 0 1 = true := by simp [oceanMask]
  refine ⟨fun _ => 1, fun _ => 0, fun _ => 0, fun _ => -1, [⟨0, 0, 0, 0, 1⟩], ?_, by simp [amount], ?_⟩
  · intro l hl h
    refine ⟨1, by omega, hm1, ?_⟩
    simp [cosAngle]
  · unfold process move
    have hr : List.range (1 * 2) = [0, 1] := rfl
    simp only [hr, List.foldlM_cons, List.foldlM_nil]
    have ha : accumulate 1 1 (fun _ => -1) [⟨0, 0, 0, 0, 1⟩] = fun l => if l = 0 then -1 else 0 := by
      funext l
      simp [accumulate, Function.update_apply]
    rw [ha]
    have s0 : moveStep (oceanMask 1 2 1 (fun _ => 1) 0)
        (landMap 1 2 (oceanMask 1 2 1 (fun _ => 1) 0) (fun _ => 0) fun _ => 0)
        (fun l => if l = 0 then -1 else 0) 0 = some (fun l => if l = 0 then (-1 : ℝ) else 0) := by
      unfold moveStep
      rw [if_neg (by rintro ⟨h, -⟩; simp at h; linarith)]
    have s1 : moveStep (oceanMask 1 2 1 (fun _ => 1) 0)
        (landMap 1 2 (oceanMask 1 2 1 (fun _ => 1) 0) (fun _ => 0) fun _ => 0)
        (fun l => if l = 0 then -1 else 0) 1 = some (fun l => if l = 0 then (-1 : ℝ) else 0) := by
      unfold moveStep
      rw [if_neg (by rintro ⟨h, -⟩; simp at h)]
    rw [s0]
    simp only [Option.bind_eq_bind, Option.bind_some, s1]
    refine ⟨_, rfl, ?_⟩
    simp

/-! ### Examples: cases meeting the hypotheses -/

-- Two cells, land at longitude 0 and ocean at longitude 1 on the equator; runoff 3 falls on the land cell.
example : ∃ c, landMap 2 1 (fun l => decide (l = 1)) (fun l => (l : ℝ)) (fun _ => 0) 0 = some c
    ∧ IsNearest (2 * 1) (fun l => decide (l = 1)) (fun l => (l : ℝ)) (fun _ => 0) ((0 : ℕ) : ℝ) 0 c := by
  refine C68_nearest_partial (lon := fun l => (l : ℝ)) (lat := fun _ => 0) (by simp) ⟨1, by omega, by simp, ?_⟩
  simp only [cosAngle, sin_zero, cos_zero]
  have : -1 < cos (((0 : ℕ) : ℝ) - ((1 : ℕ) : ℝ)) := by
    norm_num
    exact lt_trans (by norm_num) cos_one_pos
  linarith

theorem runoff_example_case : RunoffCase 1 1 2 (oceanMask 1 2 1 (fun _ => 1) 0) (fun _ => 0) (fun l => (l : ℝ))
    (fun _ => 3) [⟨0, 0, 0, 0, 2⟩, ⟨0, 0, 0, 1, 1⟩] where
  inside := by simp
  nonneg := by
    intro e he
    simp only [List.mem_cons, List.not_mem_nil, or_false] at he
    rcases he with rfl | rfl <;> norm_num [amount]
  reach := by
    intro l hl h
    refine ⟨1, by omega, by simp [oceanMask], ?_⟩
    have : l = 0 ∨ l = 1 := by omega
    rcases this with rfl | rfl
    · simp only [cosAngle]
      norm_num
      exact lt_trans (by norm_num) cos_one_pos
    · simp [oceanMask] at h

-- Three cells of runoff arrive, two of them in the row added in the south: all of it is written.
example : ∃ f, process 1 1 2 1 (oceanMask 1 2 1 (fun _ => 1) 0)
      (landMap 1 2 (oceanMask 1 2 1 (fun _ => 1) 0) (fun _ => 0) (fun l => (l : ℝ))) (fun _ => 4) (fun _ => 3)
      [⟨0, 0, 0, 0, 2⟩, ⟨0, 0, 0, 1, 1⟩] = some f
    ∧ ∑ l ∈ range (1 * (2 - 1)), f l * 4 = 9 := by
  obtain ⟨f, h1, h2⟩ := C67_total_partial (area := fun _ => 4) runoff_example_case (fun _ _ => by norm_num) (by omega)
  refine ⟨f, h1, ?_⟩
  rw [h2]
  norm_num [amount]
example := C67_depth_partial (area := fun _ => 4) runoff_example_case (fun _ _ => by norm_num) (by omega)
example := C67_cells_partial (nExt := 1) (area := fun _ => 4) runoff_example_case (fun _ _ => by norm_num) (by omega)

end Verif
