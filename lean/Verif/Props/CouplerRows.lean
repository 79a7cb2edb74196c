import Verif.Lemmas.CouplerRows
import Mathlib.Algebra.Order.Ring.Rat
import Mathlib.Algebra.Field.Rat
import Mathlib.Data.List.Nodup
import Mathlib.Tactic.NormNum
/-
C69 and C70: which pairs of cells make_coupler_mosaic looks at.
Specification: `Verif/Spec/CouplerRows.lean`.
-/
namespace Verif

open CouplerRows Spec Spec.Rows

variable {K : Type*} [Field K] [LinearOrder K]

theorem CouplerRows.lt_of_row {nx ny i j : Nat} (hi : i < nx) (hj : j < ny) : j * nx + i < nx * ny := by
  calc j * nx + i < j * nx + nx := by omega
    _ = (j + 1) * nx := by rw [Nat.add_mul, Nat.one_mul]
    _ ≤ ny * nx := Nat.mul_le_mul_right _ hj
    _ = nx * ny := Nat.mul_comm _ _

/-! ### C69: atmosphere cells -/

/-- C69, one process. The pairs that reach the clipping are exactly the pairs of a cell of the process and a cell of
the other grid that overlap in latitude. -/
theorem C69_pairs {nx1 : Nat} {y1 : Nat → K} {nx2 ny2 : Nat} {y2 : Nat → K} {cells : List Nat} (a c : Nat) :
    (a, c) ∈ examined rowsAtm nx1 y1 nx2 ny2 y2 cells ↔
      a ∈ cells ∧ c < nx2 * ny2 ∧ LatOverlap nx1 y1 nx2 y2 a c := by
  rw [examined_atm]
  simp only [List.mem_flatMap, List.mem_filterMap, List.mem_range]
  constructor
  · rintro ⟨la, hla, j, hj, i, hi, h⟩
    cases hr : latReject (corners nx1 y1 la) (corners nx2 y2 (j * nx2 + i)) with
    | true => simp [hr] at h
    | false =>
      simp only [hr, Bool.false_eq_true, if_false, Option.some.injEq, Prod.mk.injEq] at h
      obtain ⟨rfl, rfl⟩ := h
      exact ⟨hla, lt_of_row hi hj, latReject_iff.mp hr⟩
  · rintro ⟨ha, hc, h⟩
    have hnx : 0 < nx2 := Nat.pos_of_ne_zero fun h => by simp [h] at hc
    have e : c / nx2 * nx2 + c % nx2 = c := by rw [Nat.mul_comm]; exact Nat.div_add_mod c nx2
    refine ⟨a, ha, c / nx2, Nat.div_lt_of_lt_mul hc, c % nx2, Nat.mod_lt _ hnx, ?_⟩
    rw [e, latReject_iff.mpr h]
    rfl

/-- C69, any number of processes. Whatever number of processes divides the atmosphere cells among them, the pairs
gathered from all processes are the same, in the same order, and are all pairs that overlap in latitude, each
once. -/
theorem C69_processes (nx1 ny1 : Nat) (y1 : Nat → K) (nx2 ny2 : Nat) (y2 : Nat → K) :
    ∃ l : List (Nat × Nat),
      (∀ npes, 1 ≤ npes → npes ≤ nx1 * ny1 → gathered rowsAtm nx1 ny1 y1 nx2 ny2 y2 npes = .ok l)
      ∧ l.Nodup
      ∧ ∀ a c, (a, c) ∈ l ↔ a < nx1 * ny1 ∧ c < nx2 * ny2 ∧ LatOverlap nx1 y1 nx2 y2 a c := by
  refine ⟨examined rowsAtm nx1 y1 nx2 ny2 y2 (List.range (nx1 * ny1)), fun npes h1 h2 => ?_, ?_, fun a c => ?_⟩
  · obtain ⟨ext, he, -, hp⟩ := C01_extents_partition (nx1 * ny1) npes h1 h2
    unfold gathered
    rw [he]
    simp only [examined_atm]
    have hc : ext.flatMap cellsOf = List.range (nx1 * ny1) := by
      have := cellsOf_partition (lo := 0) (n := nx1 * ny1) (ext := ext) (by simpa using hp) (by omega)
      simpa using this
    rw [← List.flatMap_assoc, hc]
  · rw [examined_atm, List.nodup_flatMap]
    refine ⟨fun la _ => ?_, ?_⟩
    · rw [List.nodup_flatMap]
      refine ⟨fun j _ => ?_, ?_⟩
      · apply List.Nodup.filterMap _ List.nodup_range
        intro i i' b hb hb'
        simp only [Option.mem_def] at hb hb'
        split at hb
        · exact absurd hb (by simp)
        split at hb'
        · exact absurd hb' (by simp)
        rw [Option.some.injEq] at hb hb'
        have := hb.trans hb'.symm
        simp only [Prod.mk.injEq] at this
        omega
      · refine List.Nodup.pairwise_of_forall_ne List.nodup_range ?_
        intro j _ j' _ hne b hb hb'
        simp only [List.mem_filterMap, List.mem_range] at hb hb'
        obtain ⟨i, hi, hb⟩ := hb
        obtain ⟨i', hi', hb'⟩ := hb'
        split at hb
        · exact absurd hb (by simp)
        split at hb'
        · exact absurd hb' (by simp)
        rw [Option.some.injEq] at hb hb'
        have h := hb.trans hb'.symm
        simp only [Prod.mk.injEq, true_and] at h
        apply hne
        have : (j * nx2 + i) / nx2 = (j' * nx2 + i') / nx2 := by rw [h]
        rwa [Nat.mul_comm j, Nat.mul_comm j', Nat.mul_add_div (by omega), Nat.mul_add_div (by omega),
          Nat.div_eq_of_lt hi, Nat.div_eq_of_lt hi', Nat.add_zero, Nat.add_zero] at this
    · refine List.Nodup.pairwise_of_forall_ne List.nodup_range ?_
      intro la _ la' _ hne b hb hb'
      simp only [List.mem_flatMap, List.mem_filterMap, List.mem_range] at hb hb'
      obtain ⟨j, -, i, -, hb⟩ := hb
      obtain ⟨j', -, i', -, hb'⟩ := hb'
      split at hb
      · exact absurd hb (by simp)
      split at hb'
      · exact absurd hb' (by simp)
      rw [Option.some.injEq] at hb hb'
      have := hb.trans hb'.symm
      simp only [Prod.mk.injEq] at this
      exact hne this.1
  · rw [C69_pairs, List.mem_range]

/-- Test grid of 1 column and 2 rows with latitudes -1, 0 and 1. -/
def rowsEx1 : Nat → ℚ := fun n => (n / 2 : Nat) - 1

/-- Test grid of 1 column and 2 rows with latitudes -2, 0 and 2. -/
def rowsEx2 : Nat → ℚ := fun n => 2 * ((n / 2 : Nat) - 1)

/- Test: two atmosphere cells and two larger ocean cells, with one and with two processes. -/
example : gathered rowsAtm 1 2 rowsEx1 1 2 rowsEx2 1 = .ok [(0, 0), (1, 1)]
    ∧ gathered rowsAtm 1 2 rowsEx1 1 2 rowsEx2 2 = .ok [(0, 0), (1, 1)] := by
  constructor <;> decide +kernel

/-! ### C70: land and wave cells against the ocean -/

/-- C70, the part that holds. Every pair examined overlaps in latitude, and a pair that overlaps in latitude is
examined if some corner of the ocean cell lies strictly inside the latitude band of the cells of the process.
Missing: ocean cells that have no corner inside the band, see `C70_lost_wrong`. -/
theorem C70_pairs_partial {nx1 : Nat} {y1 : Nat → K} {nx2 ny2 : Nat} {y2 : Nat → K} {cells : List Nat} (a c : Nat) :
    ((a, c) ∈ examined rowsOcn nx1 y1 nx2 ny2 y2 cells →
      a ∈ cells ∧ c < nx2 * ny2 ∧ LatOverlap nx1 y1 nx2 y2 a c)
    ∧ (a ∈ cells → c < nx2 * ny2 → LatOverlap nx1 y1 nx2 y2 a c →
        (∃ u, CornerLat nx2 y2 c u ∧ InBand nx1 y1 cells u) →
        (a, c) ∈ examined rowsOcn nx1 y1 nx2 ny2 y2 cells) := by
  unfold examined
  simp only [List.mem_flatMap, List.mem_filterMap, List.mem_range, mem_rowLoop (widen_bounds _ _).1, rowsOcn]
  constructor
  · rintro ⟨la, hla, j, ⟨-, hj⟩, i, hi, h⟩
    have hj := hj.trans (widen_bounds _ _).2
    cases hr : latReject (corners nx1 y1 la) (corners nx2 y2 (j * nx2 + i)) with
    | true => simp [hr] at h
    | false =>
      simp only [hr, Bool.false_eq_true, if_false, Option.some.injEq, Prod.mk.injEq] at h
      obtain ⟨rfl, rfl⟩ := h
      exact ⟨hla, lt_of_row hi (by omega), latReject_iff.mp hr⟩
  · rintro ha hc h ⟨u, hu, hb⟩
    have hnx : 0 < nx2 := Nat.pos_of_ne_zero fun h => by simp [h] at hc
    have e : c / nx2 * nx2 + c % nx2 = c := by rw [Nat.mul_comm]; exact Nat.div_add_mod c nx2
    refine ⟨a, ha, c / nx2, ?_, c % nx2, Nat.mod_lt _ hnx, ?_⟩
    · exact rowsOcn_covers (Nat.mod_lt c hnx) (Nat.div_lt_of_lt_mul hc) (by rw [e]; exact hu) hb
    · rw [e, latReject_iff.mpr h]
      rfl

/-- C70 for ocean grids whose latitude is constant along rows and grows with the row: if some row of ocean points
lies strictly inside the band of the process, the pairs examined are exactly the pairs that overlap in
latitude. -/
theorem C70_regular_partial {nx1 : Nat} {y1 : Nat → K} {nx2 ny2 : Nat} {y2 : Nat → K} {cells : List Nat}
    {row : Nat → K} (hrow : ∀ j i, j ≤ ny2 → i ≤ nx2 → y2 (j * (nx2 + 1) + i) = row j)
    (hmono : ∀ j, j < ny2 → row j < row (j + 1))
    {j0 : Nat} (hj0 : j0 ≤ ny2) (hin : InBand nx1 y1 cells (row j0)) (a c : Nat) :
    (a, c) ∈ examined rowsOcn nx1 y1 nx2 ny2 y2 cells ↔
      a ∈ cells ∧ c < nx2 * ny2 ∧ LatOverlap nx1 y1 nx2 y2 a c := by
  refine ⟨(C70_pairs_partial a c).1, ?_⟩
  rintro ⟨ha, hc, h⟩
  have hle : ∀ j k, j ≤ k → k ≤ ny2 → row j ≤ row k := by
    intro j k hjk
    induction k with
    | zero => intro _; have : j = 0 := by omega
              subst this; exact le_refl _
    | succ k ih =>
      intro hk
      rcases Nat.lt_or_ge j (k + 1) with h | h
      · exact (ih (by omega) (by omega)).trans (hmono k (by omega)).le
      · have : j = k + 1 := by omega
        subst this; exact le_refl _
  have hnx : 0 < nx2 := Nat.pos_of_ne_zero fun h => by simp [h] at hc
  have e : c / nx2 * nx2 + c % nx2 = c := by rw [Nat.mul_comm]; exact Nat.div_add_mod c nx2
  have hj : c / nx2 < ny2 := Nat.div_lt_of_lt_mul hc
  have hi : c % nx2 < nx2 := Nat.mod_lt _ hnx
  have hcorner : ∀ v, CornerLat nx2 y2 c v → ∃ d, d ≤ 1 ∧ v = row (c / nx2 + d) := by
    rintro v ⟨dj, di, h1, h2, rfl⟩
    exact ⟨dj, h1, hrow _ _ (by omega) (by omega)⟩
  have hcor : ∀ d, d ≤ 1 → CornerLat nx2 y2 c (row (c / nx2 + d)) := by
    intro d hd
    exact ⟨d, 0, hd, by omega, (hrow _ _ (by omega) (by omega)).symm⟩
  apply (C70_pairs_partial a c).2 ha hc h
  obtain ⟨⟨u, v, hu, hv, h⟩, ⟨u', v', hu', hv', h'⟩⟩ := h
  obtain ⟨d, hd, rfl⟩ := hcorner u hu
  obtain ⟨d', hd', rfl⟩ := hcorner u' hu'
  obtain ⟨⟨c1, hc1, w1, hw1, l1⟩, ⟨c2, hc2, w2, hw2, l2⟩⟩ := hin
  have hlow : row (c / nx2) < v := lt_of_le_of_lt (hle _ _ (by omega) (by omega)) h
  have hupp : v' < row (c / nx2 + 1) := lt_of_lt_of_le h' (hle _ _ (by omega) (by omega))
  rcases Nat.lt_or_ge (c / nx2) j0 with hlt | hge
  · refine ⟨row (c / nx2 + 1), hcor 1 (by omega), ⟨a, ha, v', hv', hupp⟩, ⟨c2, hc2, w2, hw2, ?_⟩⟩
    exact lt_of_le_of_lt (hle _ _ (by omega) hj0) l2
  · refine ⟨row (c / nx2), hcor 0 (by omega), ⟨c1, hc1, w1, hw1, ?_⟩, ⟨a, ha, v, hv, hlow⟩⟩
    exact lt_of_lt_of_le l1 (hle _ _ hge (by omega))

/-- C70 fails for ocean cells that reach beyond the band on both sides: two land cells and two larger ocean cells.
With one process both overlapping pairs are examined, with two processes none. -/
theorem C70_lost_wrong :
    gathered rowsOcn 1 2 rowsEx1 1 2 rowsEx2 1 = .ok [(0, 0), (1, 1)]
    ∧ gathered rowsOcn 1 2 rowsEx1 1 2 rowsEx2 2 = .ok []
    ∧ LatOverlap 1 rowsEx1 1 rowsEx2 0 0 := by
  refine ⟨by decide +kernel, by decide +kernel, ⟨-2, 0, ?_, ?_, by norm_num⟩, ⟨0, -1, ?_, ?_, by norm_num⟩⟩
  · exact ⟨0, 0, by omega, by omega, by norm_num [rowsEx2]⟩
  · exact ⟨1, 0, by omega, by omega, by norm_num [rowsEx1]⟩
  · exact ⟨1, 0, by omega, by omega, by norm_num [rowsEx2]⟩
  · exact ⟨0, 0, by omega, by omega, by norm_num [rowsEx1]⟩

/- Test: the hypotheses of `C70_regular_partial` hold for both land cells on one process, with the ocean row at
latitude 0 inside the band. -/
example : InBand 1 rowsEx1 [0, 1] ((fun j => 2 * (j - 1)) (1 : ℚ)) :=
  ⟨⟨0, by simp, -1, ⟨0, 0, by omega, by omega, by norm_num [rowsEx1]⟩, by norm_num⟩,
   ⟨1, by simp, 1, ⟨1, 0, by omega, by omega, by norm_num [rowsEx1]⟩, by norm_num⟩⟩

end Verif
