import Verif.Lemmas.RowRange
import Verif.Props.XGrid
import Mathlib.Tactic.NormNum
import Mathlib.Data.Rat.Floor
/-
C123: only the rows of the source grid that can meet the target grid are searched for exchange cells.

`pairList p` is the list of exchange cells when all rows are searched.
-/
namespace Verif.RowRange
open Verif.Spec Verif.XGrid

section cpu
variable {K β : Type} [LinearOrder K] (p : Pair K β)

/-- C123. A row of the source grid outside the rows that are searched contributes nothing. -/
theorem C123_unused {j : Nat} (hj : j < p.ny1) (h : (j : Int) < (rows p).1 ∨ (rows p).2 < (j : Int)) :
    ¬ RowUsed p j := by
  rintro ⟨i, hi, ij, hij, hne⟩
  apply hne
  unfold hit
  rw [near_outside p (le_refl _) (le_refl _) hi hj hij h]
  rfl

theorem rows_bounds : 0 ≤ (rows p).1 ∧ (rows p).2 ≤ (p.ny1 : Int) - 1 := by
  unfold rows clampRows
  dsimp only
  omega

/-- C123. Searching these rows only gives the same list, in the same order, as searching all. -/
theorem C123_rows : (hitList (slice p (rows p).1 ((rows p).2 - (rows p).1 + 1))).map (shift (rows p).1) = pairList p := by
  refine slice_hitList p _ _ (rows_bounds p).1 (rows_bounds p).2 ?_
  intro j hj ho i hi ij hij
  by_contra hne
  exact C123_unused p hj ho ⟨i, hi, ij, hij, hne⟩

/-- C123. With any number of threads in any order, the exchange grid of a pair of tiles consists of the
exchange cells of all rows, each once. -/
theorem C123_setup (maxx nb : Nat) (sched : List Nat) (hb : 0 < nb)
    (hf : Finishes (slice p (rows p).1 ((rows p).2 - (rows p).1 + 1)) nb sched) {out : List (Option (Cell β))}
    (h : setupTile p maxx nb sched = .ok out) : out.Perm ((pairList p).map some) := by
  unfold setupTile at h
  generalize hg : slice p (rows p).1 ((rows p).2 - (rows p).1 + 1) = g at h hf
  rcases hc : create2dx2d g maxx nb sched with e | o
  · rw [hc] at h; cases h
  · rw [hc] at h
    injection h with h
    subst h
    have hf1 : Finishes g 1 (List.replicate (g.nx1 * g.ny1 * (g.nx2 * g.ny2)) 0) := by
      intro m hm
      obtain rfl : m = 0 := by omega
      simp
    have h1 := C30_one_thread g ((hitList g).length + 1) _ hf1
    rw [if_pos (.inr (Nat.lt_succ_self _))] at h1
    have hp := C30_threads g maxx _ nb 1 _ _ hb Nat.one_pos hf hf1 hc h1
    refine (hp.map _).trans ?_
    rw [← C123_rows p, hg, List.map_map, List.map_map]
    rfl

/-- C123. There is at least one row to be searched, and all are rows of the source grid. -/
theorem C123_nonempty (hy : yMin p < yMax p) (hn : 0 < p.ny1) :
    0 ≤ (rows p).1 ∧ (rows p).1 ≤ (rows p).2 ∧ (rows p).2 < (p.ny1 : Int) := by
  obtain ⟨s1, s2, s3, s4⟩ := scan_spec (yMin p) (yMax p) p.lat1 p.nx1 p.ny1
  have hs1 : (scan (yMin p) (yMax p) p.lat1 p.nx1 p.ny1).1 ≤ (p.ny1 : Int) := by
    rcases s3 with h | ⟨j, hj, _, _, _, h⟩ <;> omega
  have hs0 : -1 ≤ (scan (yMin p) (yMax p) p.lat1 p.nx1 p.ny1).2 := by
    rcases s4 with h | ⟨j, hj, _, _, _, h⟩ <;> omega
  have hs : ∀ j ≤ p.ny1, (scan (yMin p) (yMax p) p.lat1 p.nx1 p.ny1).1 ≤ (j : Int) ∨
      (j : Int) ≤ (scan (yMin p) (yMax p) p.lat1 p.nx1 p.ny1).2 := by
    intro j hj
    rcases lt_or_ge (yMin p) (p.lat1 (j * (p.nx1 + 1) + 0)) with h | h
    · exact .inl (s1 j hj 0 (Nat.zero_le _) h)
    · exact .inr (s2 j hj 0 (Nat.zero_le _) (lt_of_le_of_lt h hy))
  unfold rows
  generalize scan (yMin p) (yMax p) p.lat1 p.nx1 p.ny1 = s at hs1 hs0 hs
  unfold clampRows
  dsimp only
  by_cases hc : s.2 + 1 ≤ (p.ny1 : Int)
  · have := hs (s.2 + 1).toNat (by omega)
    omega
  · omega

end cpu

/-! ### The GPU version -/
section gpu
variable {K β : Type} [Field K] [LinearOrder K] [IsStrictOrderedRing K] [FloorRing K] (p : Pair K β)

theorem toInt_le {x : K} (h : 0 ≤ x ∨ ∃ n : Int, x = n) : ((toInt x : Int) : K) ≤ x := by
  unfold toInt
  split_ifs with h0
  · exact Int.floor_le x
  · rcases h with h | ⟨n, rfl⟩
    · exact absurd h h0
    · rw [Int.ceil_intCast]

theorem le_toInt {x : K} (h : x ≤ 0 ∨ ∃ n : Int, x = n) : x ≤ ((toInt x : Int) : K) := by
  unfold toInt
  split_ifs with h0
  · rcases h with h | ⟨n, rfl⟩
    · have : x = 0 := le_antisymm h h0
      rw [this, Int.floor_zero]; simp
    · rw [Int.floor_intCast]
  · exact Int.le_ceil x

/-- C123, GPU version. Nothing is lost if the bounds of the target grid in radians survive the conversion to whole
numbers. Missing: target grids that reach from south to north of the equator. -/
theorem C123_gpu_partial (h1 : 0 ≤ yMin p ∨ ∃ n : Int, yMin p = n) (h2 : yMax p ≤ 0 ∨ ∃ n : Int, yMax p = n) :
    (hitList (slice p (rowsGpu p).1 ((rowsGpu p).2 - (rowsGpu p).1 + 1))).map (shift (rowsGpu p).1) = pairList p := by
  refine slice_hitList p _ _ (by unfold rowsGpu clampRows; dsimp only; omega)
    (by unfold rowsGpu clampRows; dsimp only; omega) ?_
  intro j hj ho i hi ij hij
  unfold hit
  rw [near_outside p (toInt_le h1) (le_toInt h2) hi hj hij ho]
  rfl

/-- C123, GPU version: the rows near the poles are left out for every target grid that reaches beyond one radian
(57.3 degrees). A row is skipped as soon as it and the rows before it are south of one radian south, or it and the rows
behind it are north of one radian north, with one more row as margin. -/
theorem C123_gpu_wrong :
    (∀ j : Nat, j + 2 ≤ p.ny1 → -2 < yMin p → yMin p ≤ -1 →
      (∀ j' ≤ j + 1, ∀ i ≤ p.nx1, p.lat1 (j' * (p.nx1 + 1) + i) ≤ -1) → (j : Int) < (rowsGpu p).1) ∧
    (∀ j : Nat, 0 < j → j < p.ny1 → 1 ≤ yMax p → yMax p < 2 →
      (∀ j' ≤ p.ny1, j ≤ j' + 1 → ∀ i ≤ p.nx1, 1 ≤ p.lat1 (j' * (p.nx1 + 1) + i)) → (rowsGpu p).2 < (j : Int)) := by
  constructor
  · intro j hj h1 h2 hrow
    have ht : toInt (yMin p) = -1 := by
      unfold toInt
      rw [if_neg (by intro h; linarith), Int.ceil_eq_iff]
      constructor <;> push_cast <;> linarith
    obtain ⟨_, _, s3, _⟩ := scan_spec ((toInt (yMin p) : Int) : K) ((toInt (yMax p) : Int) : K) p.lat1 p.nx1 p.ny1
    unfold rowsGpu clampRows
    dsimp only
    rcases s3 with h | ⟨j', _, i, hi, hl, h⟩
    · omega
    · have : j + 1 < j' := by
        by_contra hc
        have := hrow j' (by omega) i hi
        rw [ht] at hl
        push_cast at hl
        linarith
      omega
  · intro j hp hj h1 h2 hrow
    have ht : toInt (yMax p) = 1 := by
      unfold toInt
      rw [if_pos (by linarith), Int.floor_eq_iff]
      constructor <;> push_cast <;> linarith
    obtain ⟨_, _, _, s4⟩ := scan_spec ((toInt (yMin p) : Int) : K) ((toInt (yMax p) : Int) : K) p.lat1 p.nx1 p.ny1
    unfold rowsGpu clampRows
    dsimp only
    rcases s4 with h | ⟨j', hj', i, hi, hl, h⟩
    · omega
    · have : j' + 1 < j := by
        by_contra hc
        have := hrow j' hj' (by omega) i hi
        rw [ht] at hl
        push_cast at hl
        linarith
      omega

/-! ### Examples -/

/-- Source grid: one column of twelve cells from 1.5 radians south to 1.5 radians north; target grid: one cell of the
same extent. All cells overlap. -/
def rrGlobe : Pair ℚ Unit where
  nx1 := 1
  ny1 := 12
  nx2 := 1
  ny2 := 1
  lat1 := fun n => -(3 / 2) + ((n / 2 : Nat) : ℚ) / 4
  lat2 := fun n => -(3 / 2) + ((n / 2 : Nat) : ℚ) * 3
  lonNear := fun _ _ _ => true
  clip := fun _ _ _ => some ()

/-- C123, GPU version: three of twelve exchange cells of a global grid are lost. -/
theorem C123_gpu_lost_wrong : ∃ p : Pair ℚ Unit, (pairList p).length = 12 ∧ (∀ j < p.ny1, RowUsed p j) ∧
    (hitList (slice p (rowsGpu p).1 ((rowsGpu p).2 - (rowsGpu p).1 + 1))).map (shift (rowsGpu p).1) =
      (pairList p).filter (fun c => decide (2 ≤ c.j1 ∧ c.j1 ≤ 10)) := by
  refine ⟨rrGlobe, by decide +kernel, ?_, by decide +kernel⟩
  intro j hj
  have : ∀ j < 12, hit rrGlobe 0 j 0 ≠ none := by decide +kernel
  exact ⟨0, by decide, 0, by decide, this j hj⟩

/-- The hypotheses of `C123_gpu_wrong` hold for this grid. -/
example : (1 : Int) < (rowsGpu rrGlobe).1 ∧ (rowsGpu rrGlobe).2 < 11 := by
  constructor
  · refine (C123_gpu_wrong rrGlobe).1 1 (by decide) (by decide +kernel) (by decide +kernel) (by decide +kernel)
  · refine (C123_gpu_wrong rrGlobe).2 11 (by decide) (by decide) (by decide +kernel) (by decide +kernel) (by decide +kernel)

/-- A target grid in the north: rows 0 to 6 of the source grid are left out and nothing is lost. -/
def rrNorth : Pair ℚ Unit := { rrGlobe with lat2 := fun n => 1 / 4 + ((n / 2 : Nat) : ℚ) }

example : rows rrNorth = (7, 11) ∧ yMin rrNorth < yMax rrNorth ∧ pairList rrNorth =
    [⟨0, 7, 0, 0, ()⟩, ⟨0, 8, 0, 0, ()⟩, ⟨0, 9, 0, 0, ()⟩, ⟨0, 10, 0, 0, ()⟩] := by
  refine ⟨by decide +kernel, by decide +kernel, by decide +kernel⟩

def rrSched : List Nat := (List.range 6).flatMap fun _ => [1, 0]

example : Finishes (slice rrNorth (rows rrNorth).1 ((rows rrNorth).2 - (rows rrNorth).1 + 1)) 2 rrSched ∧
    ((setupTile rrNorth 1000 2 rrSched).toOption.map List.length) = some 4 := by
  unfold Finishes
  decide +kernel

/-- `C123_gpu_partial` for a target grid between the equator and one radian north. -/
def rrTropics : Pair ℚ Unit := { rrGlobe with lat2 := fun n => 1 / 4 + ((n / 2 : Nat) : ℚ) * (3 / 4) }

example : (0 ≤ yMin rrTropics ∨ ∃ n : Int, yMin rrTropics = n) ∧ (yMax rrTropics ≤ 0 ∨ ∃ n : Int, yMax rrTropics = n) ∧
    (pairList rrTropics).length = 3 := by
  refine ⟨.inl (by decide +kernel), .inr ⟨1, by decide +kernel⟩, by decide +kernel⟩

end gpu
end Verif.RowRange
