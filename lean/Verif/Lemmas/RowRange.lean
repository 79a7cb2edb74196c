import Verif.Spec.RowRange
import Verif.Lemmas.XGrid
import Mathlib.Tactic.Linarith
/-
Lemmas about the choice of rows.
-/
namespace Verif.RowRange
open Verif.Spec

variable {K : Type} [LinearOrder K]

theorem foldl_min_le (f : Nat → K) : ∀ (l : List Nat) (m : K),
    l.foldl (fun m k => min m (f k)) m ≤ m ∧ ∀ k ∈ l, l.foldl (fun m k => min m (f k)) m ≤ f k
  | [], m => ⟨le_refl _, by simp⟩
  | a :: l, m => by
    obtain ⟨h1, h2⟩ := foldl_min_le f l (min m (f a))
    refine ⟨h1.trans (min_le_left _ _), ?_⟩
    intro k hk
    rcases List.mem_cons.1 hk with rfl | hk
    · exact h1.trans (min_le_right _ _)
    · exact h2 k hk

theorem le_foldl_max (f : Nat → K) : ∀ (l : List Nat) (m : K),
    m ≤ l.foldl (fun m k => max m (f k)) m ∧ ∀ k ∈ l, f k ≤ l.foldl (fun m k => max m (f k)) m
  | [], m => ⟨le_refl _, by simp⟩
  | a :: l, m => by
    obtain ⟨h1, h2⟩ := le_foldl_max f l (max m (f a))
    refine ⟨(le_max_left _ _).trans h1, ?_⟩
    intro k hk
    rcases List.mem_cons.1 hk with rfl | hk
    · exact (le_max_right _ _).trans h1
    · exact h2 k hk

theorem foldl_min_mem (f : Nat → K) : ∀ (l : List Nat) (m : K),
    l.foldl (fun m k => min m (f k)) m = m ∨ ∃ k ∈ l, l.foldl (fun m k => min m (f k)) m = f k
  | [], m => .inl rfl
  | a :: l, m => by
    rcases foldl_min_mem f l (min m (f a)) with h | ⟨k, hk, h⟩
    · rcases min_choice m (f a) with e | e
      · left; simp only [List.foldl_cons]; rw [h, e]
      · right; exact ⟨a, by simp, by simp only [List.foldl_cons]; rw [h, e]⟩
    · right; exact ⟨k, List.mem_cons_of_mem _ hk, h⟩

theorem foldl_max_mem (f : Nat → K) : ∀ (l : List Nat) (m : K),
    l.foldl (fun m k => max m (f k)) m = m ∨ ∃ k ∈ l, l.foldl (fun m k => max m (f k)) m = f k
  | [], m => .inl rfl
  | a :: l, m => by
    rcases foldl_max_mem f l (max m (f a)) with h | ⟨k, hk, h⟩
    · rcases max_choice m (f a) with e | e
      · left; simp only [List.foldl_cons]; rw [h, e]
      · right; exact ⟨a, by simp, by simp only [List.foldl_cons]; rw [h, e]⟩
    · right; exact ⟨k, List.mem_cons_of_mem _ hk, h⟩

theorem minval_le (f : Nat → K) {n k : Nat} (h : k < n) : minval f n ≤ f k :=
  (foldl_min_le f _ _).2 k (List.mem_range.2 h)

theorem le_maxval (f : Nat → K) {n k : Nat} (h : k < n) : f k ≤ maxval f n :=
  (le_foldl_max f _ _).2 k (List.mem_range.2 h)

theorem minval_mem (f : Nat → K) {n : Nat} (h : 0 < n) : ∃ k < n, minval f n = f k := by
  rcases foldl_min_mem f (List.range n) (f 0) with e | ⟨k, hk, e⟩
  · exact ⟨0, h, e⟩
  · exact ⟨k, List.mem_range.1 hk, e⟩

theorem maxval_mem (f : Nat → K) {n : Nat} (h : 0 < n) : ∃ k < n, maxval f n = f k := by
  rcases foldl_max_mem f (List.range n) (f 0) with e | ⟨k, hk, e⟩
  · exact ⟨0, h, e⟩
  · exact ⟨k, List.mem_range.1 hk, e⟩

/-- The corners of a cell are points of the grid; in which row they are. -/
theorem corner_eq (nx i j k : Nat) :
    ∃ i' j', corner nx i j k = j' * (nx + 1) + i' ∧ i ≤ i' ∧ i' ≤ i + 1 ∧ j ≤ j' ∧ j' ≤ j + 1 := by
  match k with
  | 0 => exact ⟨i, j, rfl, by omega, by omega, by omega, by omega⟩
  | 1 => exact ⟨i + 1, j, rfl, by omega, by omega, by omega, by omega⟩
  | 2 => exact ⟨i + 1, j + 1, rfl, by omega, by omega, by omega, by omega⟩
  | k + 3 => exact ⟨i, j + 1, rfl, by omega, by omega, by omega, by omega⟩

theorem corner_lt {nx ny i j : Nat} (hi : i < nx) (hj : j < ny) (k : Nat) :
    corner nx i j k < (nx + 1) * (ny + 1) := by
  obtain ⟨i', j', e, h1, h2, h3, h4⟩ := corner_eq nx i j k
  rw [e]
  have : j' * (nx + 1) + (nx + 1) ≤ (ny + 1) * (nx + 1) := by
    rw [← Nat.succ_mul]; exact Nat.mul_le_mul_right _ (by omega)
  rw [Nat.mul_comm (nx + 1)]
  omega

/-! ### scan -/

theorem scan_fold (yMin yMax : K) (v : Nat × Nat → K) : ∀ (l : List (Nat × Nat)) (s : Int × Int),
    let r := l.foldl (fun (s : Int × Int) q => (if v q > yMin then min s.1 (q.1 : Int) else s.1,
      if v q < yMax then max s.2 (q.1 : Int) else s.2)) s
    (r.1 ≤ s.1 ∧ ∀ q ∈ l, v q > yMin → r.1 ≤ (q.1 : Int)) ∧
    (s.2 ≤ r.2 ∧ ∀ q ∈ l, v q < yMax → (q.1 : Int) ≤ r.2) ∧
    (r.1 = s.1 ∨ ∃ q ∈ l, v q > yMin ∧ r.1 = (q.1 : Int)) ∧
    (r.2 = s.2 ∨ ∃ q ∈ l, v q < yMax ∧ r.2 = (q.1 : Int))
  | [], s => by simp
  | a :: l, s => by
    intro r
    obtain ⟨⟨h1, h2⟩, ⟨h3, h4⟩, h5, h6⟩ := scan_fold yMin yMax v l
      (if v a > yMin then min s.1 (a.1 : Int) else s.1, if v a < yMax then max s.2 (a.1 : Int) else s.2)
    have hr : r = l.foldl (fun (s : Int × Int) q => (if v q > yMin then min s.1 (q.1 : Int) else s.1,
      if v q < yMax then max s.2 (q.1 : Int) else s.2))
      (if v a > yMin then min s.1 (a.1 : Int) else s.1, if v a < yMax then max s.2 (a.1 : Int) else s.2) := rfl
    rw [← hr] at h1 h2 h3 h4 h5 h6
    clear_value r
    dsimp only at h1 h3 h5 h6
    refine ⟨⟨?_, ?_⟩, ⟨?_, ?_⟩, ?_, ?_⟩
    · split_ifs at h1 <;> omega
    · intro q hq hv
      rcases List.mem_cons.1 hq with rfl | hq
      · rw [if_pos hv] at h1; exact h1.trans (min_le_right _ _)
      · exact h2 q hq hv
    · split_ifs at h3 <;> omega
    · intro q hq hv
      rcases List.mem_cons.1 hq with rfl | hq
      · rw [if_pos hv] at h3; exact (le_max_right _ _).trans h3
      · exact h4 q hq hv
    · rcases h5 with h5 | ⟨q, hq, h, e⟩
      · by_cases hv : v a > yMin
        · rw [if_pos hv] at h5
          rcases min_choice s.1 (a.1 : Int) with e | e
          · left; omega
          · right; exact ⟨a, by simp, hv, by omega⟩
        · rw [if_neg hv] at h5; exact .inl h5
      · exact .inr ⟨q, List.mem_cons_of_mem _ hq, h, e⟩
    · rcases h6 with h6 | ⟨q, hq, h, e⟩
      · by_cases hv : v a < yMax
        · rw [if_pos hv] at h6
          rcases max_choice s.2 (a.1 : Int) with e | e
          · left; omega
          · right; exact ⟨a, by simp, hv, by omega⟩
        · rw [if_neg hv] at h6; exact .inl h6
      · exact .inr ⟨q, List.mem_cons_of_mem _ hq, h, e⟩

def points (nx ny : Nat) : List (Nat × Nat) :=
  (List.range (ny + 1)).flatMap fun j => (List.range (nx + 1)).map fun i => (j, i)

theorem mem_points {nx ny : Nat} {q : Nat × Nat} : q ∈ points nx ny ↔ q.1 ≤ ny ∧ q.2 ≤ nx := by
  obtain ⟨j, i⟩ := q
  simp only [points, List.mem_flatMap, List.mem_range, List.mem_map, Prod.mk.injEq]
  constructor
  · rintro ⟨j', h, i', h', rfl, rfl⟩; exact ⟨by omega, by omega⟩
  · rintro ⟨h, h'⟩; exact ⟨j, by omega, i, by omega, rfl, rfl⟩

theorem scan_eq (yMin yMax : K) (lat : Nat → K) (nx ny : Nat) :
    scan yMin yMax lat nx ny = (points nx ny).foldl (fun (s : Int × Int) q =>
      (if lat (q.1 * (nx + 1) + q.2) > yMin then min s.1 (q.1 : Int) else s.1,
        if lat (q.1 * (nx + 1) + q.2) < yMax then max s.2 (q.1 : Int) else s.2)) ((ny : Int), -1) := by
  simp only [scan, points, List.foldl_flatMap, List.foldl_map]

/-- What `scan` finds. -/
theorem scan_spec (yMin yMax : K) (lat : Nat → K) (nx ny : Nat) :
    (∀ j ≤ ny, ∀ i ≤ nx, lat (j * (nx + 1) + i) > yMin → (scan yMin yMax lat nx ny).1 ≤ (j : Int)) ∧
    (∀ j ≤ ny, ∀ i ≤ nx, lat (j * (nx + 1) + i) < yMax → (j : Int) ≤ (scan yMin yMax lat nx ny).2) ∧
    ((scan yMin yMax lat nx ny).1 = ny ∨
      ∃ j ≤ ny, ∃ i ≤ nx, lat (j * (nx + 1) + i) > yMin ∧ (scan yMin yMax lat nx ny).1 = (j : Int)) ∧
    ((scan yMin yMax lat nx ny).2 = -1 ∨
      ∃ j ≤ ny, ∃ i ≤ nx, lat (j * (nx + 1) + i) < yMax ∧ (scan yMin yMax lat nx ny).2 = (j : Int)) := by
  have h := scan_fold yMin yMax (fun q => lat (q.1 * (nx + 1) + q.2)) (points nx ny) ((ny : Int), -1)
  rw [← scan_eq] at h
  obtain ⟨⟨_, h1⟩, ⟨_, h2⟩, h3, h4⟩ := h
  refine ⟨fun j hj i hi hl => h1 (j, i) (mem_points.2 ⟨hj, hi⟩) hl,
    fun j hj i hi hl => h2 (j, i) (mem_points.2 ⟨hj, hi⟩) hl, ?_, ?_⟩
  · rcases h3 with h | ⟨q, hq, h, e⟩
    · exact .inl h
    · exact .inr ⟨q.1, (mem_points.1 hq).1, q.2, (mem_points.1 hq).2, h, e⟩
  · rcases h4 with h | ⟨q, hq, h, e⟩
    · exact .inl h
    · exact .inr ⟨q.1, (mem_points.1 hq).1, q.2, (mem_points.1 hq).2, h, e⟩

/-! ### Rows that are left out -/

variable {β : Type} (p : Pair K β)

theorem yMin_le {ij : Nat} (h : ij < p.nx2 * p.ny2) : yMin p ≤ cellMin p.lat2 p.nx2 (ij % p.nx2) (ij / p.nx2) ∧
    cellMax p.lat2 p.nx2 (ij % p.nx2) (ij / p.nx2) ≤ yMax p := by
  have hn : 0 < p.nx2 := by
    rcases Nat.eq_zero_or_pos p.nx2 with h0 | h0
    · rw [h0] at h; omega
    · exact h0
  have hi : ij % p.nx2 < p.nx2 := Nat.mod_lt _ hn
  have hj : ij / p.nx2 < p.ny2 := Nat.div_lt_of_lt_mul h
  constructor
  · obtain ⟨k, _, e⟩ := minval_mem (fun k => p.lat2 (corner p.nx2 (ij % p.nx2) (ij / p.nx2) k)) (n := 4) (by omega)
    unfold cellMin
    rw [e]
    exact minval_le _ (corner_lt hi hj k)
  · obtain ⟨k, _, e⟩ := maxval_mem (fun k => p.lat2 (corner p.nx2 (ij % p.nx2) (ij / p.nx2) k)) (n := 4) (by omega)
    unfold cellMax
    rw [e]
    exact le_maxval _ (corner_lt hi hj k)

/-- Rows outside the range contribute nothing, for all bounds at least as wide as the target grid. -/
theorem near_outside {lo hi : K} (hlo : lo ≤ yMin p) (hhi : yMax p ≤ hi) {i j ij : Nat} (hi1 : i < p.nx1)
    (hj1 : j < p.ny1) (hij : ij < p.nx2 * p.ny2)
    (hout : (j : Int) < (clampRows p.ny1 (scan lo hi p.lat1 p.nx1 p.ny1)).1 ∨
      (clampRows p.ny1 (scan lo hi p.lat1 p.nx1 p.ny1)).2 < (j : Int)) : near p i j ij = false := by
  obtain ⟨s1, s2, _, _⟩ := scan_spec lo hi p.lat1 p.nx1 p.ny1
  obtain ⟨b1, b2⟩ := yMin_le p hij
  unfold near
  rw [if_pos]
  unfold clampRows at hout
  dsimp only at hout
  rcases hout with h | h
  · left
    have h' : ((j + 1 : Nat) : Int) < (scan lo hi p.lat1 p.nx1 p.ny1).1 := by push_cast; omega
    obtain ⟨k, _, e⟩ := maxval_mem (fun k => p.lat1 (corner p.nx1 i j k)) (n := 4) (by omega)
    unfold cellMax
    rw [e]
    obtain ⟨i', j', ec, c1, c2, c3, c4⟩ := corner_eq p.nx1 i j k
    rw [ec]
    refine le_trans ?_ (hlo.trans b1)
    by_contra hc
    have := s1 j' (by omega) i' (by omega) (not_le.1 hc)
    omega
  · right
    have h' : (scan lo hi p.lat1 p.nx1 p.ny1).2 < (j : Int) := by omega
    obtain ⟨k, _, e⟩ := minval_mem (fun k => p.lat1 (corner p.nx1 i j k)) (n := 4) (by omega)
    unfold cellMin
    rw [e]
    obtain ⟨i', j', ec, c1, c2, c3, c4⟩ := corner_eq p.nx1 i j k
    rw [ec]
    refine (b2.trans hhi).trans ?_
    by_contra hc
    have := s2 j' (by omega) i' (by omega) (not_le.1 hc)
    omega

theorem flatMap_window {α : Type} (R : Nat → List α) (js n ny : Nat) (hle : js + n ≤ ny ∨ n = 0)
    (h : ∀ j < ny, j < js ∨ js + n ≤ j → R j = []) :
    (List.range n).flatMap (fun j => R (j + js)) = (List.range ny).flatMap R := by
  rcases hle with hle | rfl
  · obtain ⟨m, rfl⟩ := Nat.exists_eq_add_of_le hle
    rw [List.range_add, List.range_add, List.flatMap_append, List.flatMap_append]
    have e1 : (List.range js).flatMap R = [] := by
      rw [List.flatMap_eq_nil_iff]
      intro j hj
      exact h j (by have := List.mem_range.1 hj; omega) (.inl (List.mem_range.1 hj))
    have e2 : ((List.range m).map (fun x => js + n + x)).flatMap R = [] := by
      rw [List.flatMap_eq_nil_iff]
      intro j hj
      obtain ⟨x, hx, rfl⟩ := List.mem_map.1 hj
      have := List.mem_range.1 hx
      exact h _ (by omega) (.inr (by omega))
    rw [e1, e2, List.flatMap_map, List.nil_append, List.append_nil]
    congr 1
    funext j
    rw [Nat.add_comm]
  · symm
    simp only [List.range_zero, List.flatMap_nil]
    rw [List.flatMap_eq_nil_iff]
    intro j hj
    exact h j (List.mem_range.1 hj) (by omega)

/-- If the rows left out contribute nothing, nothing is lost. -/
theorem slice_hitList (js je : Int) (h0 : 0 ≤ js) (he : je ≤ (p.ny1 : Int) - 1)
    (h : ∀ j < p.ny1, ((j : Int) < js ∨ je < (j : Int)) → ∀ i < p.nx1, ∀ ij < p.nx2 * p.ny2, hit p i j ij = none) :
    (hitList (slice p js (je - js + 1))).map (shift js) = pairList p := by
  have hw := flatMap_window (fun j1 => (List.range p.nx1).flatMap fun i1 =>
    (List.range (p.nx2 * p.ny2)).filterMap fun ij =>
      (hit p i1 j1 ij).map (XGrid.Cell.mk i1 j1 (ij % p.nx2) (ij / p.nx2)))
      js.toNat (je - js + 1).toNat p.ny1 (by omega) (by
        intro j hj ho
        rw [List.flatMap_eq_nil_iff]
        intro i hi
        rw [List.filterMap_eq_nil_iff]
        intro ij hij
        rw [h j hj (by omega) i (List.mem_range.1 hi) ij (List.mem_range.1 hij)]
        rfl)
  unfold pairList
  rw [← hw]
  simp only [hitList, slice, List.map_flatMap, if_true, List.map_filterMap, Option.map_map]
  rfl

end Verif.RowRange
