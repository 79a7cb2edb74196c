import Verif.Model.CouplerRows
import Verif.Spec.CouplerRows
import Verif.Props.Decomposition
import Mathlib.Tactic.SplitIfs
import Mathlib.Tactic.Linarith
/-
Lemmas about the row search of make_coupler_mosaic.
-/
namespace Verif.CouplerRows
open Verif.Spec Verif.Spec.Rows

variable {K : Type*} [Field K] [LinearOrder K]

theorem mem_corners {nx : Nat} {y : Nat → K} {c : Nat} {v : K} : v ∈ corners nx y c ↔ CornerLat nx y c v := by
  unfold corners CornerLat
  simp only [List.mem_cons, List.not_mem_nil, or_false]
  constructor
  · rintro (h | h | h | h)
    · exact ⟨0, 0, by omega, by omega, by simpa using h⟩
    · exact ⟨0, 1, by omega, by omega, by simpa [Nat.add_assoc] using h⟩
    · exact ⟨1, 1, by omega, by omega, by simpa [Nat.add_assoc] using h⟩
    · exact ⟨1, 0, by omega, by omega, by simpa using h⟩
  · rintro ⟨dj, di, h1, h2, h⟩
    have a : dj = 0 ∨ dj = 1 := by omega
    have b : di = 0 ∨ di = 1 := by omega
    rcases a with rfl | rfl <;> rcases b with rfl | rfl
    · left; simpa using h
    · right; left; simpa [Nat.add_assoc] using h
    · right; right; right; simpa using h
    · right; right; left; simpa [Nat.add_assoc] using h

theorem foldl_min_le (l : List K) (m : K) : l.foldl (fun m x => if x < m then x else m) m ≤ m
    ∧ ∀ x ∈ l, l.foldl (fun m x => if x < m then x else m) m ≤ x := by
  induction l generalizing m with
  | nil => simp
  | cons a l ih =>
    simp only [List.foldl_cons, List.mem_cons, forall_eq_or_imp]
    have h := ih (if a < m then a else m)
    have h1 : (if a < m then a else m) ≤ m ∧ (if a < m then a else m) ≤ a := by
      split_ifs with h
      · exact ⟨h.le, le_refl _⟩
      · exact ⟨le_refl _, not_lt.mp h⟩
    exact ⟨h.1.trans h1.1, h.1.trans h1.2, h.2⟩

theorem foldl_min_mem (l : List K) (m : K) : l.foldl (fun m x => if x < m then x else m) m = m
    ∨ l.foldl (fun m x => if x < m then x else m) m ∈ l := by
  induction l generalizing m with
  | nil => simp
  | cons a l ih =>
    simp only [List.foldl_cons, List.mem_cons]
    rcases ih (if a < m then a else m) with h | h
    · rw [h]; split_ifs <;> simp
    · right; right; exact h

theorem foldl_max_ge (l : List K) (m : K) : m ≤ l.foldl (fun m x => if x > m then x else m) m
    ∧ ∀ x ∈ l, x ≤ l.foldl (fun m x => if x > m then x else m) m := by
  induction l generalizing m with
  | nil => simp
  | cons a l ih =>
    simp only [List.foldl_cons, List.mem_cons, forall_eq_or_imp]
    have h := ih (if a > m then a else m)
    have h1 : m ≤ (if a > m then a else m) ∧ a ≤ (if a > m then a else m) := by
      split_ifs with h
      · exact ⟨h.le, le_refl _⟩
      · exact ⟨le_refl _, not_lt.mp h⟩
    exact ⟨h1.1.trans h.1, h1.2.trans h.1, h.2⟩

theorem foldl_max_mem (l : List K) (m : K) : l.foldl (fun m x => if x > m then x else m) m = m
    ∨ l.foldl (fun m x => if x > m then x else m) m ∈ l := by
  induction l generalizing m with
  | nil => simp
  | cons a l ih =>
    simp only [List.foldl_cons, List.mem_cons]
    rcases ih (if a > m then a else m) with h | h
    · rw [h]; split_ifs <;> simp
    · right; right; exact h

theorem minval_spec {l : List K} (h : l ≠ []) : minval l ∈ l ∧ ∀ x ∈ l, minval l ≤ x := by
  cases l with
  | nil => exact absurd rfl h
  | cons a l =>
    simp only [minval, List.mem_cons, forall_eq_or_imp]
    exact ⟨foldl_min_mem l a, foldl_min_le l a⟩

theorem maxval_spec {l : List K} (h : l ≠ []) : maxval l ∈ l ∧ ∀ x ∈ l, x ≤ maxval l := by
  cases l with
  | nil => exact absurd rfl h
  | cons a l =>
    simp only [maxval, List.mem_cons, forall_eq_or_imp]
    exact ⟨foldl_max_mem l a, foldl_max_ge l a⟩

theorem corners_ne {nx : Nat} {y : Nat → K} {c : Nat} : corners nx y c ≠ [] := by simp [corners]

/-- The latitude test lets exactly the overlapping pairs pass. -/
theorem latReject_iff {nx1 nx2 : Nat} {y1 y2 : Nat → K} {c1 c2 : Nat} :
    latReject (corners nx1 y1 c1) (corners nx2 y2 c2) = false ↔ LatOverlap nx1 y1 nx2 y2 c1 c2 := by
  obtain ⟨a1, a2⟩ := minval_spec (corners_ne (nx := nx1) (y := y1) (c := c1))
  obtain ⟨b1, b2⟩ := maxval_spec (corners_ne (nx := nx1) (y := y1) (c := c1))
  obtain ⟨c1', c2'⟩ := minval_spec (corners_ne (nx := nx2) (y := y2) (c := c2))
  obtain ⟨d1, d2⟩ := maxval_spec (corners_ne (nx := nx2) (y := y2) (c := c2))
  unfold latReject LatOverlap
  rw [Bool.or_eq_false_iff, decide_eq_false_iff_not, decide_eq_false_iff_not, ge_iff_le, not_le, not_le]
  constructor
  · rintro ⟨h1, h2⟩
    exact ⟨⟨_, _, mem_corners.mp c1', mem_corners.mp b1, h1⟩, ⟨_, _, mem_corners.mp d1, mem_corners.mp a1, h2⟩⟩
  · rintro ⟨⟨u, v, hu, hv, h⟩, ⟨u', v', hu', hv', h'⟩⟩
    constructor
    · exact lt_of_le_of_lt (c2' u (mem_corners.mpr hu)) (lt_of_lt_of_le h (b2 v (mem_corners.mpr hv)))
    · exact lt_of_le_of_lt (a2 v' (mem_corners.mpr hv')) (lt_of_lt_of_le h' (d2 u' (mem_corners.mpr hu')))

theorem foldl_band (l : List K) (s : K × K) : ((l.foldl bandStep s).1 ≤ s.1 ∧ s.2 ≤ (l.foldl bandStep s).2)
    ∧ ∀ v ∈ l, (l.foldl bandStep s).1 ≤ v ∧ v ≤ (l.foldl bandStep s).2 := by
  induction l generalizing s with
  | nil => simp
  | cons a l ih =>
    simp only [List.foldl_cons, List.mem_cons, forall_eq_or_imp]
    obtain ⟨⟨h1, h2⟩, h3⟩ := ih (bandStep s a)
    have e1 : (bandStep s a).1 ≤ s.1 ∧ (bandStep s a).1 ≤ a := by
      unfold bandStep; dsimp only
      split_ifs with h
      · exact ⟨h.le, le_refl _⟩
      · exact ⟨le_refl _, not_lt.mp h⟩
    have e2 : s.2 ≤ (bandStep s a).2 ∧ a ≤ (bandStep s a).2 := by
      unfold bandStep; dsimp only
      split_ifs with h
      · exact ⟨h.le, le_refl _⟩
      · exact ⟨le_refl _, not_lt.mp h⟩
    exact ⟨⟨h1.trans e1.1, e2.1.trans h2⟩, ⟨h1.trans e1.2, e2.2.trans h2⟩, h3⟩

theorem band_bounds {nx : Nat} {y : Nat → K} {cells : List Nat} {c : Nat} {v : K} (hc : c ∈ cells)
    (hv : CornerLat nx y c v) : (band nx y cells).1 ≤ v ∧ v ≤ (band nx y cells).2 :=
  (foldl_band _ _).2 v (List.mem_flatMap.mpr ⟨c, hc, mem_corners.mpr hv⟩)

theorem mem_points {nx ny : Nat} {p : Nat × Nat} : p ∈ points nx ny ↔ p.1 ≤ ny ∧ p.2 ≤ nx := by
  unfold points
  simp only [List.mem_flatMap, List.mem_range, List.mem_map]
  constructor
  · rintro ⟨j, hj, i, hi, rfl⟩; exact ⟨by simp; omega, by simp; omega⟩
  · rintro ⟨h1, h2⟩; exact ⟨p.1, by omega, p.2, by omega, rfl⟩

theorem foldl_rowAtm (nx : Nat) (y : Nat → K) (lo hi : K) (l : List (Nat × Nat)) (s : Int × Int) :
    ((l.foldl (rowStepAtm nx y lo hi) s).1 ≤ s.1 ∧ s.2 ≤ (l.foldl (rowStepAtm nx y lo hi) s).2)
    ∧ (∀ p ∈ l, lo < y (p.1 * (nx + 1) + p.2) → (l.foldl (rowStepAtm nx y lo hi) s).1 ≤ p.1)
    ∧ (∀ p ∈ l, y (p.1 * (nx + 1) + p.2) < hi → (p.1 : Int) ≤ (l.foldl (rowStepAtm nx y lo hi) s).2) := by
  induction l generalizing s with
  | nil => simp
  | cons a l ih =>
    simp only [List.foldl_cons, List.mem_cons, forall_eq_or_imp]
    obtain ⟨⟨h1, h2⟩, h3, h4⟩ := ih (rowStepAtm nx y lo hi s a)
    have e1 : (rowStepAtm nx y lo hi s a).1 ≤ s.1
        ∧ (lo < y (a.1 * (nx + 1) + a.2) → (rowStepAtm nx y lo hi s a).1 ≤ a.1) := by
      unfold rowStepAtm; dsimp only
      split_ifs with h
      · exact ⟨by omega, fun _ => le_refl _⟩
      · refine ⟨le_refl _, fun hl => ?_⟩
        by_contra hh
        exact h ⟨hl, by omega⟩
    have e2 : s.2 ≤ (rowStepAtm nx y lo hi s a).2
        ∧ (y (a.1 * (nx + 1) + a.2) < hi → (a.1 : Int) ≤ (rowStepAtm nx y lo hi s a).2) := by
      unfold rowStepAtm; dsimp only
      split_ifs with h h
      all_goals first
        | exact ⟨by omega, fun _ => le_refl _⟩
        | (refine ⟨le_refl _, fun hl => ?_⟩
           by_contra hh
           exact h ⟨hl, by omega⟩)
    exact ⟨⟨h1.trans e1.1, e2.1.trans h2⟩, ⟨fun h => h1.trans (e1.2 h), h3⟩, ⟨fun h => (e2.2 h).trans h2, h4⟩⟩

theorem foldl_rowOcn (nx : Nat) (y : Nat → K) (lo hi : K) (l : List (Nat × Nat)) (s : Int × Int) :
    ((l.foldl (rowStepOcn nx y lo hi) s).1 ≤ s.1 ∧ s.2 ≤ (l.foldl (rowStepOcn nx y lo hi) s).2)
    ∧ (∀ p ∈ l, lo < y (p.1 * (nx + 1) + p.2) → y (p.1 * (nx + 1) + p.2) < hi →
        (l.foldl (rowStepOcn nx y lo hi) s).1 ≤ p.1 ∧ (p.1 : Int) ≤ (l.foldl (rowStepOcn nx y lo hi) s).2) := by
  induction l generalizing s with
  | nil => simp
  | cons a l ih =>
    simp only [List.foldl_cons, List.mem_cons, forall_eq_or_imp]
    obtain ⟨⟨h1, h2⟩, h3⟩ := ih (rowStepOcn nx y lo hi s a)
    have e1 : (rowStepOcn nx y lo hi s a).1 ≤ s.1 ∧ s.2 ≤ (rowStepOcn nx y lo hi s a).2
        ∧ (lo < y (a.1 * (nx + 1) + a.2) → y (a.1 * (nx + 1) + a.2) < hi →
            (rowStepOcn nx y lo hi s a).1 ≤ a.1 ∧ (a.1 : Int) ≤ (rowStepOcn nx y lo hi s a).2) := by
      unfold rowStepOcn; dsimp only
      by_cases h : y (a.1 * (nx + 1) + a.2) > lo ∧ y (a.1 * (nx + 1) + a.2) < hi
      · rw [if_pos h]; dsimp only
        refine ⟨?_, ?_, fun _ _ => ⟨?_, ?_⟩⟩ <;> split_ifs <;> omega
      · rw [if_neg h]
        exact ⟨le_refl _, le_refl _, fun h1 h2 => absurd ⟨h1, h2⟩ h⟩
    exact ⟨⟨h1.trans e1.1, e1.2.1.trans h2⟩, fun p q => ⟨h1.trans (e1.2.2 p q).1, (e1.2.2 p q).2.trans h2⟩, h3⟩

/-- The corners of cell `j*nx+i` are points of rows `j` and `j+1`. -/
theorem corner_point {nx ny : Nat} {y : Nat → K} {i j : Nat} {v : K} (hi : i < nx) (hj : j < ny)
    (h : CornerLat nx y (j * nx + i) v) :
    ∃ p ∈ points nx ny, v = y (p.1 * (nx + 1) + p.2) ∧ j ≤ p.1 ∧ p.1 ≤ j + 1 := by
  obtain ⟨dj, di, h1, h2, rfl⟩ := h
  have e1 : (j * nx + i) / nx = j := by
    rw [Nat.mul_comm, Nat.mul_add_div (by omega), Nat.div_eq_of_lt hi, Nat.add_zero]
  have e2 : (j * nx + i) % nx = i := by
    rw [Nat.mul_comm, Nat.mul_add_mod, Nat.mod_eq_of_lt hi]
  rw [e1, e2]
  exact ⟨(j + dj, i + di), mem_points.mpr ⟨by simp; omega, by simp; omega⟩, rfl, by simp, by simp; omega⟩

theorem widen_bounds (ny : Nat) (s : Int × Int) : 0 ≤ (widen ny s).1 ∧ (widen ny s).2 ≤ (ny : Int) - 1 := by
  unfold widen; dsimp only; omega

/-- The rows for atmosphere cells contain every overlapping cell. -/
theorem rowsAtm_covers {nx1 nx2 ny2 : Nat} {y1 y2 : Nat → K} {cells : List Nat} {la i j : Nat} (hla : la ∈ cells)
    (hi : i < nx2) (hj : j < ny2) (h : LatOverlap nx1 y1 nx2 y2 la (j * nx2 + i)) :
    (rowsAtm nx2 ny2 y2 (band nx1 y1 cells)).1 ≤ j ∧ (j : Int) ≤ (rowsAtm nx2 ny2 y2 (band nx1 y1 cells)).2 := by
  obtain ⟨⟨u, v, hu, hv, h⟩, ⟨u', v', hu', hv', h'⟩⟩ := h
  obtain ⟨p, hp, rfl, p1, p2⟩ := corner_point hi hj hu
  obtain ⟨q, hq, rfl, q1, q2⟩ := corner_point hi hj hu'
  have f := foldl_rowAtm nx2 y2 (band nx1 y1 cells).1 (band nx1 y1 cells).2 (points nx2 ny2) ((ny2 : Int), -1)
  have f1 := f.2.1 q hq (lt_of_le_of_lt (band_bounds hla hv').1 h')
  have f2 := f.2.2 p hp (lt_of_lt_of_le h (band_bounds hla hv).2)
  unfold rowsAtm widen
  dsimp only
  omega

/-- The rows for land and wave cells contain every cell with a corner inside the band. -/
theorem rowsOcn_covers {nx1 nx2 ny2 : Nat} {y1 y2 : Nat → K} {cells : List Nat} {i j : Nat}
    (hi : i < nx2) (hj : j < ny2) {u : K} (hu : CornerLat nx2 y2 (j * nx2 + i) u) (h : InBand nx1 y1 cells u) :
    (rowsOcn nx2 ny2 y2 (band nx1 y1 cells)).1 ≤ j ∧ (j : Int) ≤ (rowsOcn nx2 ny2 y2 (band nx1 y1 cells)).2 := by
  obtain ⟨⟨c, hc, v, hv, h⟩, ⟨c', hc', v', hv', h'⟩⟩ := h
  obtain ⟨p, hp, rfl, p1, p2⟩ := corner_point hi hj hu
  have f := (foldl_rowOcn nx2 y2 (band nx1 y1 cells).1 (band nx1 y1 cells).2 (points nx2 ny2) ((ny2 : Int), -1)).2
    p hp (lt_of_le_of_lt (band_bounds hc hv).1 h) (lt_of_lt_of_le h' (band_bounds hc' hv').2)
  unfold rowsOcn widen
  dsimp only
  omega

/-- A loop over a row range visits the same as the loop over all rows if nothing happens outside. -/
theorem rowLoop_flatMap {α : Type*} {ny : Nat} {r : Int × Int} {f : Nat → List α} (h0 : 0 ≤ r.1)
    (h1 : r.2 ≤ (ny : Int) - 1) (hf : ∀ j, j < ny → ¬ (r.1 ≤ j ∧ (j : Int) ≤ r.2) → f j = []) :
    (rowLoop r).flatMap f = (List.range ny).flatMap f := by
  by_cases hr : r.1 ≤ r.2
  · have e : ny = r.1.toNat + ((r.2 - r.1 + 1).toNat + (ny - (r.2 + 1).toNat)) := by omega
    conv_rhs => rw [e, List.range_add, List.range_add]
    simp only [List.flatMap_append, List.map_append, List.map_map]
    have a : (List.range r.1.toNat).flatMap f = [] := by
      rw [List.flatMap_eq_nil_iff]
      intro j hj
      rw [List.mem_range] at hj
      exact hf j (by omega) (by omega)
    have b : ((List.range (ny - (r.2 + 1).toNat)).map
        ((fun x => r.1.toNat + x) ∘ fun x => (r.2 - r.1 + 1).toNat + x)).flatMap f = [] := by
      rw [List.flatMap_eq_nil_iff]
      intro j hj
      rw [List.mem_map] at hj
      obtain ⟨k, hk, rfl⟩ := hj
      rw [List.mem_range] at hk
      simp only [Function.comp]
      exact hf _ (by omega) (by omega)
    rw [a, b, List.nil_append, List.append_nil]
    rfl
  · have e : (r.2 - r.1 + 1).toNat = 0 := by omega
    unfold rowLoop
    rw [e]
    simp only [List.range_zero, List.map_nil, List.flatMap_nil]
    symm
    rw [List.flatMap_eq_nil_iff]
    intro j hj
    rw [List.mem_range] at hj
    exact hf j hj (by omega)

theorem mem_rowLoop {r : Int × Int} (h0 : 0 ≤ r.1) {j : Nat} : j ∈ rowLoop r ↔ r.1 ≤ j ∧ (j : Int) ≤ r.2 := by
  unfold rowLoop
  simp only [List.mem_map, List.mem_range]
  constructor
  · rintro ⟨k, hk, rfl⟩; omega
  · rintro ⟨h1, h2⟩; exact ⟨j - r.1.toNat, by omega, by omega⟩

theorem flatMap_congr_mem {α β : Type*} {l : List α} {f g : α → List β} (h : ∀ a ∈ l, f a = g a) :
    l.flatMap f = l.flatMap g := by
  induction l with
  | nil => rfl
  | cons a l ih =>
    rw [List.flatMap_cons, List.flatMap_cons, h a (by simp), ih fun b hb => h b (by simp [hb])]

/-- The pairs a process examines do not depend on its band. -/
theorem examined_atm (nx1 : Nat) (y1 : Nat → K) (nx2 ny2 : Nat) (y2 : Nat → K) (cells : List Nat) :
    examined rowsAtm nx1 y1 nx2 ny2 y2 cells = cells.flatMap fun la =>
      (List.range ny2).flatMap fun j => (List.range nx2).filterMap fun i =>
        if latReject (corners nx1 y1 la) (corners nx2 y2 (j * nx2 + i)) then none else some (la, j * nx2 + i) := by
  unfold examined
  apply flatMap_congr_mem
  intro la hla
  apply rowLoop_flatMap (widen_bounds _ _).1 (widen_bounds _ _).2
  intro j hj hn
  rw [List.filterMap_eq_nil_iff]
  intro i hi
  rw [List.mem_range] at hi
  cases h : latReject (corners nx1 y1 la) (corners nx2 y2 (j * nx2 + i)) with
  | true => simp
  | false => exact absurd (rowsAtm_covers hla hi hj (latReject_iff.mp h)) hn

theorem cellsOf_partition {lo n : Nat} {ext : List (Int × Int)} (h : OrderedPartition lo ((n : Int) - 1) ext)
    (hle : lo ≤ n) : ext.flatMap cellsOf = (List.range (n - lo)).map fun k => lo + k := by
  induction ext generalizing lo with
  | nil =>
    have : n - lo = 0 := by
      simp only [OrderedPartition] at h
      omega
    simp [this]
  | cons x t ih =>
    obtain ⟨b, e⟩ := x
    simp only [OrderedPartition] at h
    obtain ⟨rfl, h1, h2⟩ := h
    by_cases hn : e + 1 ≤ n
    · have e1 : (e + 1 : Int) = ((e + 1).toNat : Int) := by omega
      rw [e1] at h2
      have := ih h2 (by omega)
      simp only [List.flatMap_cons]
      rw [this]
      have e2 : n - lo = (e - lo + 1).toNat + (n - (e + 1).toNat) := by omega
      rw [e2, List.range_add, List.map_append, List.map_map]
      congr 1
      apply List.map_congr_left
      intro k _
      simp only [Function.comp]
      omega
    · exfalso
      have hp : ∀ (t : List (Int × Int)) (a c : Int), OrderedPartition a c t → a ≤ c + 1 := by
        intro t
        induction t with
        | nil => intro a c h; simp only [OrderedPartition] at h; omega
        | cons x t ih =>
          intro a c h
          obtain ⟨b, e⟩ := x
          simp only [OrderedPartition] at h
          have := ih _ _ h.2.2
          omega
      have := hp t _ _ h2
      omega

end Verif.CouplerRows
