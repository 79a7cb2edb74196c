import Verif.Model.QuickMosaic
import Verif.Spec.QuickMosaic
import Mathlib.Algebra.Order.Ring.Rat
import Mathlib.Algebra.Field.Rat
import Mathlib.Algebra.Order.AbsoluteValue.Basic
import Mathlib.Algebra.Order.BigOperators.Group.List
import Mathlib.Algebra.BigOperators.Group.List.Basic
import Mathlib.Tactic.NormNum
import Mathlib.Tactic.Linarith
import Mathlib.Tactic.Ring
import Mathlib.Tactic.SplitIfs
/-
C75: land and ocean of make_quick_mosaic.
Specification: `Verif/Spec/QuickMosaic.lean`.
-/
namespace Verif

open QuickMosaic Spec.Quick

variable {K : Type} [Field K] [LinearOrder K]

/-- Sum over the elements of `range n` of which only one counts. -/
theorem QuickMosaic.sum_range_single (n i : Nat) (hi : i < n) (f : Nat → K) :
    ((List.range n).map fun k => if k = i then f k else 0).sum = f i := by
  induction n with
  | zero => omega
  | succ n ih =>
    rw [List.range_succ, List.map_append, List.sum_append]
    by_cases h : i = n
    · subst h
      have : ((List.range i).map fun k => if k = i then f k else 0).sum = 0 := by
        apply List.sum_eq_zero
        intro v hv
        obtain ⟨k, hk, rfl⟩ := List.mem_map.mp hv
        rw [List.mem_range] at hk
        rw [if_neg (by omega)]
      simp [this]
    · rw [ih (by omega)]
      simp [Ne.symm h]

theorem QuickMosaic.filterMap_sum {X Y : Type} (xs : List X) (p : X → Option Y) (q : Y → Bool) (f : Y → K) :
    (((xs.filterMap p).filter q).map f).sum
      = (xs.map fun x => ((p x).map fun y => if q y then f y else 0).getD 0).sum := by
  induction xs with
  | nil => rfl
  | cons x xs ih =>
    rw [List.filterMap_cons, List.map_cons, List.sum_cons, ← ih]
    cases p x with
    | none => simp
    | some y =>
      simp only [List.filter_cons]
      cases hq : q y with
      | true => simp [hq]
      | false => simp [hq]

theorem QuickMosaic.flatMap_sum {X Y : Type} (xs : List X) (p : X → List Y) (q : Y → Bool) (f : Y → K) :
    (((xs.flatMap p).filter q).map f).sum = (xs.map fun x => (((p x).filter q).map f).sum).sum := by
  induction xs with
  | nil => rfl
  | cons x xs ih =>
    rw [List.flatMap_cons, List.filter_append, List.map_append, List.sum_append, List.map_cons, List.sum_cons, ih]

/-- C75, the files. A file of exchange cells gives every grid cell the area of the array it was made from, if that
is positive, and nothing otherwise; every exchange cell has the same cell as parent in both grids and a positive
area. -/
theorem C75_listed (nx ny : Nat) (area : Nat → K) :
    SameCell nx ny (xcells nx ny area)
    ∧ (∀ e ∈ xcells nx ny area, 0 < e.2)
    ∧ ∀ i j, i < nx → j < ny → listed (xcells nx ny area) i j = max (area (j * nx + i)) 0 := by
  have hmem : ∀ e ∈ xcells nx ny area, ∃ i j, i < nx ∧ j < ny ∧ e = ((i + 1, j + 1, i + 1, j + 1), area (j * nx + i))
      ∧ 0 < area (j * nx + i) := by
    intro e he
    obtain ⟨j, hj, he⟩ := List.mem_flatMap.mp he
    obtain ⟨i, hi, he⟩ := List.mem_filterMap.mp he
    rw [List.mem_range] at hj hi
    split at he
    · rename_i hpos
      exact ⟨i, j, hi, hj, (Option.some.injEq .. ▸ he).symm, hpos⟩
    · cases he
  refine ⟨?_, ?_, ?_⟩
  · intro e he
    obtain ⟨i, j, hi, hj, rfl, -⟩ := hmem e he
    exact ⟨rfl, rfl, by simp, Nat.succ_le_of_lt hi, by simp, Nat.succ_le_of_lt hj⟩
  · intro e he
    obtain ⟨i, j, hi, hj, rfl, hpos⟩ := hmem e he
    exact hpos
  · intro i j hi hj
    unfold listed xcells
    rw [flatMap_sum]
    have inner : ∀ j', (((List.range nx).filterMap fun i' =>
          if area (j' * nx + i') > 0 then some ((i' + 1, j' + 1, i' + 1, j' + 1), area (j' * nx + i')) else none).filter
            (fun e : (Nat × Nat × Nat × Nat) × K => decide (e.1.1 = i + 1 ∧ e.1.2.1 = j + 1)) |>.map Prod.snd).sum
        = if j' = j then max (area (j' * nx + i)) 0 else 0 := by
      intro j'
      rw [filterMap_sum]
      have e1 : ((List.range nx).map fun i' => ((if area (j' * nx + i') > 0 then
            some ((i' + 1, j' + 1, i' + 1, j' + 1), area (j' * nx + i')) else none).map
              fun y => if decide (y.1.1 = i + 1 ∧ y.1.2.1 = j + 1) = true then y.2 else 0).getD 0)
          = (List.range nx).map fun i' => if i' = i then (if j' = j then max (area (j' * nx + i')) 0 else 0) else 0 := by
        apply List.map_congr_left
        intro i' _
        by_cases h1 : area (j' * nx + i') > 0
        · rw [if_pos h1, max_eq_left h1.le]
          by_cases h2 : i' = i
          · by_cases h3 : j' = j <;> simp [h2, h3]
          · simp [h2]
        · rw [if_neg h1, max_eq_right (not_lt.mp h1)]
          simp
      rw [e1, sum_range_single nx i hi]
    rw [List.map_congr_left fun j' _ => inner j', sum_range_single ny j hj]

/-- C75, ocean topography. If the ocean mask of a cell is 0 or 1, the land and ocean exchange cells make up the cell,
the ocean part being the mask times the cell. Missing: fractional `area_frac`, see `C75_topog_wrong`. -/
theorem C75_topog_partial {nx ny : Nat} {cell omask : Nat → K} (hc : ∀ l, 0 ≤ cell l) {i j : Nat} (hi : i < nx)
    (hj : j < ny) (hm : omask (j * nx + i) = 0 ∨ omask (j * nx + i) = 1) :
    let land := fun l => (fromTopog (cell l) (omask l)).1
    let ocean := fun l => (fromTopog (cell l) (omask l)).2
    listed (xcells nx ny ocean) i j = omask (j * nx + i) * cell (j * nx + i)
    ∧ listed (xcells nx ny land) i j = (1 - omask (j * nx + i)) * cell (j * nx + i) := by
  intro land ocean
  rw [(C75_listed nx ny ocean).2.2 i j hi hj, (C75_listed nx ny land).2.2 i j hi hj]
  simp only [ocean, land, fromTopog]
  rcases hm with h | h
  · rw [h]
    simp [hc]
  · rw [h]
    simp [hc]

/-- The mask from the depth is always 0 or 1, and is 1 where the depth is greater than the sea level. -/
theorem C75_depth_mask (depth seaLevel : K) :
    (depthMask depth seaLevel = 1 ∧ seaLevel < depth) ∨ (depthMask depth seaLevel = 0 ∧ depth ≤ seaLevel) := by
  unfold depthMask
  split
  · rename_i h; exact Or.inl ⟨rfl, h⟩
  · rename_i h; exact Or.inr ⟨rfl, not_lt.mp h⟩

/-- C75 fails for a cell of which half is ocean according to `area_frac`: it becomes all land. -/
theorem C75_topog_wrong :
    listed (xcells 1 1 fun _ => (fromTopog (4 : ℚ) (1 / 2)).2) 0 0 = 0
    ∧ listed (xcells 1 1 fun _ => (fromTopog (4 : ℚ) (1 / 2)).1) 0 0 = 4 := by
  decide +kernel

/-- C75, land fraction. If the land fraction of a cell is between 0 and 1, the land and ocean exchange cells make up
the cell in that proportion. -/
theorem C75_frac [IsStrictOrderedRing K] {nx ny : Nat} {cell lfrac : Nat → K} (hc : ∀ l, 0 ≤ cell l) {i j : Nat}
    (hi : i < nx) (hj : j < ny) (h0 : 0 ≤ lfrac (j * nx + i)) (h1 : lfrac (j * nx + i) ≤ 1) :
    let land := fun l => (fromFrac (cell l) (lfrac l)).1
    let ocean := fun l => (fromFrac (cell l) (lfrac l)).2
    listed (xcells nx ny land) i j = lfrac (j * nx + i) * cell (j * nx + i)
    ∧ listed (xcells nx ny land) i j + listed (xcells nx ny ocean) i j = cell (j * nx + i) := by
  intro land ocean
  rw [(C75_listed nx ny ocean).2.2 i j hi hj, (C75_listed nx ny land).2.2 i j hi hj]
  simp only [ocean, land, fromFrac]
  rw [max_eq_left (mul_nonneg (hc _) h0), max_eq_left (mul_nonneg (hc _) (by linarith))]
  exact ⟨by ring, by ring⟩

/-- A land fraction outside 0 to 1, such as a missing value, is not noticed: more land is listed than there is. -/
theorem C75_frac_wrong :
    listed (xcells 1 1 fun _ => (fromFrac (4 : ℚ) 5).1) 0 0 = 20
    ∧ listed (xcells 1 1 fun _ => (fromFrac (4 : ℚ) 5).2) 0 0 = 0 := by
  decide +kernel

theorem QuickMosaic.landFromXgrid_loop (nx : Nat) (xs : List (Nat × Nat × K)) (s : Nat → K) (l : Nat) :
    xs.foldl (fun s e => Function.update s (e.2.1 * nx + e.1) (s (e.2.1 * nx + e.1) + e.2.2)) s l
      = s l + ((xs.filter fun e => decide (e.2.1 * nx + e.1 = l)).map fun e => e.2.2).sum := by
  induction xs generalizing s with
  | nil => simp
  | cons e es ih =>
    rw [List.foldl_cons, ih, List.filter_cons]
    by_cases h : e.2.1 * nx + e.1 = l
    · subst h
      simp only [Function.update_self, decide_true, if_true, List.map_cons, List.sum_cons]
      ring
    · simp only [Function.update_of_ne (Ne.symm h), h, decide_false, Bool.false_eq_true, if_false]

theorem QuickMosaic.index_inj {nx i i' j j' : Nat} (hi : i < nx) (hi' : i' < nx) (h : j * nx + i = j' * nx + i') :
    i = i' ∧ j = j' := by
  have hq : (j * nx + i) / nx = (j' * nx + i') / nx := by rw [h]
  rw [Nat.mul_comm j, Nat.mul_comm j', Nat.mul_add_div (by omega), Nat.mul_add_div (by omega),
    Nat.div_eq_of_lt hi, Nat.div_eq_of_lt hi', Nat.add_zero, Nat.add_zero] at hq
  subst hq
  omega

/-- C75, coupler mosaic. The land area of a cell is the sum of its exchange cells with the atmosphere. If the program
goes on, the ocean part is not negative; together with the land it makes up the cell, exactly or, when no ocean is
left, to within 1/10000 of the cell. -/
theorem C75_coupler [IsStrictOrderedRing K] {nx ny : Nat} {cell : Nat → K} (hc : ∀ l, 0 < cell l)
    {xs : List (Nat × Nat × K)} (hx : ∀ e ∈ xs, e.1 < nx ∧ e.2.1 < ny ∧ 0 ≤ e.2.2) {ocean : Nat → K}
    (ho : ∀ l, l < nx * ny → oceanFromLand (cell l) (landFromXgrid nx xs l) = some (ocean l))
    {i j : Nat} (hi : i < nx) (hj : j < ny) :
    listed (xcells nx ny (landFromXgrid nx xs)) i j = Spec.Quick.landOf xs i j
    ∧ 0 ≤ listed (xcells nx ny ocean) i j
    ∧ (Spec.Quick.landOf xs i j + listed (xcells nx ny ocean) i j = cell (j * nx + i)
      ∨ (listed (xcells nx ny ocean) i j = 0
        ∧ |Spec.Quick.landOf xs i j - cell (j * nx + i)| < 1 / 10000 * cell (j * nx + i))) := by
  have hl : landFromXgrid nx xs (j * nx + i) = Spec.Quick.landOf xs i j := by
    unfold landFromXgrid Spec.Quick.landOf
    rw [landFromXgrid_loop, zero_add]
    congr 2
    apply List.filter_congr
    intro e he
    rw [decide_eq_decide]
    constructor
    · intro h
      obtain ⟨h1, h2⟩ := index_inj (hx e he).1 hi h
      exact ⟨h1, h2⟩
    · rintro ⟨rfl, rfl⟩; rfl
  have hlin : j * nx + i < nx * ny := by
    calc j * nx + i < j * nx + nx := by omega
      _ = (j + 1) * nx := by rw [Nat.add_mul, Nat.one_mul]
      _ ≤ ny * nx := Nat.mul_le_mul_right _ hj
      _ = nx * ny := Nat.mul_comm _ _
  have hnn : 0 ≤ Spec.Quick.landOf xs i j := by
    unfold Spec.Quick.landOf
    apply List.sum_nonneg
    intro v hv
    obtain ⟨e, he, rfl⟩ := List.mem_map.mp hv
    exact (hx e (List.mem_filter.mp he).1).2.2
  rw [(C75_listed nx ny ocean).2.2 i j hi hj, (C75_listed nx ny _).2.2 i j hi hj, hl]
  refine ⟨max_eq_left hnn, le_max_right _ _, ?_⟩
  have h := ho _ hlin
  rw [hl] at h
  unfold oceanFromLand at h
  simp only at h
  split at h
  · rename_i hin
    rw [if_neg (lt_irrefl _), Option.some.injEq] at h
    rw [← h, max_self]
    refine Or.inr ⟨rfl, ?_⟩
    have := hc (j * nx + i)
    rw [abs_lt]
    constructor <;> linarith [hin.1, hin.2]
  · split at h
    · cases h
    · rename_i hnot
      rw [Option.some.injEq] at h
      rw [← h, max_eq_left (not_lt.mp hnot)]
      exact Or.inl (by ring)

/-- C75, coupler mosaic, when the program stops: exactly when the land of a cell is greater than the cell by 1/10000
of it or more. -/
theorem C75_coupler_stops [IsStrictOrderedRing K] {cell land : K} (hc : 0 < cell) :
    oceanFromLand cell land = none ↔ cell + 1 / 10000 * cell ≤ land := by
  unfold oceanFromLand
  simp only
  constructor
  · intro h
    by_contra hlt
    rw [not_le] at hlt
    split at h
    · rw [if_neg (lt_irrefl _)] at h
      cases h
    · rename_i hn
      split at h
      · apply hn
        constructor <;> linarith
      · cases h
  · intro h
    have : ¬ (cell < land + 1 / 1000000 * cell ∧ cell > land - 1 / 10000 * cell) := by
      rintro ⟨-, h2⟩
      linarith
    rw [if_neg this, if_pos (by linarith)]

/-- The masks written are the parts of the cell that the areas make up. -/
theorem C75_masks {cell land ocean : K} (hc : cell ≠ 0) (h : land + ocean = cell) :
    maskOf cell land + maskOf cell ocean = 1 := by
  unfold maskOf
  rw [← add_div, h, div_self hc]

/- Test: a grid of 2 by 1 cells of area 4; land areas 3 and 4.0001 leave ocean areas 1 and 0. -/
example : oceanFromLand (4 : ℚ) 3 = some 1 ∧ oceanFromLand (4 : ℚ) (40001 / 10000) = some 0
    ∧ oceanFromLand (4 : ℚ) 5 = none
    ∧ landFromXgrid 2 [(0, 0, (1 : ℚ)), (1, 0, 3), (0, 0, 2)] 0 = 3
    ∧ xcells 2 1 (fun l => if l = 0 then (1 : ℚ) else 0) = [((1, 1, 1, 1), 1)] := by
  decide +kernel

end Verif
