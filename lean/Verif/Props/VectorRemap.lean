import Verif.Spec.VectorRemap
import Mathlib.Tactic.Ring
import Mathlib.Tactic.Linarith
import Mathlib.Tactic.LinearCombination
import Mathlib.Tactic.FieldSimp
import Mathlib.Tactic.NormNum
import Mathlib.Algebra.Order.Field.Rat
/-
C119: fregrid remaps vectors as vectors: components along the axes of the input cells become components along the axes of the output cells of the mean of
the vectors.
-/
namespace Verif.VectorRemap
open Verif.Spec.VectorRemap
variable {K : Type} [Field K] [LinearOrder K]

/-! ### Sums -/

theorem sums_eq (miss : K) (nx1 : Nat → Nat) (nx2 : Nat) (d : Nat → Nat → K × K) (n : Nat) (cells : List (XCell K)) (s : Nat → Sums K) :
    cells.foldl (addCell miss nx1 nx2 d) s n =
      let D := fun (c : XCell K) => d c.tile (c.j1 * nx1 c.tile + c.i1)
      let P := parts nx2 n (fun c => (D c).1 ≠ miss ∧ (D c).2 ≠ miss) cells
      ⟨(s n).u + weighted (fun c => (D c).1) P, (s n).v + weighted (fun c => (D c).2) P, (s n).area + total P⟩ := by
  induction cells generalizing s with
  | nil => simp [parts, weighted, total]
  | cons c cells ih =>
    rw [List.foldl_cons, ih]
    simp only
    by_cases h1 : (d c.tile (c.j1 * nx1 c.tile + c.i1)).1 ≠ miss ∧ (d c.tile (c.j1 * nx1 c.tile + c.i1)).2 ≠ miss
    · unfold addCell
      simp only [if_pos h1]
      by_cases h2 : n = c.j2 * nx2 + c.i2
      · simp only [parts, List.filter_cons, h2, h1, weighted, total]
        simp [h1.1, h1.2, add_assoc]
      · have h2' : ¬ (c.j2 * nx2 + c.i2 = n) := fun h => h2 h.symm
        simp only [parts, List.filter_cons, h2', if_neg h2]
        simp
    · unfold addCell
      simp only [if_neg h1]
      simp only [parts, List.filter_cons, h1]
      simp

/-- Turning forth and back -/
theorem back (c s : K) (w : K × K) (h : c * c + s * s = 1) :
    (along c s w).1 * c - (along c s w).2 * s = w.1 ∧ (along c s w).1 * s + (along c s w).2 * c = w.2 := by
  unfold along
  constructor
  · linear_combination w.1 * h
  · linear_combination w.2 * h

theorem along_unit (w : K × K) : along 1 0 w = w := by
  unfold along; simp

/-- The field `w` of vectors (none: missing) as data of the tiles, stored without halo: components along the axes of the cells. -/
def Holds (miss : K) (nx1 : Nat → Nat) (ain : Nat → Angles K) (w : Nat → Nat → Nat → Option (K × K)) (u v : Nat → Nat → K) : Prop :=
  ∀ t j i, i < nx1 t → (u t (j * nx1 t + i), v t (j * nx1 t + i)) =
    match w t j i with
    | some e => along (Angles.c (ain t) (j * nx1 t + i)) (Angles.s (ain t) (j * nx1 t + i)) e
    | none => (miss, miss)

/-- No component of a vector is by chance the missing value. -/
def Distinct (miss : K) (nx1 : Nat → Nat) (ain : Nat → Angles K) (w : Nat → Nat → Nat → Option (K × K)) : Prop :=
  ∀ t j i e, w t j i = some e → e.1 ≠ miss ∧ e.2 ≠ miss ∧
    (along (Angles.c (ain t) (j * nx1 t + i)) (Angles.s (ain t) (j * nx1 t + i)) e).1 ≠ miss ∧
    (along (Angles.c (ain t) (j * nx1 t + i)) (Angles.s (ain t) (j * nx1 t + i)) e).2 ≠ miss

theorem rotateIn_eq {miss : K} {nx1 : Nat → Nat} {ain : Nat → Angles K} {w : Nat → Nat → Nat → Option (K × K)} {u v : Nat → Nat → K}
    (hp : ∀ t, Angles.Proper (ain t)) (hw : Holds miss nx1 ain w u v) (hd : Distinct miss nx1 ain w) {t j i : Nat} (hi : i < nx1 t) :
    rotateIn miss (ain t) (u t) (v t) (j * nx1 t + i) = (match w t j i with | some e => e | none => (miss, miss)) := by
  have h := hw t j i hi
  cases hwt : w t j i with
  | none =>
    rw [hwt] at h
    simp only [Prod.mk.injEq] at h
    unfold rotateIn
    rw [h.1, h.2]
    simp
  | some e =>
    rw [hwt] at h
    obtain ⟨_, _, d3, d4⟩ := hd t j i e hwt
    simp only at h
    rw [← h] at d3 d4
    simp only at d3 d4
    unfold rotateIn
    by_cases hr : (ain t).rotate = true
    · have hc : Angles.c (ain t) (j * nx1 t + i) = (ain t).cos (j * nx1 t + i) := by unfold Angles.c; rw [if_pos hr]
      have hs : Angles.s (ain t) (j * nx1 t + i) = (ain t).sin (j * nx1 t + i) := by unfold Angles.s; rw [if_pos hr]
      rw [hc, hs] at h
      obtain ⟨b1, b2⟩ := back _ _ e (hp t (j * nx1 t + i))
      rw [← h] at b1 b2
      rw [if_pos hr, if_pos ⟨d3, d4⟩]
      exact Prod.ext b1 b2
    · have hc : Angles.c (ain t) (j * nx1 t + i) = 1 := by unfold Angles.c; rw [if_neg hr]
      have hs : Angles.s (ain t) (j * nx1 t + i) = 0 := by unfold Angles.s; rw [if_neg hr]
      rw [hc, hs, along_unit] at h
      rw [if_neg hr, h]

/-- The vector of a cell of the exchange grid, zero if missing -/
def east (w : Nat → Nat → Nat → Option (K × K)) (c : XCell K) : K := ((w c.tile c.j1 c.i1).getD (0, 0)).1
def north (w : Nat → Nat → Nat → Option (K × K)) (c : XCell K) : K := ((w c.tile c.j1 c.i1).getD (0, 0)).2

theorem weighted_congr {f g : XCell K → K} {L : List (XCell K)} (h : ∀ c ∈ L, f c = g c) : weighted f L = weighted g L := by
  unfold weighted
  congr 1
  exact List.map_congr_left (fun c hc => by rw [h c hc])

/-- **C119, the mean of the vectors.** For every field of vectors, angles of the cells, exchange grid and output cell, with first-order data: the result
holds the components along the axes of the output cell of the area-weighted mean of the vectors of those input cells that have data
(divided by the area of the output cell if `--target_grid` is given), and the missing value if no area with data lies in the cell. Partial: components
that are by chance equal to the missing value are excluded, see `C119_no_missing_wrong`. -/
theorem C119_mean_partial {miss : K} {nx1 : Nat → Nat} {ain : Nat → Angles K} {nx2 : Nat} {aout : Angles K} {target : Option (Nat → K)} {cells : List (XCell K)}
    {w : Nat → Nat → Nat → Option (K × K)} {u v : Nat → Nat → K} (hp : ∀ t, Angles.Proper (ain t)) (hw : Holds miss nx1 ain w u v)
    (hd : Distinct miss nx1 ain w) (hi : ∀ c ∈ cells, c.i1 < nx1 c.tile) (n : Nat) :
    let P := parts nx2 n (fun c => (w c.tile c.j1 c.i1).isSome) cells
    let A := match target with | some area => area n | none => total P
    let mean := (weighted (east w) P / A, weighted (north w) P / A)
    (0 < total P → mean.1 ≠ miss → mean.2 ≠ miss → vectorInterp miss nx1 ain nx2 aout target cells u v n = along (Angles.c aout n) (Angles.s aout n) mean) ∧
    (¬ 0 < total P → vectorInterp miss nx1 ain nx2 aout target cells u v n = (miss, miss)) := by
  intro P A mean
  have hD : ∀ c ∈ cells, rotateIn miss (ain c.tile) (u c.tile) (v c.tile) (c.j1 * nx1 c.tile + c.i1) =
      (match w c.tile c.j1 c.i1 with | some e => e | none => (miss, miss)) := fun c hc => rotateIn_eq hp hw hd (hi c hc)
  have hP : parts nx2 n (fun c => decide ((rotateIn miss (ain c.tile) (u c.tile) (v c.tile) (c.j1 * nx1 c.tile + c.i1)).1 ≠ miss ∧
      (rotateIn miss (ain c.tile) (u c.tile) (v c.tile) (c.j1 * nx1 c.tile + c.i1)).2 ≠ miss)) cells = P := by
    unfold P parts
    apply List.filter_congr
    intro c hc
    have hx := hD c hc
    cases hwt : w c.tile c.j1 c.i1 with
    | none =>
      rw [hwt] at hx
      simp [hx, hwt]
    | some e =>
      rw [hwt] at hx
      obtain ⟨d1, d2, _, _⟩ := hd _ _ _ _ hwt
      simp [hx, hwt, d1, d2]
  have hsum := sums_eq miss nx1 nx2 (fun t i => rotateIn miss (ain t) (u t) (v t) i) n cells (fun _ => ⟨0, 0, 0⟩)
  simp only at hsum
  rw [hP] at hsum
  have hmem : ∀ c ∈ P, c ∈ cells ∧ (w c.tile c.j1 c.i1).isSome := by
    intro c hc
    obtain ⟨h1, h2⟩ := List.mem_filter.1 hc
    simp only [decide_eq_true_eq] at h2
    exact ⟨h1, h2.2⟩
  have hE : weighted (fun c => (rotateIn miss (ain c.tile) (u c.tile) (v c.tile) (c.j1 * nx1 c.tile + c.i1)).1) P = weighted (east w) P := by
    apply weighted_congr
    intro c hc
    obtain ⟨h1, h2⟩ := hmem c hc
    rw [hD c h1]
    obtain ⟨e, he⟩ := Option.isSome_iff_exists.1 h2
    rw [he]
    unfold east
    rw [he]; rfl
  have hN : weighted (fun c => (rotateIn miss (ain c.tile) (u c.tile) (v c.tile) (c.j1 * nx1 c.tile + c.i1)).2) P = weighted (north w) P := by
    apply weighted_congr
    intro c hc
    obtain ⟨h1, h2⟩ := hmem c hc
    rw [hD c h1]
    obtain ⟨e, he⟩ := Option.isSome_iff_exists.1 h2
    rw [he]
    unfold north
    rw [he]; rfl
  rw [hE, hN] at hsum
  simp only [zero_add] at hsum
  constructor
  · intro hpos hm1 hm2
    have hav : average miss target (cells.foldl (addCell miss nx1 nx2 (fun t i => rotateIn miss (ain t) (u t) (v t) i)) (fun _ => ⟨0, 0, 0⟩)) n = mean := by
      unfold average
      rw [hsum]
      simp only
      rw [if_pos hpos]
      unfold mean A
      cases target <;> rfl
    unfold vectorInterp
    simp only
    rw [hav]
    unfold rotateOut Angles.c Angles.s
    by_cases hr : aout.rotate = true
    · rw [if_pos hr, if_pos ⟨hm1, hm2⟩, if_pos hr, if_pos hr]; rfl
    · rw [if_neg hr, if_neg hr, if_neg hr, along_unit]
  · intro hpos
    have hav : average miss target (cells.foldl (addCell miss nx1 nx2 (fun t i => rotateIn miss (ain t) (u t) (v t) i)) (fun _ => ⟨0, 0, 0⟩)) n = (miss, miss) := by
      unfold average
      rw [hsum]
      simp only
      rw [if_neg hpos]
    unfold vectorInterp
    simp only
    rw [hav]
    unfold rotateOut
    simp

/-! ### Consequences -/

theorem weighted_const {f : XCell K → K} {x : K} {L : List (XCell K)} (h : ∀ c ∈ L, f c = x) : weighted f L = x * total L := by
  induction L with
  | nil => simp [weighted, total]
  | cons c L ih =>
    have := ih (fun c hc => h c (List.mem_cons_of_mem _ hc))
    unfold weighted total at *
    rw [List.map_cons, List.sum_cons, List.map_cons, List.sum_cons, this, h c List.mem_cons_self]
    ring

/-- **C119, a uniform vector.** If all data are the same vector, the result is that vector along the axes of each output cell, whatever
the axes of the cells and the exchange grid. -/
theorem C119_uniform_partial [IsStrictOrderedRing K] {miss : K} {nx1 : Nat → Nat} {ain : Nat → Angles K} {nx2 : Nat} {aout : Angles K} {cells : List (XCell K)}
    {w : Nat → Nat → Nat → Option (K × K)} {u v : Nat → Nat → K} (hp : ∀ t, Angles.Proper (ain t)) (hw : Holds miss nx1 ain w u v)
    (hd : Distinct miss nx1 ain w) (hi : ∀ c ∈ cells, c.i1 < nx1 c.tile) {e : K × K} (he : ∀ t j i x, w t j i = some x → x = e)
    (n : Nat) (hpos : 0 < total (parts nx2 n (fun c => (w c.tile c.j1 c.i1).isSome) cells)) :
    vectorInterp miss nx1 ain nx2 aout none cells u v n = along (Angles.c aout n) (Angles.s aout n) e := by
  obtain ⟨h, _⟩ := C119_mean_partial (nx2 := nx2) (aout := aout) (target := none) hp hw hd hi n
  simp only at h
  have hmem : ∀ c ∈ parts nx2 n (fun c => (w c.tile c.j1 c.i1).isSome) cells, w c.tile c.j1 c.i1 = some e := by
    intro c hc
    obtain ⟨h1, h2⟩ := List.mem_filter.1 hc
    simp only [decide_eq_true_eq] at h2
    obtain ⟨x, hx⟩ := Option.isSome_iff_exists.1 h2.2
    rw [hx, he _ _ _ x hx]
  rw [weighted_const (f := east w) (x := e.1) (fun c hc => by unfold east; rw [hmem c hc]; rfl),
    weighted_const (f := north w) (x := e.2) (fun c hc => by unfold north; rw [hmem c hc]; rfl), mul_div_assoc, mul_div_assoc, div_self (ne_of_gt hpos), mul_one, mul_one] at h
  have hne : parts nx2 n (fun c => (w c.tile c.j1 c.i1).isSome) cells ≠ [] := by
    intro h0
    rw [h0] at hpos
    simp [total] at hpos
  obtain ⟨c, hc⟩ := List.exists_mem_of_ne_nil _ hne
  obtain ⟨d1, d2, _, _⟩ := hd _ _ _ _ (hmem c hc)
  exact h hpos d1 d2

theorem len2_along (c s : K) (w : K × K) (h : c * c + s * s = 1) : len2 (along c s w) = len2 w := by
  unfold len2 along
  linear_combination (w.1 * w.1 + w.2 * w.2) * h

theorem jensen [IsStrictOrderedRing K] (f g : XCell K → K) (L : List (XCell K)) (ha : ∀ c ∈ L, 0 ≤ c.area) :
    0 ≤ total L ∧ 0 ≤ weighted (fun c => f c * f c + g c * g c) L ∧
      weighted f L * weighted f L + weighted g L * weighted g L ≤ total L * weighted (fun c => f c * f c + g c * g c) L := by
  induction L with
  | nil => simp [total, weighted]
  | cons c L ih =>
    obtain ⟨h1, h2, h3⟩ := ih (fun c hc => ha c (List.mem_cons_of_mem _ hc))
    have hc := ha c List.mem_cons_self
    have e1 : total (c :: L) = c.area + total L := by simp [total]
    have e2 : ∀ f : XCell K → K, weighted f (c :: L) = f c * c.area + weighted f L := by intro f; simp [weighted]
    rw [e1, e2, e2, e2]
    generalize total L = A at *
    generalize weighted (fun c => f c * f c + g c * g c) L = Q at *
    generalize weighted f L = X at *
    generalize weighted g L = Y at *
    have hr : 0 ≤ f c * f c + g c * g c := add_nonneg (mul_self_nonneg _) (mul_self_nonneg _)
    refine ⟨add_nonneg hc h1, add_nonneg (mul_nonneg hr hc) h2, ?_⟩
    have key : 2 * (X * f c + Y * g c) ≤ A * (f c * f c + g c * g c) + Q := by
      rcases eq_or_lt_of_le h1 with hA | hA
      · rw [← hA] at h3 ⊢
        rw [zero_mul] at h3
        have hx := mul_self_nonneg X
        have hy := mul_self_nonneg Y
        have hx0 : X = 0 := mul_self_eq_zero.1 (le_antisymm (by linarith) hx)
        have hy0 : Y = 0 := mul_self_eq_zero.1 (le_antisymm (by linarith) hy)
        rw [hx0, hy0]
        simpa using h2
      · have p1 := mul_self_nonneg (A * f c - X)
        have p2 := mul_self_nonneg (A * g c - Y)
        have : A * (2 * (X * f c + Y * g c)) ≤ A * (A * (f c * f c + g c * g c) + Q) := by nlinarith
        exact le_of_mul_le_mul_left this hA
    have := mul_le_mul_of_nonneg_left key hc
    nlinarith

/-- **C119, no new maximum.** If no vector is longer than the square root of `B`, no result is (unless it is missing). -/
theorem C119_length_partial [IsStrictOrderedRing K] {miss : K} {nx1 : Nat → Nat} {ain : Nat → Angles K} {nx2 : Nat} {aout : Angles K} {cells : List (XCell K)}
    {w : Nat → Nat → Nat → Option (K × K)} {u v : Nat → Nat → K} (hp : ∀ t, Angles.Proper (ain t)) (ho : Angles.Proper aout) (hw : Holds miss nx1 ain w u v)
    (hd : Distinct miss nx1 ain w) (hi : ∀ c ∈ cells, c.i1 < nx1 c.tile) (ha : ∀ c ∈ cells, 0 ≤ c.area) {B : K}
    (hB : ∀ t j i e, w t j i = some e → len2 e ≤ B) (n : Nat) :
    let P := parts nx2 n (fun c => (w c.tile c.j1 c.i1).isSome) cells
    0 < total P → weighted (east w) P / total P ≠ miss → weighted (north w) P / total P ≠ miss →
      len2 (vectorInterp miss nx1 ain nx2 aout none cells u v n) ≤ B := by
  intro P hpos m1 m2
  obtain ⟨h, _⟩ := C119_mean_partial (nx2 := nx2) (aout := aout) (target := none) hp hw hd hi n
  rw [h hpos m1 m2]
  have hcs : Angles.c aout n * Angles.c aout n + Angles.s aout n * Angles.s aout n = 1 := by
    unfold Angles.c Angles.s
    by_cases hr : aout.rotate = true
    · rw [if_pos hr, if_pos hr]; exact ho n
    · rw [if_neg hr, if_neg hr]; ring
  rw [len2_along _ _ _ hcs]
  have hmem : ∀ c ∈ P, c ∈ cells ∧ (w c.tile c.j1 c.i1).isSome := by
    intro c hc
    obtain ⟨h1, h2⟩ := List.mem_filter.1 hc
    simp only [decide_eq_true_eq] at h2
    exact ⟨h1, h2.2⟩
  obtain ⟨_, _, j3⟩ := jensen (east w) (north w) P (fun c hc => ha c (hmem c hc).1)
  have hQ : ∀ L : List (XCell K), (∀ c ∈ L, c ∈ P) → weighted (fun c => east w c * east w c + north w c * north w c) L ≤ B * total L := by
    intro L
    induction L with
    | nil => intro _; simp [weighted, total]
    | cons c L ih =>
      intro hL
      have i1 := ih (fun c hc => hL c (List.mem_cons_of_mem _ hc))
      obtain ⟨q1, q2⟩ := hmem c (hL c List.mem_cons_self)
      obtain ⟨e, he⟩ := Option.isSome_iff_exists.1 q2
      have i2 := hB _ _ _ e he
      have i3 : east w c * east w c + north w c * north w c = len2 e := by
        unfold east north len2; rw [he]; rfl
      have i4 := mul_le_mul_of_nonneg_right i2 (ha c q1)
      have e1 : total (c :: L) = c.area + total L := by simp [total]
      have e2 : weighted (fun c => east w c * east w c + north w c * north w c) (c :: L) =
          (east w c * east w c + north w c * north w c) * c.area + weighted (fun c => east w c * east w c + north w c * north w c) L := by simp [weighted]
      rw [e1, e2, i3]
      linarith
  have hQP := hQ P (fun c hc => hc)
  have : len2 (weighted (east w) P / total P, weighted (north w) P / total P) =
      (weighted (east w) P * weighted (east w) P + weighted (north w) P * weighted (north w) P) / (total P * total P) := by
    unfold len2
    field_simp
  change len2 (weighted (east w) P / total P, weighted (north w) P / total P) ≤ B
  rw [this, div_le_iff₀ (mul_pos hpos hpos)]
  have := mul_le_mul_of_nonneg_left hQP (le_of_lt hpos)
  linarith

/-! ### What goes wrong -/

/-- No turn. -/
def vrPlain : Angles ℚ := ⟨false, fun _ => 1, fun _ => 0⟩
/-- A turn with cosine 3/5 and sine 4/5. -/
def vrTurn : Angles ℚ := ⟨true, fun _ => 3 / 5, fun _ => 4 / 5⟩

/-- **C119 fails without a missing value.** If the variable has no attribute for it, the missing value is 0, and a cell with a vector due north is left out:
two cells with vectors (0, 10) and (2, 2) give (2, 2) instead of (1, 6). -/
theorem C119_no_missing_wrong : missingOf (K := ℚ) none none = 0 ∧
    vectorInterp (missingOf none none) (fun _ => 2) (fun _ => vrPlain) 1 vrPlain none [⟨0, 0, 0, 0, 0, 1⟩, ⟨0, 1, 0, 0, 0, 1⟩]
      (fun _ i => if i = 0 then 0 else 2) (fun _ i => if i = 0 then 10 else 2) 0 = ((2, 2) : ℚ × ℚ) ∧
    vectorInterp 99 (fun _ => 2) (fun _ => vrPlain) 1 vrPlain none [⟨0, 0, 0, 0, 0, 1⟩, ⟨0, 1, 0, 0, 0, 1⟩]
      (fun _ i => if i = 0 then 0 else 2) (fun _ i => if i = 0 then 10 else 2) 0 = ((1, 6) : ℚ × ℚ) := by
  refine ⟨rfl, ?_, ?_⟩ <;> decide +kernel

/-- **C119 fails for a second missing value.** The missing value of the second component is not looked at: if it is another number, it is
taken as data. -/
theorem C119_second_missing_wrong : ∃ missU missV : ℚ, missU ≠ missV ∧
    vectorInterp missU (fun _ => 2) (fun _ => vrPlain) 1 vrPlain none [⟨0, 0, 0, 0, 0, 1⟩, ⟨0, 1, 0, 0, 0, 1⟩]
      (fun _ i => if i = 0 then 1 else missU) (fun _ i => if i = 0 then missV else missU) 0 = (1, missV) :=
  ⟨-100, -999, by norm_num, by decide +kernel⟩

/-- **C119 fails for second-order conservation.** The data are then stored with a halo, but read without: with two cells in a row the
first cell of the tile gets what is around the tile. -/
theorem C119_order2_wrong (around : ℚ) (f : Nat → Nat → ℚ) (h : around ≠ 99) (hf : f 0 0 ≠ 99) :
    vectorInterp 99 (fun _ => 2) (fun _ => vrPlain) 1 vrPlain none [⟨0, 0, 0, 0, 0, 1⟩] (fun _ => stored 1 2 2 around f) (fun _ => stored 1 2 2 around f) 0 =
        (around, around) ∧
      vectorInterp 99 (fun _ => 2) (fun _ => vrPlain) 1 vrPlain none [⟨0, 0, 0, 0, 0, 1⟩] (fun _ => stored 0 2 2 around f) (fun _ => stored 0 2 2 around f) 0 =
        (f 0 0, f 0 0) := by
  constructor
  · simp [vectorInterp, rotateIn, rotateOut, vrPlain, addCell, average, stored, h]
  · simp [vectorInterp, rotateIn, rotateOut, vrPlain, addCell, average, stored, hf]

/-- First-order data are stored as `Holds` asks. -/
theorem C119_stored {nx ny : Nat} (around : K) (f : Nat → Nat → K) {j i : Nat} (hj : j < ny) (hi : i < nx) : stored 0 nx ny around f (j * nx + i) = f j i := by
  unfold stored
  simp only [Nat.mul_zero, Nat.add_zero, Nat.sub_zero, Nat.zero_le, true_and]
  have h1 : (j * nx + i) / nx = j := by
    rw [Nat.mul_comm, Nat.mul_add_div (by omega), Nat.div_eq_of_lt hi]; omega
  have h2 : (j * nx + i) % nx = i := by
    rw [Nat.mul_comm, Nat.mul_add_mod, Nat.mod_eq_of_lt hi]
  rw [h1, h2, if_pos ⟨hj, hi⟩]

/-- **C119, the missing value.** It is the attribute `missing_value` if there is one, otherwise `_FillValue` if there is one. -/
theorem C119_missing (a f : K) (fill : Option K) : missingOf (some a) fill = a ∧ missingOf none (some f) = f := ⟨rfl, rfl⟩

/-- **C119, when vectors are turned.** A tile is left without turning only if the axes of all of its cells are east and north up to `eps`: then the
components differ from those along the axes by at most `eps` times the other component, plus what the cosine differs from 1. -/
theorem C119_rotates [IsStrictOrderedRing K] (eps : K) (sines : List K) (h : rotates eps sines = false) (s c : K) (hs : s ∈ sines) (w : K × K) :
    |(along c s w).1 - c * w.1| ≤ eps * |w.2| ∧ |(along c s w).2 - c * w.2| ≤ eps * |w.1| := by
  have hse : |s| ≤ eps := by
    have := (List.any_eq_false.1 h) s hs
    simpa using this
  unfold along
  dsimp only
  constructor
  · rw [show w.1 * c + w.2 * s - c * w.1 = s * w.2 by ring, abs_mul]
    exact mul_le_mul_of_nonneg_right hse (abs_nonneg _)
  · rw [show - w.1 * s + w.2 * c - c * w.2 = -(s * w.1) by ring, abs_neg, abs_mul]
    exact mul_le_mul_of_nonneg_right hse (abs_nonneg _)

/-! ### Cases -/

/-- Input cells turned by the angle, output not: the vector (5, 10) has components (11, 2) along the axes; two thirds of it and a missing cell
give (5, 10) again. -/
theorem C119_case : vectorInterp 99 (fun _ => 2) (fun _ => vrTurn) 1 vrPlain none [⟨0, 0, 0, 0, 0, 2⟩, ⟨0, 1, 0, 0, 0, 1⟩]
    (fun _ i => if i = 0 then 11 else 99) (fun _ i => if i = 0 then 2 else 99) 0 = ((5, 10) : ℚ × ℚ) := by decide +kernel

example : Angles.Proper vrTurn := by intro i; norm_num [vrTurn]

/-- A field with a missing cell that satisfies the hypotheses of the theorems. -/
example : ∃ w : Nat → Nat → Nat → Option (ℚ × ℚ), w 0 0 0 = some (5, 10) ∧ w 0 0 1 = none ∧ Distinct 99 (fun _ => 2) (fun _ => vrTurn) w ∧
    Holds 99 (fun _ => 2) (fun _ => vrTurn) w (fun _ i => if i = 0 then 11 else 99) (fun _ i => if i = 0 then 2 else 99) := by
  refine ⟨fun _ j i => if j * 2 + i = 0 then some (5, 10) else none, rfl, rfl, ?_, ?_⟩
  · intro t j i e h
    simp only at h
    by_cases hz : j * 2 + i = 0
    · rw [if_pos hz] at h
      simp only [Option.some.injEq] at h
      subst h
      norm_num [along, Angles.c, Angles.s, vrTurn]
    · rw [if_neg hz] at h; simp at h
  · intro t j i _
    by_cases hz : j * 2 + i = 0
    · simp only [if_pos hz]
      norm_num [along, Angles.c, Angles.s, vrTurn]
    · simp only [if_neg hz]

end Verif.VectorRemap
