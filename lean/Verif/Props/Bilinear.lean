import Verif.Lemmas.Bilinear
import Mathlib.Tactic.NormNum
import Mathlib.Tactic.LinearCombination
/-
C77: bilinear interpolation from the cubed sphere to a longitude latitude grid.
-/
namespace Verif

open Verif.Bilinear Verif.Vec3 Verif.Spec.Bil Real

/-! ### Distances -/

/-- C77: the distance of a point from the side of a cell is the angle between the point and the great circle of the
side, or 0 if that angle is within the tolerance. -/
theorem C77_distance (eps : ℝ) (a b p : Fin 3 → ℝ) (hab : 0 < area a b) (ha : 0 < len a) (hp : 0 < len p) :
    distToSide eps a b p = arcsin (sineToLine a b p)
    ∨ (distToSide eps a b p = 0 ∧ sineToLine a b p ≤ √(2 * eps)) :=
  distToSide_eq eps hab ha hp

/-! ### Weights -/

/-- Cells of a tile for the examples: four centres around the point `(0, 0, 1)`. -/
noncomputable def bilCell (i j : Nat) : Fin 3 → ℝ := ![2 * i - 3, 2 * j - 3, 1]

theorem bil_off_example (a b p : Fin 3 → ℝ) (ha : 0 < dot3 a a) (hab : 0 < dot3 (cross a b) (cross a b))
    (hp : 0 < dot3 p p) (hd : 2 * (1 / 10 ^ 30) * (dot3 (cross a b) (cross a b) * dot3 p p) < det a b p ^ 2) :
    OffLine (1 / 10 ^ 30) a b p := by
  refine ⟨?_, ?_, ?_, ?_⟩
  · rw [area_eq]; positivity
  · rw [len_eq]; positivity
  · rw [len_eq]; positivity
  · unfold sineToLine
    have hdet : det a b p ≠ 0 := by
      intro h
      rw [h] at hd
      have : 0 < 2 * (1 / 10 ^ 30 : ℝ) * (dot3 (cross a b) (cross a b) * dot3 p p) := by positivity
      norm_num at hd
      linarith
    rw [area_eq, len_eq, sqrt_lt' (by positivity), div_pow, mul_pow, sq_sqrt hab.le, sq_sqrt hp.le, sq_abs,
      lt_div_iff₀ (by positivity)]
    exact hd

example : distToSide (1 / 10 ^ 30) (bilCell 1 1) (bilCell 2 1) ![0, 0, 1] = arcsin (sineToLine (bilCell 1 1) (bilCell 2 1) ![0, 0, 1]) := by
  have h : OffLine (1 / 10 ^ 30) (bilCell 1 1) (bilCell 2 1) ![0, 0, 1] := by
    apply bil_off_example <;> simp [bilCell, dot3, cross, det] <;> norm_num
  rcases C77_distance (1 / 10 ^ 30) _ _ _ h.1 h.2.1 h.2.2.1 with h1 | ⟨_, h1⟩
  · exact h1
  · exact absurd h.2.2.2 (not_lt.2 h1)

/-- C77: inside a tile the four weights are nonnegative and have sum 1, if the point is not on the lines through both
the west and the east side, nor on those through both the south and the north side. -/
theorem C77_weights (eps : ℝ) (nx ny : Nat) (g : Nat → Nat → Fin 3 → ℝ) (ic jc : Nat) (p : Fin 3 → ℝ)
    (h1 : ¬(ic = nx ∧ jc = ny)) (h2 : ¬(ic = 0 ∧ jc = ny)) (h3 : ¬(jc = 0 ∧ ic = nx))
    (hwe : OffLine eps (g ic jc) (g ic (jc + 1)) p ∨ OffLine eps (g (ic + 1) (jc + 1)) (g (ic + 1) jc) p)
    (hsn : OffLine eps (g (ic + 1) jc) (g ic jc) p ∨ OffLine eps (g ic (jc + 1)) (g (ic + 1) (jc + 1)) p) :
    IsMean (weights eps nx ny g ic jc p) := by
  have n1 := distToSide_nonneg eps (g ic jc) (g ic (jc + 1)) p
  have n2 := distToSide_nonneg eps (g ic (jc + 1)) (g (ic + 1) (jc + 1)) p
  have n3 := distToSide_nonneg eps (g (ic + 1) (jc + 1)) (g (ic + 1) jc) p
  have n4 := distToSide_nonneg eps (g (ic + 1) jc) (g ic jc) p
  have p13 : 0 < distToSide eps (g ic jc) (g ic (jc + 1)) p + distToSide eps (g (ic + 1) (jc + 1)) (g (ic + 1) jc) p := by
    rcases hwe with h | h <;> have := distToSide_pos h <;> linarith
  have p24 : 0 < distToSide eps (g ic (jc + 1)) (g (ic + 1) (jc + 1)) p + distToSide eps (g (ic + 1) jc) (g ic jc) p := by
    rcases hsn with h | h <;> have := distToSide_pos h <;> linarith
  have hr := raw_inner eps g h1 h2 h3 p
  generalize distToSide eps (g ic jc) (g ic (jc + 1)) p = d1 at *
  generalize distToSide eps (g ic (jc + 1)) (g (ic + 1) (jc + 1)) p = d2 at *
  generalize distToSide eps (g (ic + 1) (jc + 1)) (g (ic + 1) jc) p = d3 at *
  generalize distToSide eps (g (ic + 1) jc) (g ic jc) p = d4 at *
  have hs : 0 < d2 * d3 + d3 * d4 + d4 * d1 + d1 * d2 := by nlinarith [mul_pos p13 p24]
  unfold weights
  rw [hr]
  refine ⟨fun m => ?_, ?_⟩
  · apply div_nonneg _ (by simpa using hs.le)
    fin_cases m <;> simp <;> positivity
  · simp only [Matrix.cons_val_zero, Matrix.cons_val_one, Matrix.cons_val]
    rw [← add_div, ← add_div, ← add_div]
    exact div_self hs.ne'

example : IsMean (weights (1 / 10 ^ 30) 4 4 bilCell 1 1 ![0, 0, 1]) := by
  apply C77_weights
  · omega
  · omega
  · omega
  · left
    apply bil_off_example <;> simp [bilCell, dot3, cross, det] <;> norm_num
  · left
    apply bil_off_example <;> simp [bilCell, dot3, cross, det] <;> norm_num

theorem bil_mean3 {x y z : ℝ} (hx : 0 ≤ x) (hy : 0 ≤ y) (hz : 0 ≤ z) (h : 0 < x ∨ 0 < y ∨ 0 < z) : 0 < x + y + z := by
  rcases h with h | h | h <;> linarith

/-- C77: at a corner of the cube, where only three cells meet, the weights of these are nonnegative with sum 1 and the
fourth weight is 0. -/
theorem C77_weights_corner (eps : ℝ) (nx ny : Nat) (g : Nat → Nat → Fin 3 → ℝ) (p : Fin 3 → ℝ) :
    ((OffLine eps (g nx ny) (g nx (ny + 1)) p ∨ OffLine eps (g (nx + 1) ny) (g nx ny) p
      ∨ OffLine eps (g (nx + 1) ny) (g nx (ny + 1)) p) →
      IsMean (weights eps nx ny g nx ny p) ∧ weights eps nx ny g nx ny p 2 = 0)
    ∧ (0 < nx → (OffLine eps (g 1 ny) (g 0 ny) p ∨ OffLine eps (g 1 (ny + 1)) (g 1 ny) p
      ∨ OffLine eps (g 1 (ny + 1)) (g 0 ny) p) →
      IsMean (weights eps nx ny g 0 ny p) ∧ weights eps nx ny g 0 ny p 1 = 0)
    ∧ (0 < nx → 0 < ny → (OffLine eps (g nx 0) (g nx 1) p ∨ OffLine eps (g nx 1) (g (nx + 1) 1) p
      ∨ OffLine eps (g nx 0) (g (nx + 1) 1) p) →
      IsMean (weights eps nx ny g nx 0 p) ∧ weights eps nx ny g nx 0 p 3 = 0) := by
  have fin : ∀ w : Fin 4 → ℝ, (∀ m, 0 ≤ w m) → 0 < w 0 + w 1 + w 2 + w 3 →
      IsMean (fun m => w m / (w 0 + w 1 + w 2 + w 3)) := by
    intro w hw hs
    refine ⟨fun m => div_nonneg (hw m) hs.le, ?_⟩
    dsimp only
    rw [← add_div, ← add_div, ← add_div]
    exact div_self hs.ne'
  have nn := fun a b => distToSide_nonneg eps a b p
  refine ⟨fun h => ?_, fun hx h => ?_, fun hx hy h => ?_⟩
  · have hr := raw_ne eps nx ny g p
    constructor
    · apply fin
      · rw [hr]
        intro m
        fin_cases m <;> simp [nn]
      · rw [hr]
        simp only [Matrix.cons_val_zero, Matrix.cons_val_one, Matrix.cons_val, add_zero]
        apply bil_mean3 (nn _ _) (nn _ _) (nn _ _)
        rcases h with h | h | h
        · exact Or.inr (Or.inr (distToSide_pos h))
        · exact Or.inr (Or.inl (distToSide_pos h))
        · exact Or.inl (distToSide_pos h)
    · unfold weights
      rw [hr]
      simp
  · have hr := raw_nw eps ny g p hx
    constructor
    · apply fin
      · rw [hr]
        intro m
        fin_cases m <;> simp [nn]
      · rw [hr]
        simp only [Matrix.cons_val_zero, Matrix.cons_val_one, Matrix.cons_val, add_zero]
        apply bil_mean3 (nn _ _) (nn _ _) (nn _ _)
        rcases h with h | h | h
        · exact Or.inr (Or.inl (distToSide_pos h))
        · exact Or.inl (distToSide_pos h)
        · exact Or.inr (Or.inr (distToSide_pos h))
    · unfold weights
      rw [hr]
      simp
  · have hr := raw_se eps g p hx hy
    constructor
    · apply fin
      · rw [hr]
        intro m
        fin_cases m <;> simp [nn]
      · rw [hr]
        simp only [Matrix.cons_val_zero, Matrix.cons_val_one, Matrix.cons_val, add_zero]
        apply bil_mean3 (nn _ _) (nn _ _) (nn _ _)
        rcases h with h | h | h
        · exact Or.inr (Or.inr (distToSide_pos h))
        · exact Or.inl (distToSide_pos h)
        · exact Or.inr (Or.inl (distToSide_pos h))
    · unfold weights
      rw [hr]
      simp

example : IsMean (weights (1 / 10 ^ 30) 1 1 bilCell 1 1 ![0, 0, 1])
    ∧ weights (1 / 10 ^ 30) 1 1 bilCell 1 1 ![0, 0, 1] 2 = 0 := by
  apply (C77_weights_corner _ _ _ _ _).1
  left
  apply bil_off_example <;> simp [bilCell, dot3, cross, det] <;> norm_num

/-- C77: at the centre of a cell that cell has weight 1 and the others weight 0, also at the corners of the cube. -/
theorem C77_at_centre (eps : ℝ) (nx ny : Nat) (g : Nat → Nat → Fin 3 → ℝ) (ic jc : Nat) :
    (¬(ic = nx ∧ jc = ny) → ¬(ic = 0 ∧ jc = ny) → ¬(jc = 0 ∧ ic = nx) →
      (OffLine eps (g ic (jc + 1)) (g (ic + 1) (jc + 1)) (g ic jc) →
        OffLine eps (g (ic + 1) (jc + 1)) (g (ic + 1) jc) (g ic jc) →
        weights eps nx ny g ic jc (g ic jc) = unit 0)
      ∧ (OffLine eps (g (ic + 1) (jc + 1)) (g (ic + 1) jc) (g ic (jc + 1)) →
        OffLine eps (g (ic + 1) jc) (g ic jc) (g ic (jc + 1)) →
        weights eps nx ny g ic jc (g ic (jc + 1)) = unit 1)
      ∧ (OffLine eps (g (ic + 1) jc) (g ic jc) (g (ic + 1) (jc + 1)) →
        OffLine eps (g ic jc) (g ic (jc + 1)) (g (ic + 1) (jc + 1)) →
        weights eps nx ny g ic jc (g (ic + 1) (jc + 1)) = unit 2)
      ∧ (OffLine eps (g ic jc) (g ic (jc + 1)) (g (ic + 1) jc) →
        OffLine eps (g ic (jc + 1)) (g (ic + 1) (jc + 1)) (g (ic + 1) jc) →
        weights eps nx ny g ic jc (g (ic + 1) jc) = unit 3))
    ∧ ((OffLine eps (g (nx + 1) ny) (g nx (ny + 1)) (g nx ny) → weights eps nx ny g nx ny (g nx ny) = unit 0)
      ∧ (OffLine eps (g (nx + 1) ny) (g nx ny) (g nx (ny + 1)) → weights eps nx ny g nx ny (g nx (ny + 1)) = unit 1)
      ∧ (OffLine eps (g nx ny) (g nx (ny + 1)) (g (nx + 1) ny) → weights eps nx ny g nx ny (g (nx + 1) ny) = unit 3))
    ∧ (0 < nx →
      (OffLine eps (g 1 (ny + 1)) (g 1 ny) (g 0 ny) → weights eps nx ny g 0 ny (g 0 ny) = unit 0)
      ∧ (OffLine eps (g 1 ny) (g 0 ny) (g 1 (ny + 1)) → weights eps nx ny g 0 ny (g 1 (ny + 1)) = unit 2)
      ∧ (OffLine eps (g 1 (ny + 1)) (g 0 ny) (g 1 ny) → weights eps nx ny g 0 ny (g 1 ny) = unit 3))
    ∧ (0 < nx → 0 < ny →
      (OffLine eps (g nx 1) (g (nx + 1) 1) (g nx 0) → weights eps nx ny g nx 0 (g nx 0) = unit 0)
      ∧ (OffLine eps (g nx 0) (g (nx + 1) 1) (g nx 1) → weights eps nx ny g nx 0 (g nx 1) = unit 1)
      ∧ (OffLine eps (g nx 0) (g nx 1) (g (nx + 1) 1) → weights eps nx ny g nx 0 (g (nx + 1) 1) = unit 2)) := by
  have L := fun a b => distToSide_left eps a b
  have R := fun a b => distToSide_right eps (a := a) (b := b)
  refine ⟨fun h1 h2 h3 => ?_, ?_, fun hx => ?_, fun hx hy => ?_⟩
  · have hr := raw_inner eps g h1 h2 h3
    refine ⟨fun a b => ?_, fun a b => ?_, fun a b => ?_, fun a b => ?_⟩ <;>
    · have ha := (distToSide_pos a).ne'
      have hb := (distToSide_pos b).ne'
      unfold weights
      rw [hr]
      funext m
      fin_cases m <;> simp [Spec.Bil.unit, L, R, ha, hb]
  · have hr := raw_ne eps nx ny g
    refine ⟨fun a => ?_, fun a => ?_, fun a => ?_⟩ <;>
    · have ha := (distToSide_pos a).ne'
      unfold weights
      rw [hr]
      funext m
      fin_cases m <;> simp [Spec.Bil.unit, L, R, ha]
  · have hr := fun p => raw_nw eps ny g p hx
    refine ⟨fun a => ?_, fun a => ?_, fun a => ?_⟩ <;>
    · have ha := (distToSide_pos a).ne'
      unfold weights
      rw [hr]
      funext m
      fin_cases m <;> simp [Spec.Bil.unit, L, R, ha]
  · have hr := fun p => raw_se eps g p hx hy
    refine ⟨fun a => ?_, fun a => ?_, fun a => ?_⟩ <;>
    · have ha := (distToSide_pos a).ne'
      unfold weights
      rw [hr]
      funext m
      fin_cases m <;> simp [Spec.Bil.unit, L, R, ha]

example : weights (1 / 10 ^ 30) 4 4 bilCell 1 1 (bilCell 2 1) = unit 3 := by
  apply ((C77_at_centre _ 4 4 bilCell 1 1).1 (by omega) (by omega) (by omega)).2.2.2 <;>
  · apply bil_off_example <;> simp [bilCell, dot3, cross, det] <;> norm_num

/-! ### Values -/

section values
variable {K : Type} [Field K] [LinearOrder K] [IsStrictOrderedRing K]

/-- C77: if none of the four cells is missing, the result lies between the least and greatest value of the cells with
nonzero weight; a constant is kept; at the centre of a cell the result is its value. -/
theorem C77_value (miss : Option K) (fill : Bool) (w d : Fin 4 → K) (hd : ∀ m, miss ≠ some (d m)) :
    (IsMean w → ∀ lo hi, (∀ m, w m ≠ 0 → lo ≤ d m ∧ d m ≤ hi) → lo ≤ c2l miss fill w d ∧ c2l miss fill w d ≤ hi)
    ∧ (∀ c, w = unit c → c2l miss fill w d = d c) := by
  have hv : c2l miss fill w d = d 0 * w 0 + d 1 * w 1 + d 2 * w 2 + d 3 * w 3 := by
    unfold c2l
    cases miss with
    | none => rfl
    | some m =>
      have : ∀ c, ¬ d c = m := fun c h => hd c (by rw [h])
      simp [this]
  rw [hv]
  constructor
  · rintro ⟨hw, hs⟩ lo hi hb
    have key : ∀ m, lo * w m ≤ d m * w m ∧ d m * w m ≤ hi * w m := by
      intro m
      by_cases h : w m = 0
      · simp [h]
      · exact ⟨mul_le_mul_of_nonneg_right (hb m h).1 (hw m), mul_le_mul_of_nonneg_right (hb m h).2 (hw m)⟩
    have k0 := key 0
    have k1 := key 1
    have k2 := key 2
    have k3 := key 3
    have e1 : lo = lo * w 0 + lo * w 1 + lo * w 2 + lo * w 3 := by rw [← mul_add, ← mul_add, ← mul_add, hs, mul_one]
    have e2 : hi = hi * w 0 + hi * w 1 + hi * w 2 + hi * w 3 := by rw [← mul_add, ← mul_add, ← mul_add, hs, mul_one]
    constructor <;> linarith
  · rintro c rfl
    fin_cases c <;> simp [Spec.Bil.unit]

/-- C77: the value given for the centre of one of the four cells around the output point is the value of that cell in the
array, which has rows of length `nxd`. -/
theorem C77_at_cell (miss : Option ℝ) (fill : Bool) (nxd : Nat) (data : Nat → ℝ) (eps : ℝ) (nx ny : Nat)
    (g : Nat → Nat → Fin 3 → ℝ) (ic jc : Nat) (hxy : ¬(ic = nx ∧ jc = ny)) (h0y : ¬(ic = 0 ∧ jc = ny))
    (hx0 : ¬(jc = 0 ∧ ic = nx))
    (hd : ∀ i j, (i = ic ∨ i = ic + 1) → (j = jc ∨ j = jc + 1) → miss ≠ some (data (j * nxd + i))) :
    (OffLine eps (g ic (jc + 1)) (g (ic + 1) (jc + 1)) (g ic jc) →
      OffLine eps (g (ic + 1) (jc + 1)) (g (ic + 1) jc) (g ic jc) →
      c2l miss fill (weights eps nx ny g ic jc (g ic jc)) (dIn nxd data ic jc) = data (jc * nxd + ic))
    ∧ (OffLine eps (g (ic + 1) (jc + 1)) (g (ic + 1) jc) (g ic (jc + 1)) →
      OffLine eps (g (ic + 1) jc) (g ic jc) (g ic (jc + 1)) →
      c2l miss fill (weights eps nx ny g ic jc (g ic (jc + 1))) (dIn nxd data ic jc) = data ((jc + 1) * nxd + ic))
    ∧ (OffLine eps (g (ic + 1) jc) (g ic jc) (g (ic + 1) (jc + 1)) →
      OffLine eps (g ic jc) (g ic (jc + 1)) (g (ic + 1) (jc + 1)) →
      c2l miss fill (weights eps nx ny g ic jc (g (ic + 1) (jc + 1))) (dIn nxd data ic jc)
        = data ((jc + 1) * nxd + (ic + 1)))
    ∧ (OffLine eps (g ic jc) (g ic (jc + 1)) (g (ic + 1) jc) →
      OffLine eps (g ic (jc + 1)) (g (ic + 1) (jc + 1)) (g (ic + 1) jc) →
      c2l miss fill (weights eps nx ny g ic jc (g (ic + 1) jc)) (dIn nxd data ic jc) = data (jc * nxd + (ic + 1))) := by
  have hm : ∀ m, miss ≠ some (dIn nxd data ic jc m) := by
    intro m
    fin_cases m
    · exact hd ic jc (Or.inl rfl) (Or.inl rfl)
    · exact hd ic (jc + 1) (Or.inl rfl) (Or.inr rfl)
    · exact hd (ic + 1) (jc + 1) (Or.inr rfl) (Or.inr rfl)
    · exact hd (ic + 1) jc (Or.inr rfl) (Or.inl rfl)
  obtain ⟨c0, c1, c2, c3⟩ := (C77_at_centre eps nx ny g ic jc).1 hxy h0y hx0
  have hv := fun w => (C77_value miss fill w (dIn nxd data ic jc) hm).2
  exact ⟨fun a b => hv _ 0 (c0 a b), fun a b => hv _ 1 (c1 a b), fun a b => hv _ 2 (c2 a b), fun a b => hv _ 3 (c3 a b)⟩

example : c2l (some 99) false (weights (1 / 10 ^ 30) 4 4 bilCell 1 1 (bilCell 2 1)) (dIn 6 (fun n => (n : ℝ)) 1 1) = 8 := by
  rw [(C77_at_cell (some 99) false 6 (fun n => (n : ℝ)) (1 / 10 ^ 30) 4 4 bilCell 1 1 (by omega) (by omega) (by omega)
    (by rintro i j (rfl | rfl) (rfl | rfl) <;> norm_num)).2.2.2]
  · norm_num
  all_goals apply bil_off_example <;> simp [bilCell, dot3, cross, det] <;> norm_num

example : (1 : ℚ) ≤ c2l (some 99) false ![1/4, 1/4, 1/2, 0] ![1, 2, 3, 0] ∧ c2l (some 99) false ![1/4, 1/4, 1/2, 0] ![1, 2, 3, 0] ≤ (3 : ℚ) := by
  refine (C77_value (some 99) false ![1/4, 1/4, 1/2, 0] ![1, 2, 3, 0] ?_).1 ⟨?_, ?_⟩ 1 3 ?_
  · intro m
    fin_cases m <;> simp
  · intro m
    fin_cases m <;> simp
  · simp
    norm_num
  · intro m
    fin_cases m <;> simp <;> norm_num

theorem maxWeightIndex_ge (w : Fin 4 → K) (m : Fin 4) : w m ≤ w (maxWeightIndex w) := by
  unfold maxWeightIndex
  dsimp only
  have step : ∀ a b : Fin 4, w a ≤ w (if w b > w a then b else a) ∧ w b ≤ w (if w b > w a then b else a) := by
    intro a b
    split
    · rename_i h
      exact ⟨h.le, le_refl _⟩
    · rename_i h
      exact ⟨le_refl _, not_lt.1 h⟩
  have h1 := step 0 1
  have h2 := step (if w 1 > w 0 then 1 else 0) 2
  have h3 := step (if w 2 > w (if w 1 > w 0 then 1 else 0) then 2 else (if w 1 > w 0 then 1 else 0)) 3
  fin_cases m
  · exact le_trans h1.1 (le_trans h2.1 h3.1)
  · exact le_trans h1.2 (le_trans h2.1 h3.1)
  · exact le_trans h2.2 h3.1
  · exact h3.2

/-- C77: if the missing value lies outside the range of the data, the result is missing exactly when one of the four
cells is missing; with filling of missing points it is instead the value of a cell with greatest weight. -/
theorem C77_missing (m : K) (w d : Fin 4 → K) (hw : IsMean w)
    (hm : (∀ c, m ≤ d c) ∨ (∀ c, d c ≤ m)) :
    (c2l (some m) false w d = m ↔ ∃ c, d c = m)
    ∧ ((∃ c, d c = m) → ∃ c, (∀ c', w c' ≤ w c) ∧ c2l (some m) true w d = d c) := by
  have any : (d 0 = m ∨ d 1 = m ∨ d 2 = m ∨ d 3 = m) ↔ ∃ c, d c = m := by
    constructor
    · rintro (h | h | h | h)
      exacts [⟨0, h⟩, ⟨1, h⟩, ⟨2, h⟩, ⟨3, h⟩]
    · rintro ⟨c, h⟩
      fin_cases c
      · exact Or.inl h
      · exact Or.inr (Or.inl h)
      · exact Or.inr (Or.inr (Or.inl h))
      · exact Or.inr (Or.inr (Or.inr h))
  constructor
  · constructor
    · intro h
      by_contra hne
      have hd : ∀ c, d c ≠ m := fun c hc => hne ⟨c, hc⟩
      have hv := (C77_value (some m) false w d (fun c hc => hd c (Option.some.inj hc).symm)).1 hw
      rcases hm with hm | hm
      · have hlt : ∀ c, m < d c := fun c => lt_of_le_of_ne (hm c) (Ne.symm (hd c))
        have := (hv (min (min (d 0) (d 1)) (min (d 2) (d 3))) (max (max (d 0) (d 1)) (max (d 2) (d 3))) (by
          intro c _
          fin_cases c <;> simp)).1
        rw [h] at this
        have h2 : m < min (min (d 0) (d 1)) (min (d 2) (d 3)) :=
          lt_min (lt_min (hlt 0) (hlt 1)) (lt_min (hlt 2) (hlt 3))
        exact absurd this (not_le.2 h2)
      · have hlt : ∀ c, d c < m := fun c => lt_of_le_of_ne (hm c) (hd c)
        have := (hv (min (min (d 0) (d 1)) (min (d 2) (d 3))) (max (max (d 0) (d 1)) (max (d 2) (d 3))) (by
          intro c _
          fin_cases c <;> simp)).2
        rw [h] at this
        have h2 : max (max (d 0) (d 1)) (max (d 2) (d 3)) < m :=
          max_lt (max_lt (hlt 0) (hlt 1)) (max_lt (hlt 2) (hlt 3))
        exact absurd this (not_le.2 h2)
    · intro h
      simp [c2l, any.2 h]
  · intro h
    exact ⟨maxWeightIndex w, maxWeightIndex_ge w, by simp [c2l, any.2 h]⟩

example : ∃ c, (∀ c', (![1/4, 1/2, 1/4, 0] : Fin 4 → ℚ) c' ≤ (![1/4, 1/2, 1/4, 0] : Fin 4 → ℚ) c)
    ∧ c2l (some (-99)) true (![1/4, 1/2, 1/4, 0] : Fin 4 → ℚ) ![-99, 5, 6, 7] = (![-99, 5, 6, 7] : Fin 4 → ℚ) c := by
  refine (C77_missing (-99) ![1/4, 1/2, 1/4, 0] ![-99, 5, 6, 7] ⟨?_, ?_⟩ (Or.inl ?_)).2 ⟨0, rfl⟩
  · intro m
    fin_cases m <;> simp
  · simp
    norm_num
  · intro m
    fin_cases m <;> simp <;> norm_num

/-- C77, violated: a cell of weight 0 should not matter, but at a corner of the cube, where the fourth cell does not
exist and holds 0, a missing value 0 makes the point missing. -/
theorem C77_corner_missing_wrong :
    ∃ w d : Fin 4 → ℚ, IsMean w ∧ (∀ c, w c ≠ 0 → d c = 5) ∧ c2l (some 0) false w d = 0 := by
  refine ⟨![1/3, 1/3, 0, 1/3], ![5, 5, 0, 5], ⟨?_, ?_⟩, ?_, ?_⟩
  · intro m
    fin_cases m <;> simp
  · simp
    norm_num
  · intro m
    fin_cases m <;> simp
  · simp [c2l]

/-! ### Vectors -/

theorem bessel (x e f : Fin 3 → K) (h : Orthonormal e f) :
    (x 0 * e 0 + x 1 * e 1 + x 2 * e 2) ^ 2 + (x 0 * f 0 + x 1 * f 1 + x 2 * f 2) ^ 2 ≤ x 0 ^ 2 + x 1 ^ 2 + x 2 ^ 2 := by
  obtain ⟨he, hf, hef⟩ := h
  set a := x 0 * e 0 + x 1 * e 1 + x 2 * e 2 with ha
  set b := x 0 * f 0 + x 1 * f 1 + x 2 * f 2 with hb
  have h1 : 0 ≤ (x 0 - a * e 0 - b * f 0) ^ 2 + (x 1 - a * e 1 - b * f 1) ^ 2 + (x 2 - a * e 2 - b * f 2) ^ 2 := by
    positivity
  have h2 : (x 0 - a * e 0 - b * f 0) ^ 2 + (x 1 - a * e 1 - b * f 1) ^ 2 + (x 2 - a * e 2 - b * f 2) ^ 2
      = x 0 ^ 2 + x 1 ^ 2 + x 2 ^ 2 - a ^ 2 - b ^ 2 := by
    linear_combination a ^ 2 * he + b ^ 2 * hf + 2 * a * b * hef + 2 * a * ha + 2 * b * hb
  linarith

theorem mean_sq (w y : Fin 4 → K) (hw : IsMean w) :
    (y 0 * w 0 + y 1 * w 1 + y 2 * w 2 + y 3 * w 3) ^ 2
      ≤ y 0 ^ 2 * w 0 + y 1 ^ 2 * w 1 + y 2 ^ 2 * w 2 + y 3 ^ 2 * w 3 := by
  obtain ⟨hn, hs⟩ := hw
  have h0 := hn 0
  have h1 := hn 1
  have h2 := hn 2
  have h3 := hn 3
  set t := y 0 * w 0 + y 1 * w 1 + y 2 * w 2 + y 3 * w 3 with ht
  have hp : 0 ≤ (y 0 - t) ^ 2 * w 0 + (y 1 - t) ^ 2 * w 1 + (y 2 - t) ^ 2 * w 2 + (y 3 - t) ^ 2 * w 3 := by positivity
  have he : (y 0 - t) ^ 2 * w 0 + (y 1 - t) ^ 2 * w 1 + (y 2 - t) ^ 2 * w 2 + (y 3 - t) ^ 2 * w 3
      = y 0 ^ 2 * w 0 + y 1 ^ 2 * w 1 + y 2 ^ 2 * w 2 + y 3 ^ 2 * w 3 - t ^ 2 := by
    linear_combination 2 * t * ht + t ^ 2 * hs
  linarith

/-- C77: without missing values the speed of the interpolated vector is not greater than the greatest speed of the four
cells, and at the centre of a cell the vector is that of the cell. -/
theorem C77_vector (fill : Bool) (w u v : Fin 4 → K) (elon elat : Fin 4 → Fin 3 → K) (elonOut elatOut : Fin 3 → K)
    (hin : ∀ c, Orthonormal (elon c) (elat c)) (hout : Orthonormal elonOut elatOut) :
    (IsMean w → ∀ s, (∀ c, u c ^ 2 + v c ^ 2 ≤ s) →
      (vectorInterp none fill w u v elon elat elonOut elatOut).1 ^ 2
        + (vectorInterp none fill w u v elon elat elonOut elatOut).2 ^ 2 ≤ s)
    ∧ (∀ c, w = unit c → elonOut = elon c → elatOut = elat c →
      vectorInterp none fill w u v elon elat elonOut elatOut = (u c, v c)) := by
  constructor
  · intro hw s hs
    have hb := bessel (fun n => c2l none fill w (fun c => toCartesian (u c) (v c) (elon c) (elat c) n)) _ _ hout
    refine le_trans hb ?_
    have hm := fun n => mean_sq w (fun c => toCartesian (u c) (v c) (elon c) (elat c) n) hw
    have hnorm : ∀ c, toCartesian (u c) (v c) (elon c) (elat c) 0 ^ 2 + toCartesian (u c) (v c) (elon c) (elat c) 1 ^ 2
        + toCartesian (u c) (v c) (elon c) (elat c) 2 ^ 2 = u c ^ 2 + v c ^ 2 := by
      intro c
      obtain ⟨h1, h2, h3⟩ := hin c
      unfold toCartesian
      linear_combination u c ^ 2 * h1 + v c ^ 2 * h2 + 2 * u c * v c * h3
    have k := fun c => mul_le_mul_of_nonneg_right (le_trans (hnorm c).le (hs c)) (hw.1 c)
    have h0 := hm 0
    have h1 := hm 1
    have h2 := hm 2
    have hs1 : s = s * w 0 + s * w 1 + s * w 2 + s * w 3 := by rw [← mul_add, ← mul_add, ← mul_add, hw.2, mul_one]
    have k0 := k 0
    have k1 := k 1
    have k2 := k 2
    have k3 := k 3
    simp only [c2l] at *
    linarith
  · rintro c hw h1 h2
    obtain ⟨e1, e2, e3⟩ := hin c
    have hx : ∀ n, c2l none fill w (fun c => toCartesian (u c) (v c) (elon c) (elat c) n)
        = toCartesian (u c) (v c) (elon c) (elat c) n := fun n =>
      (C77_value none fill w (fun c => toCartesian (u c) (v c) (elon c) (elat c) n) (by simp)).2 c hw
    unfold vectorInterp
    dsimp only
    rw [hx, hx, hx, h1, h2]
    unfold toCartesian
    ext
    · dsimp only
      linear_combination u c * e1 + v c * e3
    · dsimp only
      linear_combination v c * e2 + u c * e3

end values

/-- Unit vectors for the examples. -/
def bilLon : Fin 3 → ℚ := ![-3/5, 4/5, 0]
def bilLat : Fin 3 → ℚ := ![-16/25, -12/25, 3/5]

theorem bil_orthonormal : Orthonormal bilLon bilLat := by
  refine ⟨?_, ?_, ?_⟩ <;> simp [bilLon, bilLat] <;> norm_num

example : vectorInterp none false (unit 2) ![(1 : ℚ), 2, 3, 4] ![5, 6, 7, 8] (fun _ => bilLon) (fun _ => bilLat) bilLon bilLat
    = (3, 7) :=
  (C77_vector false (unit 2) ![1, 2, 3, 4] ![5, 6, 7, 8] _ _ _ _ (fun _ => bil_orthonormal) bil_orthonormal).2 2 rfl rfl rfl

/-- C77, violated: for vectors missing values are not noticed, because they are multiplied by the unit vectors before
they are looked for: one missing cell of four, where the others have no wind, gives a quarter of the missing value. -/
theorem C77_vector_missing_wrong (m : ℚ) (hm : m ≠ 0) :
    Orthonormal bilLon bilLat ∧
    vectorInterp (some m) false ![1/4, 1/4, 1/4, 1/4] ![m, 0, 0, 0] ![m, 0, 0, 0] (fun _ => bilLon) (fun _ => bilLat)
      bilLon bilLat = (m / 4, m / 4) := by
  refine ⟨bil_orthonormal, ?_⟩
  have hx : ∀ n, c2l (some m) false ![1/4, 1/4, 1/4, 1/4]
      (fun c => toCartesian ((![m, 0, 0, 0] : Fin 4 → ℚ) c) ((![m, 0, 0, 0] : Fin 4 → ℚ) c) bilLon bilLat n)
      = m / 4 * (bilLon n + bilLat n) := by
    intro n
    unfold c2l
    dsimp only
    rw [if_neg]
    · simp [toCartesian]
      ring
    · simp only [toCartesian, Matrix.cons_val_zero, Matrix.cons_val_one, Matrix.cons_val, zero_mul, add_zero, or_self]
      push Not
      refine ⟨?_, hm.symm⟩
      intro h
      have h1 : m * (bilLon n + bilLat n - 1) = 0 := by linear_combination h
      rcases mul_eq_zero.1 h1 with h2 | h2
      · exact hm h2
      · fin_cases n <;> simp [bilLon, bilLat] at h2 <;> norm_num at h2
  unfold vectorInterp
  dsimp only
  rw [hx, hx, hx]
  ext <;> simp [bilLon, bilLat] <;> ring

end Verif
