import Verif.Model.Gradient
import Mathlib.Algebra.Order.Ring.Rat
import Mathlib.Algebra.Field.Rat
import Mathlib.Algebra.BigOperators.Fin
import Mathlib.Tactic.NormNum
import Mathlib.Tactic.Linarith
import Mathlib.Tactic.Positivity
import Mathlib.Tactic.FieldSimp
import Mathlib.Tactic.Ring
import Mathlib.Tactic.SplitIfs
import Mathlib.Tactic.FinCases
import Mathlib.LinearAlgebra.Matrix.Notation
import Mathlib.Tactic.LinearCombination
/-
C79: gradient of a field for second order conservative interpolation.
-/
namespace Verif

open Verif.Gradient

section field
variable {K : Type} [Field K] [LinearOrder K] [IsStrictOrderedRing K]

/-- A place of the array with halo which belongs to no cell: a corner of the halo where two edges of the cube meet. -/
def NoCell (e : Edges) (nx ny j i : Nat) : Prop :=
  (e.west ∧ e.south ∧ j = 0 ∧ i = 0) ∨ (e.east ∧ e.south ∧ j = 0 ∧ i = nx + 1)
  ∨ (e.west ∧ e.north ∧ j = ny + 1 ∧ i = 0) ∨ (e.east ∧ e.north ∧ j = ny + 1 ∧ i = nx + 1)

theorem grad_mix {lo hi w a b : K} (hw : 0 ≤ w ∧ w ≤ 1) (ha : lo ≤ a ∧ a ≤ hi) (hb : lo ≤ b ∧ b ≤ hi) :
    lo ≤ w * a + (1 - w) * b ∧ w * a + (1 - w) * b ≤ hi := by
  obtain ⟨h0, h1⟩ := hw
  have h1' : 0 ≤ 1 - w := by linarith
  constructor
  · have := mul_le_mul_of_nonneg_left ha.1 h0
    have := mul_le_mul_of_nonneg_left hb.1 h1'
    linarith
  · have := mul_le_mul_of_nonneg_left ha.2 h0
    have := mul_le_mul_of_nonneg_left hb.2 h1'
    linarith

set_option maxHeartbeats 2000000 in
/-- C79: every corner of a tile gets a value, for every choice of edges, and it lies between the least and greatest value
of the cells at that corner: the four cells which touch it, without the places that belong to no cell. -/
theorem C79_corners (e : Edges) (nx ny : Nat) (ew : EdgeWeights K) (q : Nat → Nat → K) (hx : 1 ≤ nx) (hy : 1 ≤ ny)
    (hw : ∀ k, (0 ≤ ew.w k ∧ ew.w k ≤ 1) ∧ (0 ≤ ew.e k ∧ ew.e k ≤ 1) ∧ (0 ≤ ew.s k ∧ ew.s k ≤ 1)
      ∧ (0 ≤ ew.n k ∧ ew.n k ≤ 1))
    (j i : Nat) (hj : j ≤ ny) (hi : i ≤ nx) :
    ∃ x, a2b e nx ny ew q j i = some x ∧ ∀ a b,
      (∀ j' i', (j' = j ∨ j' = j + 1) → (i' = i ∨ i' = i + 1) → ¬NoCell e nx ny j' i' → a ≤ q j' i' ∧ q j' i' ≤ b) →
      a ≤ x ∧ x ≤ b := by
  have quarter : ∀ a b w x y z : K, (a ≤ w ∧ w ≤ b) → (a ≤ x ∧ x ≤ b) → (a ≤ y ∧ y ≤ b) → (a ≤ z ∧ z ≤ b) →
      a ≤ 1 / 4 * (w + x + y + z) ∧ 1 / 4 * (w + x + y + z) ≤ b := by
    rintro a b w x y z ⟨h1, h2⟩ ⟨h3, h4⟩ ⟨h5, h6⟩ ⟨h7, h8⟩
    constructor <;> linarith
  have third : ∀ a b x y z : K, (a ≤ x ∧ x ≤ b) → (a ≤ y ∧ y ≤ b) → (a ≤ z ∧ z ≤ b) →
      a ≤ 1 / 3 * (x + y + z) ∧ 1 / 3 * (x + y + z) ≤ b := by
    rintro a b x y z ⟨h3, h4⟩ ⟨h5, h6⟩ ⟨h7, h8⟩
    constructor <;> linarith
  have half : ∀ a b x y : K, (a ≤ x ∧ x ≤ b) → (a ≤ y ∧ y ≤ b) → a ≤ 1 / 2 * (x + y) ∧ 1 / 2 * (x + y) ≤ b := by
    rintro a b x y ⟨h3, h4⟩ ⟨h5, h6⟩
    constructor <;> linarith
  obtain ⟨W, E, S, N⟩ := e
  unfold a2b
  dsimp only
  cases W <;> cases E <;> cases S <;> cases N <;>
    simp only [istart, iend, jstart, jend, NoCell, if_true, if_false, Bool.false_eq_true, false_and, true_and, or_false,
      false_or, not_false_eq_true, forall_true_left] <;>
    split_ifs <;>
    first
    | (exfalso; omega)
    | (refine ⟨_, rfl, fun a b h => ?_⟩
       first
       | (apply quarter <;> apply h <;> omega)
       | (apply third <;> apply h <;> omega)
       | (apply grad_mix
          · first
            | exact (hw _).1
            | exact (hw _).2.1
            | exact (hw _).2.2.1
            | exact (hw _).2.2.2
          · apply half <;> apply h <;> omega
          · apply half <;> apply h <;> omega))

/-- Edges and weights for the examples: a whole tile of the cube. -/
def gradAll : Edges := ⟨true, true, true, true⟩
def gradHalf : EdgeWeights ℚ := ⟨fun _ => 1 / 2, fun _ => 1 / 2, fun _ => 1 / 2, fun _ => 1 / 2⟩

example : ∃ x, a2b gradAll 3 3 gradHalf (fun j i => if (j = 0 ∧ i = 0) then 99 else (j + i : ℚ)) 0 0 = some x
    ∧ 1 ≤ x ∧ x ≤ 2 := by
  obtain ⟨x, h1, h2⟩ := C79_corners gradAll 3 3 gradHalf (fun j i => if (j = 0 ∧ i = 0) then 99 else (j + i : ℚ)) (by omega)
    (by omega) (fun k => by norm_num [gradHalf]) 0 0 (by omega) (by omega)
  refine ⟨x, h1, h2 1 2 ?_⟩
  rintro j' i' (rfl | rfl) (rfl | rfl) h
  · simp [NoCell, gradAll] at h
  all_goals norm_num

set_option maxHeartbeats 1000000 in
/-- C79: away from the edges of the cube the value at a corner is the mean of the four cells which touch it, and at a
corner of the cube the mean of the three cells there. -/
theorem C79_equal_shares (e : Edges) (nx ny : Nat) (ew : EdgeWeights K) (q : Nat → Nat → K) (hx : 1 ≤ nx) (hy : 1 ≤ ny)
    (j i : Nat) (hj : j ≤ ny) (hi : i ≤ nx) :
    ((e.west = true → i ≠ 0) → (e.east = true → i ≠ nx) → (e.south = true → j ≠ 0) → (e.north = true → j ≠ ny) →
      a2b e nx ny ew q j i = some ((q j i + q j (i + 1) + q (j + 1) i + q (j + 1) (i + 1)) / 4))
    ∧ (e.west = true → e.south = true → a2b e nx ny ew q 0 0 = some ((q 0 1 + q 1 0 + q 1 1) / 3))
    ∧ (e.east = true → e.south = true → a2b e nx ny ew q 0 nx = some ((q 0 nx + q 1 nx + q 1 (nx + 1)) / 3))
    ∧ (e.west = true → e.north = true → a2b e nx ny ew q ny 0 = some ((q ny 0 + q ny 1 + q (ny + 1) 1) / 3))
    ∧ (e.east = true → e.north = true →
      a2b e nx ny ew q ny nx = some ((q ny nx + q ny (nx + 1) + q (ny + 1) nx) / 3)) := by
  obtain ⟨W, E, S, N⟩ := e
  unfold a2b
  dsimp only
  refine ⟨fun h1 h2 h3 h4 => ?_, fun h1 h2 => ?_, fun h1 h2 => ?_, fun h1 h2 => ?_, fun h1 h2 => ?_⟩ <;>
  cases W <;> cases E <;> cases S <;> cases N <;>
    simp only [istart, iend, jstart, jend, if_true, if_false, Bool.false_eq_true, false_and, true_and,
      forall_true_left, ne_eq, false_implies, reduceCtorEq] at * <;>
    split_ifs <;>
    first
    | (exfalso; omega)
    | (congr 1; ring)

example : a2b gradAll 3 3 gradHalf (fun j i => if (j = 0 ∧ i = 0) then 99 else (j + i : ℚ)) 0 0 = some (4 / 3)
    ∧ a2b gradAll 3 3 gradHalf (fun j i => if (j = 0 ∧ i = 0) then 99 else (j + i : ℚ)) 1 2 = some 4 := by
  constructor
  · rw [(C79_equal_shares gradAll 3 3 gradHalf _ (by omega) (by omega) 0 0 (by omega) (by omega)).2.1 rfl rfl]
    norm_num
  · rw [(C79_equal_shares gradAll 3 3 gradHalf _ (by omega) (by omega) 1 2 (by omega) (by omega)).1 (by simp) (by simp)
      (by simp) (by simp)]
    norm_num

/-- C79: at an edge of the cube the value at a corner is exact for a field whose mean across the edge is a linear function
of the position `s` along the edge: the weights belong to the right cells. `t k` is the position of corner `k`. -/
theorem C79_edge_linear (e : Edges) (nx ny : Nat) (ew : EdgeWeights K) (q : Nat → Nat → K) (s t : Nat → K) (a b : K)
    (hx : 1 ≤ nx) (hy : 1 ≤ ny) (hs : ∀ k, s k < s (k + 1)) (ht : ∀ k, s k ≤ t k ∧ t k ≤ s (k + 1)) :
    (∀ j, jstart e ≤ j → j < jend e ny →
      (e.west = true → ew.w = edgeWeight (fun x y => |x - y|) e.west (jstart e) (jend e ny) s t →
        (∀ j, (q j 0 + q j 1) / 2 = a + b * s j) → a2b e nx ny ew q j 0 = some (a + b * t j))
      ∧ (e.east = true → ew.e = edgeWeight (fun x y => |x - y|) e.east (jstart e) (jend e ny) s t →
        (∀ j, (q j nx + q j (nx + 1)) / 2 = a + b * s j) → a2b e nx ny ew q j nx = some (a + b * t j)))
    ∧ (∀ i, istart e ≤ i → i < iend e nx →
      (e.south = true → ew.s = edgeWeight (fun x y => |x - y|) e.south (istart e) (iend e nx) s t →
        (∀ i, (q 0 i + q 1 i) / 2 = a + b * s i) → a2b e nx ny ew q 0 i = some (a + b * t i))
      ∧ (e.north = true → ew.n = edgeWeight (fun x y => |x - y|) e.north (istart e) (iend e nx) s t →
        (∀ i, (q ny i + q (ny + 1) i) / 2 = a + b * s i) → a2b e nx ny ew q ny i = some (a + b * t i))) := by
  have key : ∀ (on : Bool) (lo hi k : Nat) (x y : K), on = true → lo ≤ k → k < hi → x = a + b * s k → y = a + b * s (k + 1) →
      edgeWeight (fun x y => |x - y|) on lo hi s t k * x + (1 - edgeWeight (fun x y => |x - y|) on lo hi s t k) * y
        = a + b * t k := by
    intro on lo hi k x y h1 h2 h3 h4 h5
    unfold edgeWeight
    rw [if_pos ⟨h1, h2, h3⟩]
    dsimp only
    have e1 : |s k - t k| = t k - s k := by rw [abs_sub_comm, abs_of_nonneg (by linarith [(ht k).1])]
    have e2 : |s (k + 1) - t k| = s (k + 1) - t k := abs_of_nonneg (by linarith [(ht k).2])
    rw [e1, e2, h4, h5]
    have hp : t k - s k + (s (k + 1) - t k) ≠ 0 := by
      have := hs k
      intro h
      linarith
    field_simp
    ring
  have half : ∀ x y z : K, (x + y) / 2 = z → 1 / 2 * (x + y) = z := by
    intro x y z h
    rw [← h]
    ring
  obtain ⟨W, E, S, N⟩ := e
  refine ⟨fun j h1 h2 => ⟨fun on hw hq => ?_, fun on hw hq => ?_⟩, fun i h1 h2 => ⟨fun on hw hq => ?_, fun on hw hq => ?_⟩⟩ <;>
    dsimp only at on <;> subst on <;> unfold a2b <;> dsimp only
  · rw [if_neg, if_neg, if_neg, if_pos ⟨rfl, rfl, h1, h2⟩, hw]
    · exact congrArg some (key _ _ _ _ _ _ rfl h1 h2 (half _ _ _ (hq j)) (half _ _ _ (hq (j + 1))))
    · omega
    · simp [istart]
    · simp [istart]
  · rw [if_neg, if_neg, if_pos ⟨rfl, rfl, h1, h2⟩, hw]
    · exact congrArg some (key _ _ _ _ _ _ rfl h1 h2 (half _ _ _ (hq j)) (half _ _ _ (hq (j + 1))))
    · simp [iend]
    · simp [iend]
  · rw [if_neg (by omega), if_pos ⟨rfl, rfl, h1, h2⟩, hw]
    exact congrArg some (key _ _ _ _ _ _ rfl h1 h2 (half _ _ _ (hq i)) (half _ _ _ (hq (i + 1))))
  · rw [if_pos ⟨rfl, rfl, h1, h2⟩, hw]
    exact congrArg some (key _ _ _ _ _ _ rfl h1 h2 (half _ _ _ (hq i)) (half _ _ _ (hq (i + 1))))

example : a2b gradAll 4 4 ⟨edgeWeight (fun x y : ℚ => |x - y|) true 1 4 (fun k => k) (fun k => k + 1 / 4), fun _ => 0, fun _ => 0,
    fun _ => 0⟩ (fun j i => if i ≤ 1 then 3 + 2 * (j : ℚ) else 0) 2 0 = some (3 + 2 * (2 + 1 / 4)) :=
  (((C79_edge_linear gradAll 4 4 ⟨edgeWeight (fun x y : ℚ => |x - y|) true 1 4 (fun k => k) (fun k => k + 1 / 4), fun _ => 0,
    fun _ => 0, fun _ => 0⟩ (fun j i => if i ≤ 1 then 3 + 2 * (j : ℚ) else 0) (fun k => k) (fun k => k + 1 / 4) 3 2 (by omega)
    (by omega) (fun k => by push_cast; linarith) (fun k => by push_cast; constructor <;> linarith)).1 2 (by decide) (by decide)).1
    rfl rfl (fun j => by norm_num))

/-- C79: on a flat grid the gradient is exact: with corners at `(x, y)` in a plane spanned by the unit vectors to the east
and north, areas and normals of that grid, and values `a + b x + c y` at the corners, the gradient is `(b, c)` times the
radius. -/
theorem C79_flat (radius : K) (m : Metric K) (x y : Nat → Nat → K) (east north : Fin 3 → K) (a b c : K) (j i : Nat)
    (hee : east 0 ^ 2 + east 1 ^ 2 + east 2 ^ 2 = 1) (hnn : north 0 ^ 2 + north 1 ^ 2 + north 2 ^ 2 = 1)
    (hen : east 0 * north 0 + east 1 * north 1 + east 2 * north 2 = 0)
    (hlon : m.vlon j i = east) (hlat : m.vlat j i = north)
    (hN : ∀ j n, m.dx j i * m.enN j i n = (x j (i + 1) - x j i) * north n - (y j (i + 1) - y j i) * east n)
    (hE : ∀ i n, m.dy j i * m.enE j i n = (y (j + 1) i - y j i) * east n - (x (j + 1) i - x j i) * north n)
    (harea : m.area j i = 1 / 2 * ((x (j + 1) (i + 1) - x j i) * (y (j + 1) i - y j (i + 1))
      - (y (j + 1) (i + 1) - y j i) * (x (j + 1) i - x j (i + 1))))
    (hpos : 0 < m.area j i) :
    gradCorners radius m (fun j i => a + b * x j i + c * y j i) j i = (b * radius, c * radius) := by
  have hg : ∀ n, grad3 m (fun j i => a + b * x j i + c * y j i) j i n = m.area j i * (b * east n + c * north n) := by
    intro n
    have h1 := hN j n
    have h2 := hN (j + 1) n
    have h3 := hE i n
    have h4 := hE (i + 1) n
    unfold grad3 pdx pdy
    rw [harea, mul_assoc (1 / 2 * _), mul_assoc (1 / 2 * _), mul_assoc (1 / 2 * _), mul_assoc (1 / 2 * _), h1, h2, h3, h4]
    ring
  unfold gradCorners
  dsimp only
  rw [hg, hg, hg, hlon, hlat]
  have hne := hpos.ne'
  ext
  · dsimp only
    field_simp
    linear_combination radius * (b * hee + c * hen)
  · dsimp only
    field_simp
    linear_combination radius * (c * hnn + b * hen)

omit [LinearOrder K] [IsStrictOrderedRing K] in
theorem linear_ite {c : Prop} [Decidable c] {a b : K} {x x' y y' z z' : Option K}
    (h1 : x.getD 0 = a * y.getD 0 + b * z.getD 0) (h2 : x'.getD 0 = a * y'.getD 0 + b * z'.getD 0) :
    (if c then x else x').getD 0 = a * (if c then y else y').getD 0 + b * (if c then z else z').getD 0 := by
  split
  · exact h1
  · exact h2

theorem a2b_linear (e : Edges) (nx ny : Nat) (ew : EdgeWeights K) (p q : Nat → Nat → K) (a b : K) (j i : Nat) :
    (a2b e nx ny ew (fun j i => a * p j i + b * q j i) j i).getD 0
      = a * (a2b e nx ny ew p j i).getD 0 + b * (a2b e nx ny ew q j i).getD 0 := by
  unfold a2b
  dsimp only
  repeat' apply linear_ite
  all_goals
    simp only [Option.getD_some, Option.getD_none]
    ring

/-- C79: the gradient is a linear function of the field. -/
theorem C79_linear (radius : K) (e : Edges) (nx ny : Nat) (ew : EdgeWeights K) (m : Metric K) (p q : Nat → Nat → K)
    (a b : K) (j i : Nat) :
    gradC2l radius e nx ny ew m (fun j i => a * p j i + b * q j i) j i
      = (a * (gradC2l radius e nx ny ew m p j i).1 + b * (gradC2l radius e nx ny ew m q j i).1,
        a * (gradC2l radius e nx ny ew m p j i).2 + b * (gradC2l radius e nx ny ew m q j i).2) := by
  unfold gradC2l gradCorners
  dsimp only
  unfold grad3 pdx pdy
  simp only [a2b_linear]
  ext <;> dsimp only <;> ring

/-- C79: the gradient of a constant is 0 in a cell whose normals, times the lengths of the edges, have a sum without
component along the unit vectors of the cell. -/
theorem C79_constant (radius : K) (e : Edges) (nx ny : Nat) (ew : EdgeWeights K) (m : Metric K) (c : K) (j i : Nat)
    (hx : 1 ≤ nx) (hy : 1 ≤ ny)
    (hw : ∀ k, (0 ≤ ew.w k ∧ ew.w k ≤ 1) ∧ (0 ≤ ew.e k ∧ ew.e k ≤ 1) ∧ (0 ≤ ew.s k ∧ ew.s k ≤ 1)
      ∧ (0 ≤ ew.n k ∧ ew.n k ≤ 1)) (hj : j < ny) (hi : i < nx)
    (hlon : ∑ n, m.vlon j i n * (m.dx (j + 1) i * m.enN (j + 1) i n - m.dx j i * m.enN j i n
      - m.dy j i * m.enE j i n + m.dy j (i + 1) * m.enE j (i + 1) n) = 0)
    (hlat : ∑ n, m.vlat j i n * (m.dx (j + 1) i * m.enN (j + 1) i n - m.dx j i * m.enN j i n
      - m.dy j i * m.enE j i n + m.dy j (i + 1) * m.enE j (i + 1) n) = 0) :
    gradC2l radius e nx ny ew m (fun _ _ => c) j i = (0, 0) := by
  have hc : ∀ j i, j ≤ ny → i ≤ nx → (a2b e nx ny ew (fun _ _ => c) j i).getD 0 = c := by
    intro j i hj hi
    obtain ⟨x, h1, h2⟩ := C79_corners e nx ny ew (fun _ _ => c) hx hy hw j i hj hi
    have h3 := h2 c c (fun _ _ _ _ _ => ⟨le_refl _, le_refl _⟩)
    rw [h1]
    exact le_antisymm h3.2 h3.1
  unfold gradC2l gradCorners grad3 pdx pdy
  dsimp only
  rw [hc j i (by omega) (by omega), hc (j + 1) i (by omega) (by omega), hc j (i + 1) (by omega) (by omega),
    hc (j + 1) (i + 1) (by omega) (by omega)]
  rw [Fin.sum_univ_three] at hlon hlat
  ext
  · dsimp only
    rw [div_mul_eq_mul_div, div_eq_zero_iff]
    left
    linear_combination c * radius * hlon
  · dsimp only
    rw [div_mul_eq_mul_div, div_eq_zero_iff]
    left
    linear_combination c * radius * hlat

end field

/-- A flat grid for the examples, with columns of width 2 and rows of height 1. -/
def gradFlat : Metric ℚ where
  dx _ _ := 2
  dy _ _ := 1
  area _ _ := 2
  enN _ _ := ![0, 0, 1]
  enE _ _ := ![0, 1, 0]
  vlon _ _ := ![0, 1, 0]
  vlat _ _ := ![0, 0, 1]

example : gradCorners 1 gradFlat (fun j i => 5 + 3 * (2 * i : ℚ) + 7 * (j : ℚ)) 1 2 = (3 * 1, 7 * 1) := by
  apply C79_flat 1 gradFlat (fun _ i => 2 * i) (fun j _ => j) ![0, 1, 0] ![0, 0, 1] 5 3 7 1 2
  · simp
  · simp
  · simp
  · rfl
  · rfl
  · intro j n
    fin_cases n <;> simp [gradFlat] <;> ring
  · intro j n
    fin_cases n <;> simp [gradFlat] <;> norm_num
  · norm_num [gradFlat]
  · norm_num [gradFlat]

example (p : Nat → Nat → ℚ) : (gradC2l 1 gradAll 3 3 gradHalf gradFlat (fun j i => 2 * p j i + 3 * 1) 1 1).1
    = 2 * (gradC2l 1 gradAll 3 3 gradHalf gradFlat p 1 1).1
      + 3 * (gradC2l 1 gradAll 3 3 gradHalf gradFlat (fun _ _ => 1) 1 1).1 := by
  rw [C79_linear 1 gradAll 3 3 gradHalf gradFlat p (fun _ _ => 1) 2 3 1 1]

example : gradC2l 1 gradAll 3 3 gradHalf gradFlat (fun _ _ => 42) 0 2 = (0, 0) := by
  apply C79_constant
  · omega
  · omega
  · intro k
    norm_num [gradHalf]
  · omega
  · omega
  · rw [Fin.sum_univ_three]
    norm_num [gradFlat]
  · rw [Fin.sum_univ_three]
    norm_num [gradFlat]

/-- C79, violated: when all levels are read at once, the gradients of every level are written to the first level, so the
first level has the gradient of the last one and the others have none. -/
theorem C79_levels_wrong {G : Type} (nz : Nat) (grad : Nat → G) (h : 1 ≤ nz) :
    gradLevels nz grad 0 = some (grad (nz - 1)) ∧ ∀ k, 1 ≤ k → gradLevels nz grad k = none := by
  induction nz with
  | zero => omega
  | succ n ih =>
    unfold gradLevels at *
    rw [List.range_succ, List.foldl_append]
    simp only [List.foldl_cons, List.foldl_nil, if_true, Nat.add_sub_cancel, true_and]
    intro k hk
    rw [if_neg (by omega)]
    by_cases hn : 1 ≤ n
    · exact (ih hn).2 k hk
    · have : n = 0 := by omega
      subst this
      rfl

example : gradLevels 3 (fun k => 10 * k) 0 = some 20 := (C79_levels_wrong 3 (fun k => 10 * k) (by omega)).1

end Verif
