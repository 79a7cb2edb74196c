import Verif.Props.CubicHalo
import Verif.Props.Decomposition
import Mathlib.Tactic.Tauto
import Mathlib.Tactic.NormNum
import Mathlib.Tactic.ByContra
/-
C38: processors that are masked out hold no ocean.
-/
namespace Verif.CheckMask
open Verif.Spec
variable {K : Type*} [Field K] [LinearOrder K] [IsStrictOrderedRing K]

/-! ### The field with its halo -/

theorem mem_cyclicX {nx ny halo : Nat} {p : (Nat × Nat) × (Nat × Nat)} : p ∈ cyclicXLoop nx ny halo ↔
    ∃ i j, i < halo ∧ j < ny ∧ (p = ((i, j + halo), (nx + halo - 1 - i, j + halo)) ∨
      p = ((nx + halo + i, j + halo), (halo + i, j + halo))) := by
  unfold cyclicXLoop
  simp only [List.mem_flatMap, List.mem_append, List.mem_map, List.mem_range]
  constructor
  · rintro ⟨j, hj, ⟨i, hi, rfl⟩ | ⟨i, hi, rfl⟩⟩
    · exact ⟨i, j, hi, hj, .inl rfl⟩
    · exact ⟨i, j, hi, hj, .inr rfl⟩
  · rintro ⟨i, j, hi, hj, rfl | rfl⟩
    · exact ⟨j, hj, .inl ⟨i, hi, rfl⟩⟩
    · exact ⟨j, hj, .inr ⟨i, hi, rfl⟩⟩

theorem mem_cyclicY {nx ny halo : Nat} {p : (Nat × Nat) × (Nat × Nat)} : p ∈ cyclicYLoop nx ny halo ↔
    ∃ i j, i < nx ∧ j < halo ∧ (p = ((i + halo, j), (i + halo, ny + halo - 1 - j)) ∨
      p = ((i + halo, ny + halo + j), (i + halo, halo + j))) := by
  unfold cyclicYLoop
  simp only [List.mem_flatMap, List.mem_append, List.mem_map, List.mem_range]
  constructor
  · rintro ⟨i, hi, ⟨j, hj, rfl⟩ | ⟨j, hj, rfl⟩⟩
    · exact ⟨i, j, hi, hj, .inl rfl⟩
    · exact ⟨i, j, hi, hj, .inr rfl⟩
  · rintro ⟨i, j, hi, hj, rfl | rfl⟩
    · exact ⟨i, hi, .inl ⟨j, hj, rfl⟩⟩
    · exact ⟨i, hi, .inr ⟨j, hj, rfl⟩⟩

theorem mem_tripolar {nx ny halo : Nat} {p : (Nat × Nat) × (Nat × Nat)} : p ∈ tripolarLoop nx ny halo ↔
    ∃ i j, i < nx + 2 * halo ∧ j < halo ∧
      p = ((i, ny + halo + j), (nx + 2 * halo - 1 - i, ny + halo - 1 - j)) := by
  unfold tripolarLoop
  simp only [List.mem_flatMap, List.mem_map, List.mem_range]
  constructor
  · rintro ⟨i, hi, j, hj, rfl⟩; exact ⟨i, j, hi, hj, rfl⟩
  · rintro ⟨i, j, hi, hj, rfl⟩; exact ⟨i, hi, j, hj, rfl⟩

/-- The value in column `i` (with halo) of an inner row. -/
def colVal (b : Basin K) (halo i y : Nat) : K :=
  if halo ≤ i ∧ i < halo + b.nx then b.wet (i - halo) y
  else if b.cyclicX then (if i < halo then b.wet (b.nx - 1 - i) y else b.wet (i - b.nx - halo) y) else 0

theorem stage1 (b : Basin K) (halo i j : Nat) (hx : halo ≤ b.nx) (hi : i < b.nx + 2 * halo) :
    (if b.cyclicX then copyLoop (cyclicXLoop b.nx b.ny halo) (b.padded halo) else b.padded halo) (i, j) =
      if halo ≤ j ∧ j < halo + b.ny then colVal b halo i (j - halo) else 0 := by
  have hsrc : ∀ p ∈ cyclicXLoop b.nx b.ny halo, ∀ q ∈ cyclicXLoop b.nx b.ny halo, p.1 ≠ q.2 := by
    intro p hp q hq e
    obtain ⟨i1, j1, a1, b1, rfl | rfl⟩ := mem_cyclicX.1 hp <;> obtain ⟨i2, j2, a2, b2, rfl | rfl⟩ := mem_cyclicX.1 hq <;>
      simp only [Prod.mk.injEq] at e <;> omega
  have hfun : ∀ p ∈ cyclicXLoop b.nx b.ny halo, ∀ q ∈ cyclicXLoop b.nx b.ny halo, p.1 = q.1 → p.2 = q.2 := by
    intro p hp q hq e
    obtain ⟨i1, j1, a1, b1, rfl | rfl⟩ := mem_cyclicX.1 hp <;> obtain ⟨i2, j2, a2, b2, rfl | rfl⟩ := mem_cyclicX.1 hq <;>
      simp only [Prod.mk.injEq] at e ⊢ <;> omega
  by_cases hj : halo ≤ j ∧ j < halo + b.ny
  · rw [if_pos hj]
    unfold colVal
    by_cases hin : halo ≤ i ∧ i < halo + b.nx
    · rw [if_pos hin]
      have hp : b.padded halo (i, j) = b.wet (i - halo) (j - halo) := by
        unfold Basin.padded; rw [if_pos ⟨hin.1, hin.2, hj.1, hj.2⟩]
      split
      · rw [copyLoop_other, hp]
        intro p hp e
        obtain ⟨i1, j1, a1, b1, rfl | rfl⟩ := mem_cyclicX.1 hp <;> simp only [Prod.mk.injEq] at e <;> omega
      · exact hp
    · rw [if_neg hin]
      split
      · rename_i hc
        by_cases hw : i < halo
        · rw [if_pos hw, copyLoop_get _ _ hsrc hfun (i, j) (b.nx + halo - 1 - i, j)
            (mem_cyclicX.2 ⟨i, j - halo, hw, by omega, .inl (by rw [Nat.sub_add_cancel hj.1])⟩)]
          unfold Basin.padded
          rw [if_pos (by simp only; omega)]
          congr 1; simp only; omega
        · rw [if_neg hw, copyLoop_get _ _ hsrc hfun (i, j) (halo + (i - b.nx - halo), j)
            (mem_cyclicX.2 ⟨i - b.nx - halo, j - halo, by omega, by omega, .inr (by
              rw [Nat.sub_add_cancel hj.1]; congr 2; omega)⟩)]
          unfold Basin.padded
          rw [if_pos (by simp only; omega)]
          congr 1; simp only; omega
      · unfold Basin.padded
        rw [if_neg (by simp only; omega)]
  · rw [if_neg hj]
    have hp : b.padded halo (i, j) = 0 := by
      unfold Basin.padded; rw [if_neg (by simp only; omega)]
    split
    · rw [copyLoop_other, hp]
      intro p hp e
      obtain ⟨i1, j1, a1, b1, rfl | rfl⟩ := mem_cyclicX.1 hp <;> simp only [Prod.mk.injEq] at e <;> omega
    · exact hp

/-- The value of the field with its halo. -/
theorem field_val (b : Basin K) (halo i j : Nat) (hx : halo ≤ b.nx) (hy : halo ≤ b.ny) (hi : i < b.nx + 2 * halo)
    (hj : j < b.ny + 2 * halo) :
    b.field halo (i, j) =
      if halo ≤ j ∧ j < halo + b.ny then colVal b halo i (j - halo)
      else if b.tripolar ∧ halo + b.ny ≤ j then colVal b halo (b.nx + 2 * halo - 1 - i) (2 * b.ny + halo - 1 - j)
      else if b.cyclicY ∧ halo ≤ i ∧ i < halo + b.nx then
        (if j < halo then colVal b halo i (b.ny - 1 - j) else colVal b halo i (j - b.ny - halo))
      else 0 := by
  have s1 := fun i j hi => stage1 b halo i j hx hi
  unfold Basin.field
  generalize (if b.cyclicX then copyLoop (cyclicXLoop b.nx b.ny halo) (b.padded halo) else b.padded halo) = w1 at s1 ⊢
  have s2 : ∀ i j, i < b.nx + 2 * halo → j < b.ny + 2 * halo →
      (if b.cyclicY then copyLoop (cyclicYLoop b.nx b.ny halo) w1 else w1) (i, j) =
      if halo ≤ j ∧ j < halo + b.ny then colVal b halo i (j - halo)
      else if b.cyclicY ∧ halo ≤ i ∧ i < halo + b.nx then
        (if j < halo then colVal b halo i (b.ny - 1 - j) else colVal b halo i (j - b.ny - halo))
      else 0 := by
    intro i j hi hj
    have hsrc : ∀ p ∈ cyclicYLoop b.nx b.ny halo, ∀ q ∈ cyclicYLoop b.nx b.ny halo, p.1 ≠ q.2 := by
      intro p hp q hq e
      obtain ⟨i1, j1, a1, b1, rfl | rfl⟩ := mem_cyclicY.1 hp <;> obtain ⟨i2, j2, a2, b2, rfl | rfl⟩ := mem_cyclicY.1 hq <;>
        simp only [Prod.mk.injEq] at e <;> omega
    have hfun : ∀ p ∈ cyclicYLoop b.nx b.ny halo, ∀ q ∈ cyclicYLoop b.nx b.ny halo, p.1 = q.1 → p.2 = q.2 := by
      intro p hp q hq e
      obtain ⟨i1, j1, a1, b1, rfl | rfl⟩ := mem_cyclicY.1 hp <;> obtain ⟨i2, j2, a2, b2, rfl | rfl⟩ := mem_cyclicY.1 hq <;>
        simp only [Prod.mk.injEq] at e ⊢ <;> omega
    by_cases hjin : halo ≤ j ∧ j < halo + b.ny
    · rw [if_pos hjin]
      have := s1 i j hi
      rw [if_pos hjin] at this
      by_cases hc : b.cyclicY
      · rw [if_pos hc, copyLoop_other, this]
        intro p hp e
        obtain ⟨i1, j1, a1, b1, rfl | rfl⟩ := mem_cyclicY.1 hp <;> simp only [Prod.mk.injEq] at e <;> omega
      · rw [if_neg hc, this]
    · rw [if_neg hjin]
      have h0 := s1 i j hi
      rw [if_neg hjin] at h0
      by_cases hc : b.cyclicY
      · rw [if_pos hc]
        by_cases hin : halo ≤ i ∧ i < halo + b.nx
        · rw [if_pos ⟨hc, hin.1, hin.2⟩]
          by_cases hs : j < halo
          · rw [if_pos hs, copyLoop_get _ _ hsrc hfun (i, j) (i, b.ny + halo - 1 - j)
              (mem_cyclicY.2 ⟨i - halo, j, by omega, hs, .inl (by rw [Nat.sub_add_cancel hin.1])⟩),
              s1 i _ hi, if_pos (by omega)]
            congr 1; omega
          · rw [if_neg hs, copyLoop_get _ _ hsrc hfun (i, j) (i, halo + (j - b.ny - halo))
              (mem_cyclicY.2 ⟨i - halo, j - b.ny - halo, by omega, by omega, .inr (by
                rw [Nat.sub_add_cancel hin.1]; congr 2; omega)⟩),
              s1 i _ hi, if_pos (by omega)]
            congr 1; omega
        · rw [if_neg (by tauto), copyLoop_other, h0]
          intro p hp e
          obtain ⟨i1, j1, a1, b1, rfl | rfl⟩ := mem_cyclicY.1 hp <;> simp only [Prod.mk.injEq] at e <;> omega
      · rw [if_neg hc, h0, if_neg (by tauto)]
  generalize (if b.cyclicY then copyLoop (cyclicYLoop b.nx b.ny halo) w1 else w1) = w2 at s2 ⊢
  by_cases ht : b.tripolar
  · rw [if_pos ht]
    by_cases hjn : halo + b.ny ≤ j
    · rw [if_neg (show ¬(halo ≤ j ∧ j < halo + b.ny) by omega), if_pos (show b.tripolar ∧ halo + b.ny ≤ j from ⟨ht, hjn⟩)]
      rw [copyLoop_get _ _ _ _ (i, j) (b.nx + 2 * halo - 1 - i, b.ny + halo - 1 - (j - b.ny - halo))
        (mem_tripolar.2 ⟨i, j - b.ny - halo, hi, by omega, by congr 2; omega⟩), s2 _ _ (by omega) (by omega),
        if_pos (by omega)]
      · congr 1; omega
      · intro p hp q hq e
        obtain ⟨i1, j1, a1, b1, rfl⟩ := mem_tripolar.1 hp
        obtain ⟨i2, j2, a2, b2, rfl⟩ := mem_tripolar.1 hq
        simp only [Prod.mk.injEq] at e; omega
      · intro p hp q hq e
        obtain ⟨i1, j1, a1, b1, rfl⟩ := mem_tripolar.1 hp
        obtain ⟨i2, j2, a2, b2, rfl⟩ := mem_tripolar.1 hq
        simp only [Prod.mk.injEq] at e ⊢; omega
    · rw [copyLoop_other, s2 i j hi hj]
      · split
        · rfl
        · rw [if_neg (show ¬(b.tripolar ∧ halo + b.ny ≤ j) from fun h => hjn h.2)]
      · intro p hp e
        obtain ⟨i1, j1, a1, b1, rfl⟩ := mem_tripolar.1 hp
        simp only [Prod.mk.injEq] at e; omega
  · rw [if_neg ht, s2 i j hi hj]
    split
    · rfl
    · rw [if_neg (show ¬(b.tripolar ∧ halo + b.ny ≤ j) from fun h => ht h.1)]

/-! ### Comparison with the specification -/

/-- Ocean in column `x` (any) of row `y`. -/
def ColOcean (b : Basin K) (x y : Int) : Prop :=
  (0 ≤ x ∧ x < b.nx ∧ b.wet x.toNat y.toNat > 1 / 2) ∨
  (¬(0 ≤ x ∧ x < b.nx) ∧ b.cyclicX ∧ b.wet (x % b.nx).toNat y.toNat > 1 / 2)

theorem oceanAt_iff (b : Basin K) (x y : Int) : Basin.OceanAt b x y ↔
    (0 ≤ y ∧ y < b.ny ∧ ColOcean b x y) ∨
    (¬(0 ≤ y ∧ y < b.ny) ∧ (b.tripolar ∧ y ≥ b.ny) ∧ ColOcean b (b.nx - 1 - x) (2 * b.ny - 1 - y)) ∨
    (¬(0 ≤ y ∧ y < b.ny) ∧ ¬(b.tripolar ∧ y ≥ b.ny) ∧ b.cyclicY ∧ ColOcean b x (y % b.ny)) := by
  have key : ∀ x y : Int, (∃ p, (if 0 ≤ x ∧ x < b.nx then some (x, y) else if b.cyclicX then some (x % b.nx, y)
      else none) = some p ∧ b.wet p.1.toNat p.2.toNat > 1 / 2) ↔ ColOcean b x y := by
    intro x y
    unfold ColOcean
    by_cases h : 0 ≤ x ∧ x < b.nx
    · simp only [if_pos h]
      constructor
      · rintro ⟨p, hp, hw⟩
        simp only [Option.some.injEq] at hp
        subst hp
        exact .inl ⟨h.1, h.2, hw⟩
      · rintro (⟨-, -, hw⟩ | ⟨hn, -⟩)
        · exact ⟨_, rfl, hw⟩
        · exact absurd h hn
    · simp only [if_neg h]
      by_cases hc : b.cyclicX
      · simp only [if_pos hc]
        constructor
        · rintro ⟨p, hp, hw⟩
          simp only [Option.some.injEq] at hp
          subst hp
          exact .inr ⟨h, hc, hw⟩
        · rintro (⟨h1, h2, -⟩ | ⟨-, -, hw⟩)
          · exact absurd ⟨h1, h2⟩ h
          · exact ⟨_, rfl, hw⟩
      · simp only [if_neg hc]
        constructor
        · rintro ⟨p, hp, -⟩; exact absurd hp (by simp)
        · rintro (⟨h1, h2, -⟩ | ⟨-, hc', -⟩)
          · exact absurd ⟨h1, h2⟩ h
          · exact absurd hc' hc
  unfold Basin.OceanAt Basin.pointAt
  simp only
  by_cases h1 : 0 ≤ y ∧ y < b.ny
  · simp only [if_pos h1, key]
    constructor
    · intro h; exact .inl ⟨h1.1, h1.2, h⟩
    · rintro (⟨-, -, h⟩ | ⟨h, -⟩ | ⟨h, -⟩)
      · exact h
      · exact absurd h1 h
      · exact absurd h1 h
  · simp only [if_neg h1]
    by_cases h2 : b.tripolar ∧ y ≥ b.ny
    · simp only [if_pos h2, key]
      constructor
      · intro h; exact .inr (.inl ⟨h1, h2, h⟩)
      · rintro (⟨h, h', -⟩ | ⟨-, -, h⟩ | ⟨-, h, -⟩)
        · exact absurd ⟨h, h'⟩ h1
        · exact h
        · exact absurd h2 h
    · simp only [if_neg h2]
      by_cases h3 : b.cyclicY
      · simp only [if_pos h3, key]
        constructor
        · intro h; exact .inr (.inr ⟨h1, h2, h3, h⟩)
        · rintro (⟨h, h', -⟩ | ⟨-, h, -⟩ | ⟨-, -, -, h⟩)
          · exact absurd ⟨h, h'⟩ h1
          · exact absurd h h2
          · exact h
      · simp only [if_neg h3]
        constructor
        · rintro ⟨p, hp, -⟩; exact absurd hp (by simp)
        · rintro (⟨h, h', -⟩ | ⟨-, h, -⟩ | ⟨-, -, h, -⟩)
          · exact absurd ⟨h, h'⟩ h1
          · exact absurd h h2
          · exact absurd h h3

/-- The columns of the western halo are stored in the opposite order. -/
def flipLow (halo i : Nat) : Nat := if i < halo then halo - 1 - i else i

theorem flipLow_lt {halo n i : Nat} (h : i < n) (hn : halo ≤ n) : flipLow halo i < n := by
  unfold flipLow; split <;> omega

theorem flipLow_flipLow (halo i : Nat) : flipLow halo (flipLow halo i) = i := by
  unfold flipLow
  by_cases h : i < halo
  · rw [if_pos h, if_pos (by omega)]; omega
  · rw [if_neg h, if_neg h]

theorem colVal_iff (b : Basin K) (halo i y : Nat) (hx : halo ≤ b.nx) (hi : i < b.nx + 2 * halo) :
    colVal b halo i y > 1 / 2 ↔ ColOcean b ((flipLow halo i : Int) - halo) y := by
  have h0 : ¬((0 : K) > 1 / 2) := by norm_num
  unfold colVal ColOcean flipLow
  by_cases hin : halo ≤ i ∧ i < halo + b.nx
  · have e1 : ¬i < halo := by omega
    have e2 : (((i : Int) - halo).toNat) = i - halo := by omega
    simp only [if_pos hin, if_neg e1, e2, Int.toNat_natCast]
    constructor
    · intro h; exact .inl ⟨by omega, by omega, h⟩
    · rintro (⟨-, -, h⟩ | ⟨hn, -⟩)
      · exact h
      · exact absurd ⟨by omega, by omega⟩ hn
  · simp only [if_neg hin]
    by_cases hc : b.cyclicX
    · simp only [if_pos hc]
      by_cases hw : i < halo
      · simp only [if_pos hw]
        have e : ((((halo - 1 - i : Nat) : Int) - halo) % b.nx).toNat = b.nx - 1 - i := by
          have : (((halo - 1 - i : Nat) : Int) - halo) % b.nx = (b.nx - 1 - i : Nat) := by
            rw [← Int.add_emod_right, Int.emod_eq_of_lt (by omega) (by omega)]
            omega
          rw [this]; simp
        rw [e, Int.toNat_natCast]
        constructor
        · intro h; exact .inr ⟨by omega, hc, h⟩
        · rintro (⟨h1, h2, -⟩ | ⟨-, -, h⟩)
          · omega
          · exact h
      · simp only [if_neg hw]
        have e : (((i : Int) - halo) % b.nx).toNat = i - b.nx - halo := by
          have : ((i : Int) - halo) % b.nx = (i - b.nx - halo : Nat) := by
            rw [show (i : Int) - halo = ((i - b.nx - halo : Nat) : Int) + b.nx by omega, Int.add_emod_right,
              Int.emod_eq_of_lt (by omega) (by omega)]
          rw [this]; simp
        rw [e, Int.toNat_natCast]
        constructor
        · intro h; exact .inr ⟨by omega, hc, h⟩
        · rintro (⟨h1, h2, -⟩ | ⟨-, -, h⟩)
          · omega
          · exact h
    · simp only [if_neg hc]
      constructor
      · intro h; exact absurd h h0
      · rintro (⟨h1, h2, -⟩ | ⟨-, h, -⟩)
        · exfalso; split at h1 <;> split at h2 <;> omega
        · exact absurd h hc

/-- The place of the specification that corresponds to a place of the field. -/
def flip (b : Basin K) (halo i j : Nat) : Nat × Nat :=
  if halo ≤ j ∧ j < halo + b.ny then (flipLow halo i, j)
  else if b.tripolar ∧ halo + b.ny ≤ j then (b.nx + 2 * halo - 1 - flipLow halo (b.nx + 2 * halo - 1 - i), j)
  else (i, flipLow halo j)

theorem field_iff (b : Basin K) (halo i j : Nat) (hx : halo ≤ b.nx) (hy : halo ≤ b.ny) (hi : i < b.nx + 2 * halo)
    (hj : j < b.ny + 2 * halo) (hcyc : ¬(b.cyclicX ∧ b.cyclicY)) :
    b.field halo (i, j) > 1 / 2 ↔
      Basin.OceanAt b (((flip b halo i j).1 : Int) - halo) (((flip b halo i j).2 : Int) - halo) := by
  have h0 : ¬((0 : K) > 1 / 2) := by norm_num
  rw [field_val b halo i j hx hy hi hj, oceanAt_iff]
  unfold flip
  by_cases h1 : halo ≤ j ∧ j < halo + b.ny
  · simp only [if_pos h1]
    rw [colVal_iff b halo i _ hx hi, show ((j : Int) - halo) = ((j - halo : Nat) : Int) by omega]
    constructor
    · intro h; exact .inl ⟨by omega, by omega, h⟩
    · rintro (⟨-, -, h⟩ | ⟨h, -⟩ | ⟨h, -⟩)
      · exact h
      · omega
      · omega
  · simp only [if_neg h1]
    by_cases h2 : b.tripolar ∧ halo + b.ny ≤ j
    · simp only [if_pos h2]
      have hf : flipLow halo (b.nx + 2 * halo - 1 - i) < b.nx + 2 * halo := flipLow_lt (by omega) (by omega)
      rw [colVal_iff b halo _ _ hx (by omega),
        show ((b.nx : Int) - 1 - (((b.nx + 2 * halo - 1 - flipLow halo (b.nx + 2 * halo - 1 - i) : Nat) : Int) - halo)) =
          (flipLow halo (b.nx + 2 * halo - 1 - i) : Int) - halo by omega,
        show (2 * (b.ny : Int) - 1 - ((j : Int) - halo)) = ((2 * b.ny + halo - 1 - j : Nat) : Int) by omega]
      constructor
      · intro h; exact .inr (.inl ⟨by omega, ⟨h2.1, by omega⟩, h⟩)
      · rintro (⟨h, h', -⟩ | ⟨-, -, h⟩ | ⟨-, h, -⟩)
        · omega
        · exact h
        · exact absurd ⟨h2.1, by omega⟩ h
    · simp only [if_neg h2]
      have hrow : ¬(0 ≤ ((flipLow halo j : Nat) : Int) - halo ∧ ((flipLow halo j : Nat) : Int) - halo < b.ny) := by
        unfold flipLow; split <;> omega
      have htri : ¬(b.tripolar ∧ ((flipLow halo j : Nat) : Int) - halo ≥ b.ny) := by
        rintro ⟨a, c⟩
        apply h2
        refine ⟨a, ?_⟩
        unfold flipLow at c
        split at c <;> omega
      by_cases hc : b.cyclicY
      · have hcx : ¬b.cyclicX := fun h => hcyc ⟨h, hc⟩
        by_cases hin : halo ≤ i ∧ i < halo + b.nx
        · simp only [if_pos (show b.cyclicY ∧ halo ≤ i ∧ i < halo + b.nx from ⟨hc, hin.1, hin.2⟩)]
          have hfi : flipLow halo i = i := by unfold flipLow; rw [if_neg (by omega)]
          have e : (if j < halo then colVal b halo i (b.ny - 1 - j) else colVal b halo i (j - b.ny - halo)) > 1 / 2 ↔
              ColOcean b ((i : Int) - halo) ((((flipLow halo j : Nat) : Int) - halo) % b.ny) := by
            by_cases hs : j < halo
            · rw [if_pos hs, colVal_iff b halo i _ hx hi, hfi]
              have : (((flipLow halo j : Nat) : Int) - halo) % b.ny = ((b.ny - 1 - j : Nat) : Int) := by
                unfold flipLow
                rw [if_pos hs, ← Int.add_emod_right, Int.emod_eq_of_lt (by omega) (by omega)]
                omega
              rw [this]
            · rw [if_neg hs, colVal_iff b halo i _ hx hi, hfi]
              have : (((flipLow halo j : Nat) : Int) - halo) % b.ny = ((j - b.ny - halo : Nat) : Int) := by
                unfold flipLow
                rw [if_neg hs, show (j : Int) - halo = ((j - b.ny - halo : Nat) : Int) + b.ny by omega,
                  Int.add_emod_right, Int.emod_eq_of_lt (by omega) (by omega)]
              rw [this]
          rw [e]
          constructor
          · intro h; exact .inr (.inr ⟨hrow, htri, hc, h⟩)
          · rintro (⟨h, h', -⟩ | ⟨-, h, -⟩ | ⟨-, -, -, h⟩)
            · exact absurd ⟨h, h'⟩ hrow
            · exact absurd h htri
            · exact h
        · simp only [if_neg (show ¬(b.cyclicY ∧ halo ≤ i ∧ i < halo + b.nx) from fun h => hin h.2)]
          constructor
          · intro h; exact absurd h h0
          · rintro (⟨h, h', -⟩ | ⟨-, h, -⟩ | ⟨-, -, -, h⟩)
            · exact absurd ⟨h, h'⟩ hrow
            · exact absurd h htri
            · rcases h with ⟨h1, h2, -⟩ | ⟨-, h, -⟩
              · omega
              · exact absurd h hcx
      · simp only [if_neg (show ¬(b.cyclicY ∧ halo ≤ i ∧ i < halo + b.nx) from fun h => hc h.1)]
        constructor
        · intro h; exact absurd h h0
        · rintro (⟨h, h', -⟩ | ⟨-, h, -⟩ | ⟨-, -, h, -⟩)
          · exact absurd ⟨h, h'⟩ hrow
          · exact absurd h htri
          · exact absurd h hc

/-! ### One processor -/

theorem mem_upTo {a b x : Nat} : x ∈ upTo a b ↔ a ≤ x ∧ x ≤ b := by
  unfold upTo
  rw [List.mem_range'_1]
  omega

theorem kept_iff (w : Nat × Nat → K) (halo : Nat) (x y : Int × Int) (hx : 0 ≤ x.1 ∧ x.1 ≤ x.2) (hy : 0 ≤ y.1 ∧ y.1 ≤ y.2) :
    kept w halo x y = true ↔ ∃ ii jj : Nat, x.1 ≤ ii ∧ (ii : Int) ≤ x.2 + 2 * halo ∧ y.1 ≤ jj ∧
      (jj : Int) ≤ y.2 + 2 * halo ∧ w (ii, jj) > 1 / 2 := by
  unfold kept
  simp only [List.any_eq_true, mem_upTo, decide_eq_true_eq]
  constructor
  · rintro ⟨jj, hj, ii, hi, h⟩
    exact ⟨ii, jj, by omega, by omega, by omega, by omega, h⟩
  · rintro ⟨ii, jj, h1, h2, h3, h4, h⟩
    exact ⟨jj, by omega, ii, by omega, h⟩

/-- The extents of a processor: inside the grid, and apart from the side by the halo or at the side. -/
def Extent (n halo : Nat) (x : Int × Int) : Prop :=
  0 ≤ x.1 ∧ x.1 ≤ x.2 ∧ x.2 < n ∧ (x.1 = 0 ∨ (halo : Int) ≤ x.1) ∧ (x.2 = n - 1 ∨ x.2 + halo ≤ n - 1)

theorem flip_inside (b : Basin K) (halo : Nat) (x y : Int × Int) (hx : Extent b.nx halo x) (hy : Extent b.ny halo y)
    (ii jj : Nat) (h1 : x.1 ≤ ii) (h2 : (ii : Int) ≤ x.2 + 2 * halo) (h3 : y.1 ≤ jj) (h4 : (jj : Int) ≤ y.2 + 2 * halo) :
    x.1 ≤ (flip b halo ii jj).1 ∧ ((flip b halo ii jj).1 : Int) ≤ x.2 + 2 * halo ∧ y.1 ≤ (flip b halo ii jj).2 ∧
      ((flip b halo ii jj).2 : Int) ≤ y.2 + 2 * halo := by
  obtain ⟨x1, x2, x3, x4, x5⟩ := hx
  obtain ⟨y1, y2, y3, y4, y5⟩ := hy
  unfold flip flipLow
  by_cases c1 : halo ≤ jj ∧ jj < halo + b.ny
  · simp only [if_pos c1]
    by_cases c : ii < halo
    · simp only [if_pos c]; omega
    · simp only [if_neg c]; omega
  · simp only [if_neg c1]
    by_cases c2 : b.tripolar ∧ halo + b.ny ≤ jj
    · simp only [if_pos c2]
      by_cases c : b.nx + 2 * halo - 1 - ii < halo
      · simp only [if_pos c]; omega
      · simp only [if_neg c]; omega
    · simp only [if_neg c2]
      by_cases c : jj < halo
      · simp only [if_pos c]; omega
      · simp only [if_neg c]; omega

theorem flip_flip (b : Basin K) (halo i j : Nat) (hi : i < b.nx + 2 * halo) :
    flip b halo (flip b halo i j).1 (flip b halo i j).2 = (i, j) := by
  by_cases c1 : halo ≤ j ∧ j < halo + b.ny
  · have e : flip b halo i j = (flipLow halo i, j) := by unfold flip; rw [if_pos c1]
    rw [e]
    unfold flip
    simp only [if_pos c1, flipLow_flipLow]
  · by_cases c2 : b.tripolar ∧ halo + b.ny ≤ j
    · have e : flip b halo i j = (b.nx + 2 * halo - 1 - flipLow halo (b.nx + 2 * halo - 1 - i), j) := by
        unfold flip; rw [if_neg c1, if_pos c2]
      rw [e]
      unfold flip
      simp only [if_neg c1, if_pos c2]
      have hf : flipLow halo (b.nx + 2 * halo - 1 - i) < b.nx + 2 * halo := flipLow_lt (by omega) (by omega)
      rw [show b.nx + 2 * halo - 1 - (b.nx + 2 * halo - 1 - flipLow halo (b.nx + 2 * halo - 1 - i)) =
        flipLow halo (b.nx + 2 * halo - 1 - i) by omega, flipLow_flipLow]
      congr 1; omega
    · have e : flip b halo i j = (i, flipLow halo j) := by unfold flip; rw [if_neg c1, if_neg c2]
      rw [e]
      have c1' : ¬(halo ≤ flipLow halo j ∧ flipLow halo j < halo + b.ny) := by
        unfold flipLow; split <;> omega
      have c2' : ¬(b.tripolar ∧ halo + b.ny ≤ flipLow halo j) := by
        rintro ⟨h1, h2⟩
        apply c2
        refine ⟨h1, ?_⟩
        unfold flipLow at h2
        split at h2 <;> omega
      unfold flip
      simp only [if_neg c1', if_neg c2', flipLow_flipLow]

theorem kept_iff_not_dry (b : Basin K) (halo : Nat) (x y : Int × Int) (hx : halo ≤ b.nx) (hy : halo ≤ b.ny)
    (hcyc : ¬(b.cyclicX ∧ b.cyclicY)) (ex : Extent b.nx halo x) (ey : Extent b.ny halo y) :
    kept (b.field halo) halo x y = true ↔ ¬Basin.Dry b halo x y := by
  rw [kept_iff _ _ _ _ ⟨ex.1, ex.2.1⟩ ⟨ey.1, ey.2.1⟩]
  have bx := ex.2.2.1
  have by' := ey.2.2.1
  unfold Basin.Dry
  push Not
  constructor
  · rintro ⟨ii, jj, h1, h2, h3, h4, h⟩
    obtain ⟨k1, k2, k3, k4⟩ := flip_inside b halo x y ex ey ii jj h1 h2 h3 h4
    exact ⟨_, _, by omega, by omega, by omega, by omega, (field_iff b halo ii jj hx hy (by omega) (by omega) hcyc).1 h⟩
  · rintro ⟨i, j, h1, h2, h3, h4, h⟩
    have e1 : 0 ≤ x.1 := ex.1
    have e2 : 0 ≤ y.1 := ey.1
    obtain ⟨ii, rfl⟩ : ∃ ii : Nat, i = (ii : Int) - halo := ⟨(i + halo).toNat, by omega⟩
    obtain ⟨jj, rfl⟩ : ∃ jj : Nat, j = (jj : Int) - halo := ⟨(j + halo).toNat, by omega⟩
    obtain ⟨k1, k2, k3, k4⟩ := flip_inside b halo x y ex ey ii jj (by omega) (by omega) (by omega) (by omega)
    refine ⟨(flip b halo ii jj).1, (flip b halo ii jj).2, k1, k2, k3, k4, ?_⟩
    rw [field_iff b halo _ _ hx hy (by omega) (by omega) hcyc, flip_flip b halo ii jj (by omega)]
    exact h

/-! ### Extents -/

theorem partition_sides {hi : Int} : ∀ {ext : List (Int × Int)} {lo : Int}, OrderedPartition lo hi ext → ∀ x ∈ ext,
    (x.1 = lo ∨ ∃ z ∈ ext, z.2 = x.1 - 1) ∧ (x.2 = hi ∨ ∃ z ∈ ext, z.1 = x.2 + 1) := by
  intro ext
  induction ext with
  | nil => intro lo _ x hx; cases hx
  | cons y t ih =>
    intro lo h x hx
    obtain ⟨b, e⟩ := y
    simp only [OrderedPartition] at h
    obtain ⟨rfl, hbe, ht⟩ := h
    rcases List.mem_cons.1 hx with rfl | hx
    · refine ⟨.inl rfl, ?_⟩
      cases t with
      | nil => left; simp only [OrderedPartition] at ht; simp only; omega
      | cons z t =>
        right
        obtain ⟨zb, ze⟩ := z
        simp only [OrderedPartition] at ht
        exact ⟨(zb, ze), by simp, ht.1⟩
    · obtain ⟨h1, h2⟩ := ih ht x hx
      constructor
      · rcases h1 with h1 | ⟨z, hz, h1⟩
        · exact .inr ⟨(b, e), by simp, by simp only; omega⟩
        · exact .inr ⟨z, List.mem_cons_of_mem _ hz, h1⟩
      · rcases h2 with h2 | ⟨z, hz, h2⟩
        · exact .inl h2
        · exact .inr ⟨z, List.mem_cons_of_mem _ hz, h2⟩

theorem extent_of {n halo : Nat} {xs : List (Int × Int)} (h : OrderedPartition 0 ((n : Int) - 1) xs)
    (hw : ∀ x ∈ xs, (halo : Int) ≤ size x) : ∀ x ∈ xs, Extent n halo x := by
  intro x hx
  obtain ⟨h1, h2, h3⟩ := h.bounds x hx
  obtain ⟨h4, h5⟩ := partition_sides h x hx
  refine ⟨h1, h2, by omega, ?_, ?_⟩
  · rcases h4 with h4 | ⟨z, hz, h4⟩
    · exact .inl h4
    · right
      have := hw z hz
      obtain ⟨k1, k2, k3⟩ := h.bounds z hz
      unfold size at this
      omega
  · rcases h5 with h5 | ⟨z, hz, h5⟩
    · exact .inl h5
    · right
      have := hw z hz
      obtain ⟨k1, k2, k3⟩ := h.bounds z hz
      unfold size at this
      omega

/-! ### The list -/

theorem mem_maskList {w : Nat × Nat → K} {halo : Nat} {xs ys : List (Int × Int)} {p : Nat × Nat} :
    p ∈ maskList w halo xs ys ↔ ∃ (i j : Nat) (x y : Int × Int), p = (i + 1, j + 1) ∧ xs[i]? = some x ∧ ys[j]? = some y ∧
      kept w halo x y = false := by
  unfold maskList
  simp only [List.mem_flatMap, List.mem_filterMap]
  constructor
  · rintro ⟨⟨y, j⟩, hy, ⟨x, i⟩, hx, h⟩
    rw [List.mem_zipIdx_iff_getElem?] at hx hy
    split at h
    · exact absurd h (by simp)
    · rename_i hk
      simp only [Option.some.injEq] at h
      exact ⟨i, j, x, y, h.symm, hx, hy, by simpa using hk⟩
  · rintro ⟨i, j, x, y, rfl, hx, hy, hk⟩
    refine ⟨(y, j), List.mem_zipIdx_iff_getElem?.2 hy, (x, i), List.mem_zipIdx_iff_getElem?.2 hx, ?_⟩
    simp [hk]

theorem zipIdx_pairwise {α : Type*} (l : List α) (n : Nat) : (l.zipIdx n).Pairwise fun a b => a.2 < b.2 := by
  induction l generalizing n with
  | nil => simp
  | cons a l ih =>
    rw [List.zipIdx_cons, List.pairwise_cons]
    refine ⟨?_, ih (n + 1)⟩
    intro b hb
    obtain ⟨h1, -⟩ := List.mem_zipIdx hb
    simp only
    omega

theorem maskList_nodup (w : Nat × Nat → K) (halo : Nat) (xs ys : List (Int × Int)) : (maskList w halo xs ys).Nodup := by
  unfold maskList
  unfold List.Nodup
  rw [List.pairwise_flatMap]
  constructor
  · rintro ⟨y, j⟩ -
    rw [List.pairwise_filterMap]
    refine (zipIdx_pairwise xs 0).imp ?_
    rintro ⟨a, i⟩ ⟨a', i'⟩ hlt p hp q hq e
    simp only at hp hq hlt
    split at hp
    · exact absurd hp (by simp)
    · split at hq
      · exact absurd hq (by simp)
      · simp only [Option.some.injEq] at hp hq
        rw [← hp, ← hq] at e
        have := (Prod.mk.inj e).1
        omega
  · refine (zipIdx_pairwise ys 0).imp ?_
    rintro ⟨a, j⟩ ⟨a', j'⟩ hlt p hp q hq e
    simp only [List.mem_filterMap] at hp hq
    obtain ⟨u, -, hp⟩ := hp
    obtain ⟨v, -, hq⟩ := hq
    split at hp
    · exact absurd hp (by simp)
    · split at hq
      · exact absurd hq (by simp)
      · simp only [Option.some.injEq] at hp hq
        rw [← hp, ← hq] at e
        have := (Prod.mk.inj e).2
        simp only at hlt
        omega

theorem checkLayout_eq (b : Basin K) (halo l0 l1 : Nat) (xs ys : List (Int × Int)) (h0 : l0 ≤ b.nx) (h1 : l1 ≤ b.ny)
    (hx : mppComputeExtent b.nx l0 = .ok xs) (hy : mppComputeExtent b.ny l1 = .ok ys) :
    checkLayout b halo false [] l0 l1 =
      .ok (if (maskList (b.field halo) halo xs ys).length > 0 then
        some ⟨(maskList (b.field halo) halo xs ys).length, l0, l1, maskList (b.field halo) halo xs ys⟩ else none) := by
  unfold checkLayout
  rw [if_neg (by omega), hx, hy]
  simp only [bind, Except.bind]
  split
  · simp
  · rfl

/-! ### Claims -/

/-- C38. For a layout that fits the grid, without open boundaries: a table is written exactly when some processor has
no ocean within the halo, and it lists exactly these processors (column and row counted from 1), each once, with their
number. Assumed: the grid is not cyclic in both directions, and no processor is narrower than the halo. -/
theorem C38_exact_partial (b : Basin K) (halo l0 l1 : Nat) (h0 : 1 ≤ l0 ∧ l0 ≤ b.nx) (h1 : 1 ≤ l1 ∧ l1 ≤ b.ny)
    (hcyc : ¬(b.cyclicX ∧ b.cyclicY)) :
    ∃ xs ys, mppComputeExtent b.nx l0 = .ok xs ∧ mppComputeExtent b.ny l1 = .ok ys ∧
      ((∀ x ∈ xs, (halo : Int) ≤ size x) → (∀ y ∈ ys, (halo : Int) ≤ size y) →
        ∃ l : List (Nat × Nat), l.Nodup ∧
          (∀ p, p ∈ l ↔ ∃ (i j : Nat) (x y : Int × Int), p = (i + 1, j + 1) ∧ xs[i]? = some x ∧ ys[j]? = some y ∧
            Basin.Dry b halo x y) ∧
          checkLayout b halo false [] l0 l1 = .ok (if l = [] then none else some ⟨l.length, l0, l1, l⟩)) := by
  obtain ⟨xs, hx, lx, px⟩ := C01_extents_partition b.nx l0 h0.1 h0.2
  obtain ⟨ys, hy, ly, py⟩ := C01_extents_partition b.ny l1 h1.1 h1.2
  refine ⟨xs, ys, hx, hy, fun wx wy => ⟨maskList (b.field halo) halo xs ys, maskList_nodup .., ?_, ?_⟩⟩
  · intro p
    rw [mem_maskList]
    have ex := extent_of px wx
    have ey := extent_of py wy
    have key : ∀ (i j : Nat) (x y : Int × Int), xs[i]? = some x → ys[j]? = some y →
        (kept (b.field halo) halo x y = false ↔ Basin.Dry b halo x y) := by
      intro i j x y hi hj
      have mx := List.mem_of_getElem? hi
      have my := List.mem_of_getElem? hj
      have sx := wx x mx
      have sy := wy y my
      have bx := ex x mx
      have by' := ey y my
      have hxn : halo ≤ b.nx := by have := bx.1; have := bx.2.2.1; unfold size at sx; omega
      have hyn : halo ≤ b.ny := by have := by'.1; have := by'.2.2.1; unfold size at sy; omega
      have := kept_iff_not_dry b halo x y hxn hyn hcyc bx by'
      constructor
      · intro h
        by_contra hd
        rw [this.2 hd] at h
        exact absurd h (by decide)
      · intro h
        cases hk : kept (b.field halo) halo x y
        · rfl
        · exact absurd h (this.1 hk)
    constructor
    · rintro ⟨i, j, x, y, e, hi, hj, hk⟩
      exact ⟨i, j, x, y, e, hi, hj, (key i j x y hi hj).1 hk⟩
    · rintro ⟨i, j, x, y, e, hi, hj, hk⟩
      exact ⟨i, j, x, y, e, hi, hj, (key i j x y hi hj).2 hk⟩
  · rw [checkLayout_eq b halo l0 l1 xs ys h0.2 h1.2 hx hy]
    congr 1
    cases maskList (b.field halo) halo xs ys <;> simp

/-- C38 for a halo of one row (the default) or none: no condition on the processors is needed. -/
theorem C38_halo1_partial (b : Basin K) (halo l0 l1 : Nat) (hh : halo ≤ 1) (h0 : 1 ≤ l0 ∧ l0 ≤ b.nx)
    (h1 : 1 ≤ l1 ∧ l1 ≤ b.ny) (hcyc : ¬(b.cyclicX ∧ b.cyclicY)) :
    ∃ (xs ys : List (Int × Int)) (l : List (Nat × Nat)), mppComputeExtent b.nx l0 = .ok xs ∧
      mppComputeExtent b.ny l1 = .ok ys ∧ l.Nodup ∧
      (∀ p, p ∈ l ↔ ∃ (i j : Nat) (x y : Int × Int), p = (i + 1, j + 1) ∧ xs[i]? = some x ∧ ys[j]? = some y ∧
        Basin.Dry b halo x y) ∧
      checkLayout b halo false [] l0 l1 = .ok (if l = [] then none else some ⟨l.length, l0, l1, l⟩) := by
  obtain ⟨xs, ys, hx, hy, h⟩ := C38_exact_partial b halo l0 l1 h0 h1 hcyc
  obtain ⟨xs', hx', -, px⟩ := C01_extents_partition b.nx l0 h0.1 h0.2
  obtain ⟨ys', hy', -, py⟩ := C01_extents_partition b.ny l1 h1.1 h1.2
  rw [hx'] at hx
  rw [hy'] at hy
  simp only [Except.ok.injEq] at hx hy
  subst hx hy
  obtain ⟨l, a, c, d⟩ := h
    (fun x m => by have := (px.bounds x m).2.1; unfold size; omega)
    (fun y m => by have := (py.bounds y m).2.1; unfold size; omega)
  exact ⟨xs', ys', l, hx', hy', a, c, d⟩

theorem field_inner (b : Basin K) (halo i j : Nat) (hi : i < b.nx) (hj : j < b.ny) :
    b.field halo (i + halo, j + halo) = b.wet i j := by
  have h0 : b.padded halo (i + halo, j + halo) = b.wet i j := by
    unfold Basin.padded
    rw [if_pos (by simp only; omega)]
    simp
  have h1 : (if b.cyclicX then copyLoop (cyclicXLoop b.nx b.ny halo) (b.padded halo) else b.padded halo)
      (i + halo, j + halo) = b.wet i j := by
    split
    · rw [copyLoop_other, h0]
      intro p hp e
      obtain ⟨i1, j1, a1, b1, rfl | rfl⟩ := mem_cyclicX.1 hp <;> simp only [Prod.mk.injEq] at e <;> omega
    · exact h0
  unfold Basin.field
  generalize (if b.cyclicX then copyLoop (cyclicXLoop b.nx b.ny halo) (b.padded halo) else b.padded halo) = w1 at h1 ⊢
  have h2 : (if b.cyclicY then copyLoop (cyclicYLoop b.nx b.ny halo) w1 else w1) (i + halo, j + halo) = b.wet i j := by
    split
    · rw [copyLoop_other, h1]
      intro p hp e
      obtain ⟨i1, j1, a1, b1, rfl | rfl⟩ := mem_cyclicY.1 hp <;> simp only [Prod.mk.injEq] at e <;> omega
    · exact h1
  generalize (if b.cyclicY then copyLoop (cyclicYLoop b.nx b.ny halo) w1 else w1) = w2 at h2 ⊢
  split
  · rw [copyLoop_other, h2]
    intro p hp e
    obtain ⟨i1, j1, a1, b1, rfl⟩ := mem_tripolar.1 hp
    simp only [Prod.mk.injEq] at e; omega
  · exact h2

/-- C38. Whatever the halo, the boundaries and the open boundaries: every ocean point belongs to a processor that is
not in the table. -/
theorem C38_ocean_kept (b : Basin K) (halo l0 l1 : Nat) (valid : Bool) (obcs : List Obc) (t : Table) (p q : Nat)
    (h0 : 1 ≤ l0) (h1 : 1 ≤ l1) (ht : checkLayout b halo valid obcs l0 l1 = .ok (some t))
    (hp : p < b.nx) (hq : q < b.ny) (hwet : b.wet p q > 1 / 2) :
    ∃ (xs ys : List (Int × Int)) (i j : Nat) (x y : Int × Int), mppComputeExtent b.nx l0 = .ok xs ∧
      mppComputeExtent b.ny l1 = .ok ys ∧ xs[i]? = some x ∧ ys[j]? = some y ∧ x.1 ≤ p ∧ p ≤ x.2 ∧ y.1 ≤ q ∧ q ≤ y.2 ∧
      (i + 1, j + 1) ∉ t.list := by
  unfold checkLayout at ht
  split at ht
  · exact absurd ht (by simp)
  · rename_i hl
    obtain ⟨xs, hx, lx, px⟩ := C01_extents_partition b.nx l0 h0 (by omega)
    obtain ⟨ys, hy, ly, py⟩ := C01_extents_partition b.ny l1 h1 (by omega)
    rw [hx, hy] at ht
    simp only [bind, Except.bind] at ht
    obtain ⟨i, x, hi, x1, x2⟩ := px.cover p (by omega) (by omega)
    obtain ⟨j, y, hj, y1, y2⟩ := py.cover q (by omega) (by omega)
    refine ⟨xs, ys, i, j, x, y, hx, hy, hi, hj, x1, x2, y1, y2, ?_⟩
    have hk : kept (b.field halo) halo x y = true := by
      have bx := px.bounds x (List.mem_of_getElem? hi)
      have by' := py.bounds y (List.mem_of_getElem? hj)
      rw [kept_iff _ _ _ _ ⟨bx.1, bx.2.1⟩ ⟨by'.1, by'.2.1⟩]
      refine ⟨p + halo, q + halo, by push_cast; omega, by push_cast; omega, by push_cast; omega, by push_cast; omega, ?_⟩
      rw [field_inner b halo p q hp hq]
      exact hwet
    have hlist : t.list = maskList (b.field halo) halo xs ys := by
      split at ht
      · split at ht
        · exact absurd ht (by simp)
        · simp only [Except.ok.injEq, Option.some.injEq] at ht
          rw [← ht]
      · exact absurd ht (by simp)
    rw [hlist, mem_maskList]
    rintro ⟨i', j', x', y', e, hi', hj', hk'⟩
    simp only [Prod.mk.injEq, Nat.add_right_cancel_iff] at e
    obtain ⟨rfl, rfl⟩ := e
    rw [hi] at hi'
    rw [hj] at hj'
    simp only [Option.some.injEq] at hi' hj'
    subst hi' hj'
    rw [hk] at hk'
    exact absurd hk' (by decide)

theorem sum_map_const (n c : Nat) : ((List.range n).map fun _ => c).sum = n * c := by
  induction n with
  | zero => simp
  | succ n ih => rw [List.range_succ, List.map_append, List.sum_append, ih, Nat.succ_mul]; simp

theorem length_filter_add {α : Type*} (f : α → Bool) (l : List α) :
    l.length = (l.filter f).length + (l.filter fun a => !f a).length := by
  induction l with
  | nil => rfl
  | cons a l ih => cases h : f a <;> simp [h, ih] <;> omega

/-- C38. The processors that are used and those in the table are all processors of the layout. -/
theorem C38_used_and_masked (b : Basin K) (halo l0 l1 : Nat) (valid : Bool) (obcs : List Obc) (t : Table)
    (h0 : 1 ≤ l0) (h1 : 1 ≤ l1) (ht : checkLayout b halo valid obcs l0 l1 = .ok (some t)) :
    t.l0 = l0 ∧ t.l1 = l1 ∧ t.nmask = t.list.length ∧ t.list.Nodup ∧
      ∃ used : List (Nat × Nat), used.Nodup ∧ used.length + t.nmask = l0 * l1 ∧
        ∀ i j, ((i, j) ∈ used ∨ (i, j) ∈ t.list ↔ 1 ≤ i ∧ i ≤ l0 ∧ 1 ≤ j ∧ j ≤ l1) ∧ ¬((i, j) ∈ used ∧ (i, j) ∈ t.list) := by
  unfold checkLayout at ht
  split at ht
  · exact absurd ht (by simp)
  · rename_i hl
    obtain ⟨xs, hx, lx, px⟩ := C01_extents_partition b.nx l0 h0 (by omega)
    obtain ⟨ys, hy, ly, py⟩ := C01_extents_partition b.ny l1 h1 (by omega)
    rw [hx, hy] at ht
    simp only [bind, Except.bind] at ht
    have htab : t = ⟨(maskList (b.field halo) halo xs ys).length, l0, l1, maskList (b.field halo) halo xs ys⟩ := by
      split at ht
      · split at ht
        · exact absurd ht (by simp)
        · simp only [Except.ok.injEq, Option.some.injEq] at ht
          exact ht.symm
      · exact absurd ht (by simp)
    subst htab
    generalize hL : maskList (b.field halo) halo xs ys = L
    have hn : L.Nodup := hL ▸ maskList_nodup ..
    have hin : ∀ p ∈ L, 1 ≤ p.1 ∧ p.1 ≤ l0 ∧ 1 ≤ p.2 ∧ p.2 ≤ l1 := by
      intro p hp
      rw [← hL, mem_maskList] at hp
      obtain ⟨i, j, x, y, rfl, hi, hj, -⟩ := hp
      have := (List.getElem?_eq_some_iff.1 hi).1
      have := (List.getElem?_eq_some_iff.1 hj).1
      simp only
      omega
    refine ⟨rfl, rfl, rfl, hn, ?_⟩
    let all : List (Nat × Nat) := ((List.range l0).flatMap fun i => (List.range l1).map fun j => (i + 1, j + 1))
    have hall : all.Nodup := by
      show List.Pairwise _ _
      rw [List.pairwise_flatMap]
      constructor
      · intro i _
        rw [List.pairwise_map]
        refine List.pairwise_lt_range.imp ?_
        intro a c hac e
        have := (Prod.mk.inj e).2
        omega
      · refine List.pairwise_lt_range.imp ?_
        intro a c hac p hp q hq e
        simp only [List.mem_map] at hp hq
        obtain ⟨u, -, rfl⟩ := hp
        obtain ⟨v, -, rfl⟩ := hq
        have := (Prod.mk.inj e).1
        omega
    have mall : ∀ i j, (i, j) ∈ all ↔ 1 ≤ i ∧ i ≤ l0 ∧ 1 ≤ j ∧ j ≤ l1 := by
      intro i j
      simp only [all, List.mem_flatMap, List.mem_map, List.mem_range, Prod.mk.injEq]
      constructor
      · rintro ⟨a, ha, c, hc, rfl, rfl⟩; omega
      · intro h; exact ⟨i - 1, by omega, j - 1, by omega, by omega, by omega⟩
    have lall : all.length = l0 * l1 := by
      simp only [all, List.length_flatMap, List.length_map, List.length_range]
      exact sum_map_const l0 l1
    have hperm : (all.filter fun p => decide (p ∈ L)).Perm L := by
      rw [List.perm_ext_iff_of_nodup (hall.filter _) hn]
      intro p
      simp only [List.mem_filter, decide_eq_true_eq]
      constructor
      · exact fun h => h.2
      · intro h; exact ⟨(mall p.1 p.2).2 (hin p h), h⟩
    refine ⟨all.filter fun p => !decide (p ∈ L), hall.filter _, ?_, ?_⟩
    · have := length_filter_add (fun p => decide (p ∈ L)) all
      rw [lall, hperm.length_eq] at this
      simp only
      omega
    · intro i j
      simp only [List.mem_filter, Bool.not_eq_true', decide_eq_false_iff_not, mall]
      constructor
      · constructor
        · rintro (⟨h, -⟩ | h)
          · exact h
          · exact hin _ h
        · intro h
          by_cases hm : (i, j) ∈ L
          · exact .inr hm
          · exact .inl ⟨h, hm⟩
      · rintro ⟨⟨-, h⟩, h'⟩
        exact h h'

/-- C38. The layout used for `np` processors has `np` of them. -/
theorem C38_layout (li : Nat × Nat) (guess : Int) (np : Nat) : (layoutFor li guess np).1 * (layoutFor li guess np).2 = np := by
  unfold layoutFor
  split
  · assumption
  · exact (C04_layout_uses_every_processor guess np).2.1

/-! ### Land -/

theorem landAt_iff (n : Nat) (a : Nat → Nat → Nat → K) (t i j : Nat) (ht : t < 6) :
    updateCubicHalo 6 n n (paddedArea n n a) (t, i, j) > 0 ↔ LandAt n a t i j := by
  unfold LandAt
  by_cases h : ∃ (s : CubeSide) (k : Nat), 1 ≤ k ∧ k ≤ n ∧ (i, j) = s.haloPlace n k
  · obtain ⟨s, k, h1, h2, e⟩ := h
    obtain ⟨c, cv, cf, c1, c2, hc⟩ := C39_neighbour n (paddedArea n n a) t ht s k h1 h2
    have hp : ∀ c : CubeCell, c.Valid n → paddedArea n n a (c.face, c.i, c.j) = a c.face (c.i - 1) (c.j - 1) := by
      intro c cv
      obtain ⟨-, v1, v2, v3, v4⟩ := cv
      unfold paddedArea
      rw [if_pos (by simp only; omega)]
    rw [e, hc, hp c cv]
    constructor
    · intro h
      exact .inr ⟨s, k, c, h1, h2, rfl, cv, cf, c1, c2, h⟩
    · rintro (⟨b1, b2, b3, b4, -⟩ | ⟨s', k', c', h1', h2', e', cv', cf', c1', c2', h⟩)
      · have := haloPlace_outside (n := n) s k
        rw [← e] at this
        simp only at this
        omega
      · obtain ⟨rfl, rfl⟩ := haloPlace_inj ⟨h1, h2⟩ ⟨h1', h2'⟩ e'
        have := C39_unique n t ht s k h1 h2 c' cv' cf' c1' c2' (paddedArea n n a)
        rw [hc, hp c cv, hp c' cv'] at this
        rw [this]; exact h
  · have h' : ∀ (s : CubeSide) (k : Nat), 1 ≤ k → k ≤ n → (i, j) ≠ s.haloPlace n k :=
      fun s k h1 h2 e => h ⟨s, k, h1, h2, e⟩
    rw [C39_rest n _ t i j h']
    unfold paddedArea
    constructor
    · intro hp
      simp only at hp
      split at hp
      · exact .inl ⟨by omega, by omega, by omega, by omega, hp⟩
      · exact absurd hp (lt_irrefl _)
    · rintro (⟨b1, b2, b3, b4, hp⟩ | ⟨s', k', c', h1', h2', e', -⟩)
      · rw [if_pos (by simp only; omega)]; exact hp
      · exact absurd e' (h' s' k' h1' h2')

/-- C38 for the land model: the table lists exactly the processors of each face that have no land in their cells and
in the cells around, also across the edges of the faces, each once. -/
theorem C38_land (n l0 l1 : Nat) (a : Nat → Nat → Nat → K) (h0 : 1 ≤ l0 ∧ l0 ≤ n) (h1 : 1 ≤ l1 ∧ l1 ≤ n) :
    ∃ (xs ys : List (Int × Int)) (l : List (Nat × Nat × Nat)), mppComputeExtent n l0 = .ok xs ∧
      mppComputeExtent n l1 = .ok ys ∧ l.Nodup ∧
      checkLand 6 n n l0 l1 (updateCubicHalo 6 n n (paddedArea n n a)) = .ok l ∧
      ∀ p, p ∈ l ↔ ∃ (i j t : Nat) (x y : Int × Int), p = (i + 1, j + 1, t + 1) ∧ t < 6 ∧ xs[i]? = some x ∧
        ys[j]? = some y ∧ ∀ u v : Nat, x.1 ≤ u → (u : Int) ≤ x.2 + 2 → y.1 ≤ v → (v : Int) ≤ y.2 + 2 → ¬LandAt n a t u v := by
  obtain ⟨xs, hx, lx, px⟩ := C01_extents_partition n l0 h0.1 h0.2
  obtain ⟨ys, hy, ly, py⟩ := C01_extents_partition n l1 h1.1 h1.2
  have hrun : checkLand 6 n n l0 l1 (updateCubicHalo 6 n n (paddedArea n n a)) = .ok ((List.range 6).flatMap fun t =>
      ys.zipIdx.flatMap fun y => xs.zipIdx.filterMap fun x =>
        if keptLand (updateCubicHalo 6 n n (paddedArea n n a)) t x.1 y.1 then none else some (x.2 + 1, y.2 + 1, t + 1)) := by
    unfold checkLand
    rw [hx, hy]
    rfl
  refine ⟨xs, ys, _, hx, hy, ?_, hrun, ?_⟩
  · show List.Pairwise _ _
    rw [List.pairwise_flatMap]
    constructor
    · intro t _
      rw [List.pairwise_flatMap]
      constructor
      · rintro ⟨y, j⟩ -
        rw [List.pairwise_filterMap]
        refine (zipIdx_pairwise xs 0).imp ?_
        rintro ⟨a, i⟩ ⟨a', i'⟩ hlt p hp q hq e
        simp only at hp hq hlt
        split at hp
        · exact absurd hp (by simp)
        · split at hq
          · exact absurd hq (by simp)
          · simp only [Option.some.injEq] at hp hq
            rw [← hp, ← hq] at e
            have := (Prod.mk.inj e).1
            omega
      · refine (zipIdx_pairwise ys 0).imp ?_
        rintro ⟨a, j⟩ ⟨a', j'⟩ hlt p hp q hq e
        simp only [List.mem_filterMap] at hp hq
        obtain ⟨u, -, hp⟩ := hp
        obtain ⟨v, -, hq⟩ := hq
        split at hp
        · exact absurd hp (by simp)
        · split at hq
          · exact absurd hq (by simp)
          · simp only [Option.some.injEq] at hp hq
            rw [← hp, ← hq] at e
            have := (Prod.mk.inj (Prod.mk.inj e).2).1
            simp only at hlt
            omega
    · refine List.pairwise_lt_range.imp ?_
      intro t t' hlt p hp q hq e
      simp only [List.mem_flatMap, List.mem_filterMap] at hp hq
      obtain ⟨y1, -, u, -, hp⟩ := hp
      obtain ⟨y2, -, v, -, hq⟩ := hq
      split at hp
      · exact absurd hp (by simp)
      · split at hq
        · exact absurd hq (by simp)
        · simp only [Option.some.injEq] at hp hq
          rw [← hp, ← hq] at e
          have := (Prod.mk.inj (Prod.mk.inj e).2).2
          omega
  · have key : ∀ (t : Nat) (x y : Int × Int), t < 6 → x ∈ xs → y ∈ ys →
        (¬keptLand (updateCubicHalo 6 n n (paddedArea n n a)) t x y = true ↔
          ∀ u v : Nat, x.1 ≤ u → (u : Int) ≤ x.2 + 2 → y.1 ≤ v → (v : Int) ≤ y.2 + 2 → ¬LandAt n a t u v) := by
      intro t x y ht mx my
      have bx := px.bounds x mx
      have by' := py.bounds y my
      unfold keptLand
      simp only [List.any_eq_true, mem_upTo, decide_eq_true_eq, landAt_iff n a t _ _ ht]
      constructor
      · intro h u v h1 h2 h3 h4 hl
        exact h ⟨v, by omega, u, by omega, hl⟩
      · rintro h ⟨v, hv, u, hu, hl⟩
        exact h u v (by omega) (by omega) (by omega) (by omega) hl
    intro p
    simp only [List.mem_flatMap, List.mem_filterMap, List.mem_range]
    constructor
    · rintro ⟨t, ht, ⟨y, j⟩, hj, ⟨x, i⟩, hi, h⟩
      rw [List.mem_zipIdx_iff_getElem?] at hi hj
      split at h
      · exact absurd h (by simp)
      · rename_i hk
        simp only [Option.some.injEq] at h
        exact ⟨i, j, t, x, y, h.symm, ht, hi, hj,
          (key t x y ht (List.mem_of_getElem? hi) (List.mem_of_getElem? hj)).1 hk⟩
    · rintro ⟨i, j, t, x, y, rfl, ht, hi, hj, hk⟩
      refine ⟨t, ht, (y, j), List.mem_zipIdx_iff_getElem?.2 hj, (x, i), List.mem_zipIdx_iff_getElem?.2 hi, ?_⟩
      rw [if_neg ((key t x y ht (List.mem_of_getElem? hi) (List.mem_of_getElem? hj)).2 hk)]

/-! ### Where the claim fails, and examples -/

/-- Ocean in one place only. -/
def onePoint (nx ny p q : Nat) (cx cy tri : Bool) : Basin ℚ :=
  ⟨nx, ny, fun i j => if i = p ∧ j = q then 1 else 0, cx, cy, tri⟩

/-- A case of `C38_halo1_partial`: 4 x 4 points, 2 x 2 processors, cyclic in x, ocean in the lower left corner. Of the
four processors only that in the upper left and that in the upper right are masked: the lower right one has the ocean
in its halo. -/
example : checkLayout (onePoint 4 4 0 0 true false false) 1 false [] 2 2 = .ok (some ⟨2, 2, 2, [(1, 2), (2, 2)]⟩) := by
  decide +kernel

/-- C38 fails at the corners of a grid that is cyclic in both directions: with ocean only in the upper right corner,
the lower left processor is masked, although the ocean is in the corner of its halo. -/
theorem C38_corner_wrong :
    ∃ t, checkLayout (onePoint 4 4 3 3 true true false) 1 false [] 2 2 = .ok (some t) ∧ (1, 1) ∈ t.list ∧
      mppComputeExtent 4 2 = .ok [(0, 1), (2, 3)] ∧ ¬Basin.Dry (onePoint 4 4 3 3 true true false) 1 (0, 1) (0, 1) := by
  refine ⟨⟨1, 2, 2, [(1, 1)]⟩, by decide +kernel, by decide, by decide +kernel, ?_⟩
  intro h
  exact h (-1) (-1) (by decide) (by decide) (by decide) (by decide) ⟨(3, 3), by decide +kernel, by decide +kernel⟩

/-- C38 fails when processors are narrower than the halo, since the western halo is filled in the opposite order: with
6 columns on 6 processors, a halo of 2 and ocean only in the last column, the second processor is masked, although the
last column lies two columns to its west. -/
theorem C38_wide_halo_wrong :
    ∃ t, checkLayout (onePoint 6 2 5 0 true false false) 2 false [] 6 1 = .ok (some t) ∧ (2, 1) ∈ t.list ∧
      mppComputeExtent 6 6 = .ok [(0, 0), (1, 1), (2, 2), (3, 3), (4, 4), (5, 5)] ∧
      ¬Basin.Dry (onePoint 6 2 5 0 true false false) 2 (1, 1) (0, 1) := by
  refine ⟨⟨2, 6, 1, [(2, 1), (3, 1)]⟩, by decide +kernel, by decide, by decide +kernel, ?_⟩
  intro h
  exact h (-1) 0 (by decide) (by decide) (by decide) (by decide) ⟨(5, 0), by decide +kernel, by decide +kernel⟩

theorem obcError_one (nx ny halo : Int) (o : Obc) (x y : Int × Int) : obcError nx ny halo [o] x y = 0 := by
  unfold obcError
  simp only [List.zipIdx_cons, List.zipIdx_nil, List.foldl_cons, List.foldl_nil]
  unfold obcStep
  simp only
  split
  · rfl
  · cases o.dir <;> simp

/-- With one open boundary and `--show_valid_only` no layout is ever shown, since processors without error are counted
as errors, and the error of the first boundary is not distinguished from none. -/
theorem C38_obc_wrong (b : Basin K) (halo l0 l1 : Nat) (o : Obc) (h0 : 1 ≤ l0 ∧ l0 ≤ b.nx) (h1 : 1 ≤ l1 ∧ l1 ≤ b.ny) :
    checkLayout b halo true [o] l0 l1 = .ok none := by
  obtain ⟨xs, hx, lx, px⟩ := C01_extents_partition b.nx l0 h0.1 h0.2
  obtain ⟨ys, hy, ly, py⟩ := C01_extents_partition b.ny l1 h1.1 h1.2
  unfold checkLayout
  rw [if_neg (by omega), hx, hy]
  simp only [bind, Except.bind, obcError_one]
  split
  · rw [if_pos]
    refine ⟨trivial, by simp, ?_⟩
    cases ys with
    | nil => simp at ly; omega
    | cons y ys =>
      cases xs with
      | nil => simp at lx; omega
      | cons x xs => simp
  · rfl

/-- The same grid without `--show_valid_only` has a table. -/
example : checkLayout (onePoint 4 4 0 0 true false false) 1 false [⟨.west, 0, 0, 0, 3⟩] 2 2 =
    .ok (some ⟨2, 2, 2, [(1, 2), (2, 2)]⟩) := by
  decide +kernel

/-- A case of `C38_land`: 2 x 2 cells on each face, one processor for each cell, land in one cell of the first face:
the 4 processors of this face and 2 on each of the two faces beside the cell are kept, 16 are masked. -/
example : (checkLand 6 2 2 2 2 (updateCubicHalo 6 2 2 (paddedArea 2 2 fun t i j => if t = 0 ∧ i = 0 ∧ j = 0 then (1 : ℚ) else 0))).toOption.map
    List.length = some 16 := by
  decide +kernel

end Verif.CheckMask
