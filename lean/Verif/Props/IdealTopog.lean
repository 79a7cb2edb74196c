import Verif.Model.IdealTopog
import Verif.Props.Nearest
import Mathlib.Tactic.Linarith
import Mathlib.Tactic.Ring
import Mathlib.Tactic.NormNum
import Mathlib.Tactic.FieldSimp
/-
C141: trapezoids of constant depth and the idealized topography of make_topog.
-/
namespace Verif
open IdealTopog Verif.Interp Verif.Spec

/-- The columns between the ends in the first and the last row: the nearest number to the straight line (up to the nudge of 1e-5), and between the ends. -/
theorem C141_line {js je a b j : Nat} (h : js < je) (h1 : js ≤ j) (h2 : j ≤ je) :
    |(lerp js je a b j : ℝ) - ((a : ℝ) + ((j : ℝ) - js) / ((je : ℝ) - js) * ((b : ℝ) - a))| ≤ 1 / 2 + 1 / 100000 ∧
    (min a b : Nat) ≤ lerp js je a b j ∧ lerp js je a b j ≤ (max a b : Nat) ∧ lerp js je a b js = a ∧ lerp js je a b je = b := by
  have gen : ∀ j : Nat, js ≤ j → j ≤ je → |(lerp js je a b j : ℝ) - ((a : ℝ) + ((j : ℝ) - js) / ((je : ℝ) - js) * ((b : ℝ) - a))| ≤ 1 / 2 + 1 / 100000 ∧
      (min a b : Nat) ≤ lerp js je a b j ∧ lerp js je a b j ≤ (max a b : Nat) := by
    intro j h1 h2
    have hpos : (0 : ℝ) < (je : ℝ) - js := by
      have : (js : ℝ) < je := by exact_mod_cast h
      linarith
    have hj1 : (0 : ℝ) ≤ (j : ℝ) - js := by
      have : (js : ℝ) ≤ j := by exact_mod_cast h1
      linarith
    have hj2 : (0 : ℝ) ≤ (je : ℝ) - j := by
      have : (j : ℝ) ≤ je := by exact_mod_cast h2
      linarith
    set e : ℝ := (a : ℝ) + ((j : ℝ) - js) / ((je : ℝ) - js) * ((b : ℝ) - a) with he
    have hd : 1 / ((je : ℝ) - js) * (((j : ℝ) - js) * b + ((je : ℝ) - j) * a) = e := by
      rw [he]
      field_simp
      ring
    have het : e * ((je : ℝ) - js) = ((j : ℝ) - js) * b + ((je : ℝ) - j) * a := by
      rw [← hd]
      field_simp
    have hlo : ((min a b : Nat) : ℝ) ≤ e := by
      have m1 : ((min a b : Nat) : ℝ) ≤ a := by exact_mod_cast Nat.min_le_left a b
      have m2 : ((min a b : Nat) : ℝ) ≤ b := by exact_mod_cast Nat.min_le_right a b
      have : ((min a b : Nat) : ℝ) * ((je : ℝ) - js) ≤ e * ((je : ℝ) - js) := by
        rw [het]
        nlinarith [mul_le_mul_of_nonneg_left m2 hj1, mul_le_mul_of_nonneg_left m1 hj2]
      exact le_of_mul_le_mul_right this hpos
    have hhi : e ≤ ((max a b : Nat) : ℝ) := by
      have m1 : (a : ℝ) ≤ ((max a b : Nat) : ℝ) := by exact_mod_cast Nat.le_max_left a b
      have m2 : (b : ℝ) ≤ ((max a b : Nat) : ℝ) := by exact_mod_cast Nat.le_max_right a b
      have : e * ((je : ℝ) - js) ≤ ((max a b : Nat) : ℝ) * ((je : ℝ) - js) := by
        rw [het]
        nlinarith [mul_le_mul_of_nonneg_left m2 hj1, mul_le_mul_of_nonneg_left m1 hj2]
      exact le_of_mul_le_mul_right this hpos
    have hr : e + 1 / 100000 - 1 / 2 ≤ (lerp js je a b j : ℝ) ∧ (lerp js je a b j : ℝ) ≤ e + 1 / 100000 + 1 / 2 := by
      unfold lerp
      simp only [if_neg (Nat.ne_of_lt h), hd]
      have c1 := Int.le_ceil (e + 1 / 100000)
      have c2 := Int.ceil_lt_add_one (e + 1 / 100000)
      split_ifs with hc
      · push_cast
        constructor <;> linarith
      · rw [gt_iff_lt, not_lt] at hc
        constructor <;> linarith
    refine ⟨?_, ?_, ?_⟩
    · rw [abs_le]
      constructor <;> linarith
    · by_contra hc
      have : lerp js je a b j + 1 ≤ ((min a b : Nat) : Int) := by omega
      have : (lerp js je a b j : ℝ) + 1 ≤ ((min a b : Nat) : ℝ) := by exact_mod_cast this
      linarith
    · by_contra hc
      have : ((max a b : Nat) : Int) + 1 ≤ lerp js je a b j := by omega
      have : ((max a b : Nat) : ℝ) + 1 ≤ (lerp js je a b j : ℝ) := by exact_mod_cast this
      linarith
  have close : ∀ (r : Int) (n : Nat), |(r : ℝ) - (n : ℝ)| ≤ 1 / 2 + 1 / 100000 → r = n := by
    intro r n hn
    rw [abs_le] at hn
    have a1 : (r : ℝ) < (n : ℝ) + 1 := by linarith
    have a2 : (n : ℝ) < (r : ℝ) + 1 := by linarith
    have b1 : r < (n : Int) + 1 := by exact_mod_cast a1
    have b2 : (n : Int) < r + 1 := by exact_mod_cast a2
    omega
  obtain ⟨g1, g2, g3⟩ := gen j h1 h2
  refine ⟨g1, g2, g3, close _ _ ?_, close _ _ ?_⟩
  · have := (gen js (le_refl _) (le_of_lt h)).1
    rwa [sub_self, zero_div, zero_mul, add_zero] at this
  · have := (gen je (le_of_lt h) (le_refl _)).1
    have hne : ((je : ℝ) - js) ≠ 0 := by
      have : (js : ℝ) < je := by exact_mod_cast h
      intro h0; linarith
    rw [div_self hne, one_mul] at this
    have e : (a : ℝ) + ((b : ℝ) - a) = b := by ring
    rwa [e] at this

/-- The end of row `j`: in the first row that of the corner, then that of the straight line one row before. -/
noncomputable def rowEnd (js je a b j : Nat) : Int := if j = js then (a : Int) else lerp js je a b (j - 1)

private theorem rows_ok {nx : Nat} {c : Corners} (v : ℝ) (h1 : c.is1 < nx) (h2 : c.ie1 < nx) (h3 : c.is2 < nx) (h4 : c.ie2 < nx) (hj : c.js ≤ c.je) :
    ∀ (n j : Nat) (d : Depths), c.js ≤ j → j + n = c.je + 1 →
      ∃ d', rows nx c v n j (rowEnd c.js c.je c.is1 c.is2 j) (rowEnd c.js c.je c.ie1 c.ie2 j) d = .ok d' ∧
        ∀ i' j', d' i' j' = if (j ≤ j' ∧ j' ≤ c.je) ∧ rowEnd c.js c.je c.is1 c.is2 j' ≤ (i' : Int) ∧ (i' : Int) ≤ rowEnd c.js c.je c.ie1 c.ie2 j' then v else d i' j' := by
  intro n
  induction n with
  | zero =>
    intro j d _ hn
    refine ⟨d, rfl, ?_⟩
    intro i' j'
    rw [if_neg (by omega)]
  | succ n ih =>
    intro j d hjs hn
    have rng : 0 ≤ rowEnd c.js c.je c.is1 c.is2 j ∧ rowEnd c.js c.je c.ie1 c.ie2 j < nx := by
      unfold rowEnd
      by_cases he : j = c.js
      · rw [if_pos he, if_pos he]; omega
      · rw [if_neg he, if_neg he]
        have l1 := (C141_line (js := c.js) (je := c.je) (a := c.is1) (b := c.is2) (j := j - 1) (by omega) (by omega) (by omega)).2
        have l2 := (C141_line (js := c.js) (je := c.je) (a := c.ie1) (b := c.ie2) (j := j - 1) (by omega) (by omega) (by omega)).2
        omega
    rw [rows, if_neg (by omega)]
    have e1 : lerp c.js c.je c.is1 c.is2 j = rowEnd c.js c.je c.is1 c.is2 (j + 1) := by
      unfold rowEnd
      rw [if_neg (by omega), Nat.add_sub_cancel]
    have e2 : lerp c.js c.je c.ie1 c.ie2 j = rowEnd c.js c.je c.ie1 c.ie2 (j + 1) := by
      unfold rowEnd
      rw [if_neg (by omega), Nat.add_sub_cancel]
    rw [e1, e2]
    obtain ⟨d', hd', h⟩ := ih (j + 1) (fun i' j' => if j' = j ∧ rowEnd c.js c.je c.is1 c.is2 j ≤ (i' : Int) ∧ (i' : Int) ≤ rowEnd c.js c.je c.ie1 c.ie2 j then v else d i' j')
      (by omega) (by omega)
    refine ⟨d', hd', ?_⟩
    intro i' j'
    rw [h]
    by_cases he : j' = j
    · subst he
      rw [if_neg (by omega)]
      simp only [true_and]
      by_cases hh : rowEnd c.js c.je c.is1 c.is2 j' ≤ (i' : Int) ∧ (i' : Int) ≤ rowEnd c.js c.je c.ie1 c.ie2 j'
      · rw [if_pos hh, if_pos ⟨⟨le_refl _, by omega⟩, hh⟩]
      · rw [if_neg hh, if_neg fun hc => hh hc.2]
    · have : (j + 1 ≤ j' ∧ j' ≤ c.je) ↔ (j ≤ j' ∧ j' ≤ c.je) := by omega
      simp only [this, he, false_and, if_false]

private theorem near_ok {v : ℝ} {a : Nat → ℝ} {len n : Nat} (h : n ≤ len) (h2 : 2 ≤ n) (hm : NonDecreasing a n) :
    ∃ r, near v a len n = .ok r ∧ IsNearest v a n r := by
  obtain ⟨r, hr, hn⟩ := C23_nearest v a n h2 hm
  refine ⟨r, ?_, hn⟩
  unfold near
  rw [if_neg (by omega), hr]

/-- A trapezoid on a grid that is not higher than wide: the corners are the nearest rows and columns (the last longitude among the first `ny` columns), nothing outside the rows of the
trapezoid changes, and in them exactly the cells between the ends of the row get the depth. -/
theorem C141_set_depth_partial {nx ny : Nat} (h2 : 2 ≤ ny) (hxy : ny ≤ nx) {xb yb : Nat → ℝ} (hx : NonDecreasing xb nx) (hy : NonDecreasing yb ny) (t : Trapezoid) (v : ℝ) (d : Depths) :
    ∃ j1 j2 i1 i2 i3 i4, IsNearest t.alat1 yb ny j1 ∧ IsNearest t.alat2 yb ny j2 ∧ IsNearest t.slon1 xb nx i1 ∧ IsNearest t.elon1 xb nx i2 ∧ IsNearest t.slon2 xb nx i3 ∧
      IsNearest t.elon2 xb ny i4 ∧ ∃ d', setDepth nx ny xb yb t v d = .ok d' ∧ ∀ i j, d' i j =
        if (min j1 j2 ≤ j ∧ j ≤ max j1 j2) ∧ rowEnd (min j1 j2) (max j1 j2) (min i1 i2) (min i3 i4) j ≤ (i : Int) ∧
          (i : Int) ≤ rowEnd (min j1 j2) (max j1 j2) (max i1 i2) (max i3 i4) j then v else d i j := by
  obtain ⟨j1, e1, n1⟩ := near_ok (v := t.alat1) (len := ny) (le_refl _) h2 hy
  obtain ⟨j2, e2, n2⟩ := near_ok (v := t.alat2) (len := ny) (le_refl _) h2 hy
  obtain ⟨i1, e3, n3⟩ := near_ok (v := t.slon1) (len := nx) (le_refl _) (by omega) hx
  obtain ⟨i2, e4, n4⟩ := near_ok (v := t.elon1) (len := nx) (le_refl _) (by omega) hx
  obtain ⟨i3, e5, n5⟩ := near_ok (v := t.slon2) (len := nx) (le_refl _) (by omega) hx
  obtain ⟨i4, e6, n6⟩ := near_ok (v := t.elon2) (a := xb) (len := nx) hxy h2 (fun i j hi hj => hx i j hi (by omega))
  refine ⟨j1, j2, i1, i2, i3, i4, n1, n2, n3, n4, n5, n6, ?_⟩
  have hc : corners nx ny xb yb t = .ok ⟨min j1 j2, max j1 j2, min i1 i2, max i1 i2, min i3 i4, max i3 i4⟩ := by
    unfold corners
    rw [e1, e2, e3, e4, e5, e6]
    rfl
  have b3 := n3.1
  have b4 := n4.1
  have b5 := n5.1
  have b6 := n6.1
  obtain ⟨d', hd', h⟩ := rows_ok (nx := nx) (c := ⟨min j1 j2, max j1 j2, min i1 i2, max i1 i2, min i3 i4, max i3 i4⟩) v (by dsimp only; omega) (by dsimp only; omega)
    (by dsimp only; omega) (by dsimp only; omega) (by dsimp only; omega) (max j1 j2 - min j1 j2 + 1) (min j1 j2) d (le_refl _) (by dsimp only; omega)
  refine ⟨d', ?_, h⟩
  unfold setDepth
  rw [hc]
  refine Eq.trans ?_ hd'
  simp only [rowEnd, if_true]
  rfl

/-- A trapezoid of two rows has the ends of the southern row in both: the longitudes of the northern edge have no effect. -/
theorem C141_two_rows_wrong {nx ny : Nat} (h2 : 2 ≤ ny) (hxy : ny ≤ nx) {xb yb : Nat → ℝ} (hx : NonDecreasing xb nx) (hy : NonDecreasing yb ny) (t : Trapezoid) (v : ℝ) (d : Depths)
    (hrows : ∀ j1 j2, IsNearest t.alat1 yb ny j1 → IsNearest t.alat2 yb ny j2 → j2 = j1 + 1) :
    ∃ (js : Nat) (w e : Int) (d' : Depths), setDepth nx ny xb yb t v d = .ok d' ∧ IsNearest t.alat2 yb ny (js + 1) ∧
      (∀ i, d' i (js + 1) = if w ≤ (i : Int) ∧ (i : Int) ≤ e then v else d i (js + 1)) ∧
      (∀ i, d' i js = if w ≤ (i : Int) ∧ (i : Int) ≤ e then v else d i js) := by
  obtain ⟨j1, j2, i1, i2, i3, i4, n1, n2, _, _, _, _, d', hd', h⟩ := C141_set_depth_partial h2 hxy hx hy t v d
  have hj := hrows j1 j2 n1 n2
  subst hj
  have m1 : min j1 (j1 + 1) = j1 := by omega
  have m2 : max j1 (j1 + 1) = j1 + 1 := by omega
  rw [m1, m2] at h
  have l : ∀ a b, lerp j1 (j1 + 1) a b j1 = a := fun a b =>
    (C141_line (js := j1) (je := j1 + 1) (a := a) (b := b) (j := j1) (by omega) (by omega) (by omega)).2.2.2.1
  refine ⟨j1, (min i1 i2 : Nat), (max i1 i2 : Nat), d', hd', n2, ?_, ?_⟩
  · intro i
    rw [h]
    have r : ∀ a b, rowEnd j1 (j1 + 1) a b (j1 + 1) = a := fun a b => by
      unfold rowEnd
      rw [if_neg (by omega), Nat.add_sub_cancel, l]
    rw [r, r]
    by_cases hh : ((min i1 i2 : Nat) : Int) ≤ (i : Int) ∧ (i : Int) ≤ ((max i1 i2 : Nat) : Int)
    · rw [if_pos hh, if_pos ⟨⟨by omega, by omega⟩, hh⟩]
    · rw [if_neg hh, if_neg fun hc => hh hc.2]
  · intro i
    rw [h]
    have r : ∀ a b, rowEnd j1 (j1 + 1) a b j1 = a := fun a b => by
      unfold rowEnd
      rw [if_pos rfl]
    rw [r, r]
    by_cases hh : ((min i1 i2 : Nat) : Int) ≤ (i : Int) ∧ (i : Int) ≤ ((max i1 i2 : Nat) : Int)
    · rw [if_pos hh, if_pos ⟨⟨by omega, by omega⟩, hh⟩]
    · rw [if_neg hh, if_neg fun hc => hh hc.2]

/-- On a grid that is wider than high the last column of the northern edge is at most the column `ny - 1`, for any longitude east of it. -/
theorem C141_east_end_wrong {nx ny : Nat} (h2 : 2 ≤ ny) (hxy : ny < nx) {xb yb : Nat → ℝ} (hx : Increasing xb nx) (hy : NonDecreasing yb ny) (t : Trapezoid)
    (he : t.elon2 = xb (nx - 1)) : IsNearest t.elon2 xb nx (nx - 1) ∧
      ∃ c i3, corners nx ny xb yb t = .ok c ∧ IsNearest t.slon2 xb nx i3 ∧ c.ie2 = max i3 (ny - 1) := by
  constructor
  · refine ⟨by omega, ?_⟩
    intro k _
    rw [he, sub_self, abs_zero]
    exact abs_nonneg _
  · obtain ⟨j1, e1, n1⟩ := near_ok (v := t.alat1) (len := ny) (le_refl _) h2 hy
    obtain ⟨j2, e2, n2⟩ := near_ok (v := t.alat2) (len := ny) (le_refl _) h2 hy
    obtain ⟨i1, e3, n3⟩ := near_ok (v := t.slon1) (len := nx) (le_refl _) (by omega) hx.nonDecreasing
    obtain ⟨i2, e4, n4⟩ := near_ok (v := t.elon1) (len := nx) (le_refl _) (by omega) hx.nonDecreasing
    obtain ⟨i3, e5, n5⟩ := near_ok (v := t.slon2) (len := nx) (le_refl _) (by omega) hx.nonDecreasing
    have hmy : NonDecreasing xb ny := fun i j hi hj => hx.nonDecreasing i j hi (by omega)
    obtain ⟨i4, e6, n6⟩ := near_ok (v := t.elon2) (a := xb) (len := nx) (by omega) h2 hmy
    have h4 : i4 = ny - 1 := by
      by_contra hne
      have h1 := n6.1
      have h3 := n6.2 (ny - 1) (by omega)
      have a1 := hx i4 (ny - 1) (by omega) (by omega)
      have a2 := hx (ny - 1) (nx - 1) (by omega) (by omega)
      rw [he, abs_of_neg (by linarith), abs_of_neg (by linarith)] at h3
      linarith
    subst h4
    refine ⟨⟨min j1 j2, max j1 j2, min i1 i2, max i1 i2, min i3 (ny - 1), max i3 (ny - 1)⟩, i3, ?_, n5, rfl⟩
    unfold corners
    rw [e1, e2, e3, e4, e5, e6]
    rfl

/-- On a grid that is higher than wide `nearest_index` reads outside the longitudes. -/
theorem C141_tall_wrong {nx ny : Nat} (h2 : 2 ≤ nx) (hxy : nx < ny) {x y : Nat → Nat → ℝ} (hx : NonDecreasing (fun i => (x i 0 + x (i + 1) 0) / 2) nx) (hy : NonDecreasing (fun j => (y 0 j + y 0 (j + 1)) / 2) ny) (bottom minDepth : ℝ) :
    idealized nx ny x y bottom minDepth = .error .undefined := by
  replace hx : NonDecreasing (xbnd x) nx := fun i j hij hj => by have := hx i j hij hj; unfold xbnd; simp only at this ⊢; linarith
  replace hy : NonDecreasing (ybnd y) ny := fun i j hij hj => by have := hy i j hij hj; unfold ybnd; simp only at this ⊢; linarith
  have key : ∀ (t : Trapezoid) (v : ℝ) (d : Depths), setDepth nx ny (xbnd x) (ybnd y) t v d = .error .undefined := by
    intro t v d
    obtain ⟨j1, e1, n1⟩ := near_ok (v := t.alat1) (len := ny) (le_refl _) (by omega) hy
    obtain ⟨j2, e2, n2⟩ := near_ok (v := t.alat2) (len := ny) (le_refl _) (by omega) hy
    obtain ⟨i1, e3, n3⟩ := near_ok (v := t.slon1) (len := nx) (le_refl _) h2 hx
    obtain ⟨i2, e4, n4⟩ := near_ok (v := t.elon1) (len := nx) (le_refl _) h2 hx
    obtain ⟨i3, e5, n5⟩ := near_ok (v := t.slon2) (len := nx) (le_refl _) h2 hx
    have e6 : near t.elon2 (xbnd x) nx ny = .error .undefined := by
      unfold near
      rw [if_pos hxy]
    have : corners nx ny (xbnd x) (ybnd y) t = .error .undefined := by
      unfold corners
      rw [e1, e2, e3, e4, e5, e6]
      rfl
    unfold setDepth
    rw [this]
    rfl
  unfold idealized continents
  rw [setAll, key]
  rfl

private theorem setAll_ok {nx ny : Nat} (h2 : 2 ≤ ny) (hxy : ny ≤ nx) {xb yb : Nat → ℝ} (hx : NonDecreasing xb nx) (hy : NonDecreasing yb ny) (v : ℝ) (P : ℝ → Prop) (hv : P v) :
    ∀ (ts : List Trapezoid) (d : Depths), (∀ i j, P (d i j)) → ∃ d', setAll nx ny xb yb v ts d = .ok d' ∧ ∀ i j, P (d' i j)
  | [], d, h => ⟨d, rfl, h⟩
  | t :: ts, d, h => by
    obtain ⟨_, _, _, _, _, _, _, _, _, _, _, _, d1, hd1, hd⟩ := C141_set_depth_partial h2 hxy hx hy t v d
    obtain ⟨d', hd', h'⟩ := setAll_ok h2 hxy hx hy v P hv ts d1 (by
      intro i j
      rw [hd]
      split_ifs
      · exact hv
      · exact h i j)
    refine ⟨d', ?_, h'⟩
    rw [setAll, hd1]
    exact hd'

/-- The idealized topography on a grid that is not higher than wide: every cell is land, or its depth is between half of `bottom_depth` and the larger one of `bottom_depth` and
`min_depth`. -/
theorem C141_idealized_partial {nx ny : Nat} (h2 : 2 ≤ ny) (hxy : ny ≤ nx) {x y : Nat → Nat → ℝ} (hx : NonDecreasing (fun i => (x i 0 + x (i + 1) 0) / 2) nx) (hy : NonDecreasing (fun j => (y 0 j + y 0 (j + 1)) / 2) ny)
    (bottom minDepth : ℝ) (hb : 0 < bottom) :
    ∃ d, idealized nx ny x y bottom minDepth = .ok d ∧ ∀ i j, d i j = 0 ∨ (bottom / 2 ≤ d i j ∧ d i j ≤ max bottom minDepth) := by
  replace hx : NonDecreasing (xbnd x) nx := fun i j hij hj => by have := hx i j hij hj; unfold xbnd; simp only at this ⊢; linarith
  replace hy : NonDecreasing (ybnd y) ny := fun i j hij hj => by have := hy i j hij hj; unfold ybnd; simp only at this ⊢; linarith
  obtain ⟨d1, e1, p1⟩ := setAll_ok h2 hxy hx hy 0 (fun z => z = 0 ∨ z = bottom) (.inl rfl) continents (fun _ _ => bottom) (fun _ _ => .inr rfl)
  have hmax : bottom ≤ max bottom minDepth := le_max_left _ _
  have pu : ∀ i j, undulate nx ny bottom minDepth d1 i j = 0 ∨
      (bottom / 2 ≤ undulate nx ny bottom minDepth d1 i j ∧ undulate nx ny bottom minDepth d1 i j ≤ max bottom minDepth) := by
    intro i j
    unfold undulate
    rcases p1 i j with h | h
    · left
      rw [h, if_neg (lt_irrefl _)]
    · right
      rw [h, if_pos hb]
      have w0 := abs_nonneg (Real.cos (((j : ℝ) + 1) * Real.pi / ((ny : ℝ) + 1)) * Real.sin (((i : ℝ) + 1) * 2 * Real.pi / ((nx : ℝ) + 1)))
      have w1 : |Real.cos (((j : ℝ) + 1) * Real.pi / ((ny : ℝ) + 1)) * Real.sin (((i : ℝ) + 1) * 2 * Real.pi / ((nx : ℝ) + 1))| ≤ 1 := by
        rw [abs_mul]
        exact mul_le_one₀ (Real.abs_cos_le_one _) (abs_nonneg _) (Real.abs_sin_le_one _)
      generalize |Real.cos (((j : ℝ) + 1) * Real.pi / ((ny : ℝ) + 1)) * Real.sin (((i : ℝ) + 1) * 2 * Real.pi / ((nx : ℝ) + 1))| = w at w0 w1
      refine ⟨le_max_of_le_left ?_, max_le_max ?_ (le_refl _)⟩ <;> nlinarith
  obtain ⟨d2, e2, p2⟩ := setAll_ok h2 hxy hx hy (666 / 1000 * bottom) (fun z => z = 0 ∨ (bottom / 2 ≤ z ∧ z ≤ max bottom minDepth))
    (.inr ⟨by linarith, by linarith⟩) ridges (undulate nx ny bottom minDepth d1) pu
  obtain ⟨d3, e3, p3⟩ := setAll_ok h2 hxy hx hy (5 / 10 * bottom) (fun z => z = 0 ∨ (bottom / 2 ≤ z ∧ z ≤ max bottom minDepth))
    (.inr ⟨by linarith, by linarith⟩) ridge d2 p2
  refine ⟨d3, ?_, p3⟩
  unfold idealized
  rw [e1]
  show (do let d2 ← setAll nx ny (xbnd x) (ybnd y) (666 / 1000 * bottom) ridges (undulate nx ny bottom minDepth d1); _) = _
  rw [e2]
  exact e3

/-- A grid of 8 by 4 cells around the globe. -/
example : NonDecreasing (fun i => (45 * (i : ℝ) + 45 * ((i + 1 : Nat) : ℝ)) / 2) 8 ∧ NonDecreasing (fun j => (45 * (j : ℝ) - 90 + (45 * ((j + 1 : Nat) : ℝ) - 90)) / 2) 4 := by
  constructor <;>
  · intro i j h _
    have : (i : ℝ) ≤ j := by exact_mod_cast h
    push_cast
    linarith

/-- Rows at 0, 1, 2, ...: a trapezoid from 1 to 2 has two rows. -/
example (s1 e1 s2 e2 : ℝ) : ∀ j1 j2, IsNearest (Trapezoid.mk 1 s1 e1 2 s2 e2).alat1 (fun j => (j : ℝ)) 4 j1 →
    IsNearest (Trapezoid.mk 1 s1 e1 2 s2 e2).alat2 (fun j => (j : ℝ)) 4 j2 → j2 = j1 + 1 := by
  intro j1 j2 h1 h2
  have a1 := h1.2 1 (by omega)
  have a2 := h2.2 2 (by omega)
  simp only [Nat.cast_one, Nat.cast_ofNat, sub_self, abs_zero] at a1 a2
  have b1 : (j1 : ℝ) - 1 = 0 := abs_eq_zero.mp (le_antisymm a1 (abs_nonneg _))
  have b2 : (j2 : ℝ) - 2 = 0 := abs_eq_zero.mp (le_antisymm a2 (abs_nonneg _))
  have c1 : (j1 : ℝ) = ((1 : Nat) : ℝ) := by push_cast; linarith
  have c2 : (j2 : ℝ) = ((2 : Nat) : ℝ) := by push_cast; linarith
  have d1 : j1 = 1 := by exact_mod_cast c1
  have d2 : j2 = 2 := by exact_mod_cast c2
  omega

end Verif
