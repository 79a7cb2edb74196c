import Verif.Model.PolyCentroid
import Verif.Props.PolyArea
import Mathlib.MeasureTheory.Integral.IntervalIntegral.FundThmCalculus
import Mathlib.Analysis.SpecialFunctions.Integrals.Basic
/-
C121: first moments of polygons on the sphere.
-/
namespace Verif
open Clip Spec PolyArea PolyCentroid
open Real (pi sin cos)
open intervalIntegral

/-- The integrand of Jones (1998), equation 13: `∫ lat dA = ∮ -(cos lat + lat sin lat) dlon`. -/
noncomputable def latF (a : ℝ) : ℝ := cos a + a * sin a
/-- Minus an antiderivative of `latF`. -/
noncomputable def latG (a : ℝ) : ℝ := a * cos a - 2 * sin a

/-- The line integral of `-latF(lat) dlon` along the straight side from `p` to `q`. -/
noncomputable def lineLat (p q : ℝ × ℝ) : ℝ :=
  ∫ t in (0 : ℝ)..1, -(latF (p.2 + t * (q.2 - p.2)) * (q.1 - p.1))

/-- As `SidesClear`, for half differences of latitude as in `poly_ctrlat`. -/
def HalfClear (small : ℝ) (l : List (ℝ × ℝ)) : Prop :=
  ∀ e ∈ polyEdges l, e.1.2 = e.2.2 ∨ small ≤ |(e.1.2 - e.2.2) * (1 / 2)|

theorem latG_deriv (a : ℝ) : HasDerivAt latG (-latF a) a := by
  unfold latG latF
  have h1 := (hasDerivAt_id a).mul (Real.hasDerivAt_cos a)
  have h2 := (Real.hasDerivAt_sin a).const_mul 2
  have := h1.sub h2
  refine this.congr_deriv ?_
  simp
  ring

theorem latF_deriv (a : ℝ) : HasDerivAt latF (a * cos a) a := by
  unfold latF
  have h1 := (hasDerivAt_id a).mul (Real.hasDerivAt_sin a)
  have := (Real.hasDerivAt_cos a).add h1
  refine this.congr_deriv ?_
  simp

theorem latF_continuous : Continuous latF := by
  unfold latF; fun_prop

theorem lineLat_eq (p q : ℝ × ℝ) : lineLat p q = sph latF latG p q := by
  unfold lineLat sph
  by_cases h : p.2 = q.2
  · rw [if_pos h, h]
    simp
    ring
  · rw [if_neg h]
    have d : q.2 - p.2 ≠ 0 := sub_ne_zero.2 fun e => h e.symm
    have hd : ∀ t ∈ Set.uIcc (0 : ℝ) 1, HasDerivAt
        (fun t => (q.1 - p.1) / (q.2 - p.2) * latG (p.2 + t * (q.2 - p.2)))
        (-(latF (p.2 + t * (q.2 - p.2)) * (q.1 - p.1))) t := by
      intro t _
      have h1 : HasDerivAt (fun t : ℝ => p.2 + t * (q.2 - p.2)) (q.2 - p.2) t := by
        simpa using ((hasDerivAt_id t).mul_const (q.2 - p.2)).const_add p.2
      have h2 := (latG_deriv (p.2 + t * (q.2 - p.2))).comp t h1
      have h3 := h2.const_mul ((q.1 - p.1) / (q.2 - p.2))
      refine h3.congr_deriv ?_
      field_simp
    rw [integral_eq_sub_of_hasDerivAt hd]
    · simp only [zero_mul, add_zero, one_mul, add_sub_cancel]
      ring
    · apply Continuous.intervalIntegrable
      have := latF_continuous
      fun_prop

theorem wrapLe_id {dx : ℝ} (h : |dx| < pi) : wrapLe pi dx = dx := by
  have := abs_lt.1 h
  unfold wrapLe
  rw [if_neg (show ¬dx > pi by linarith), if_neg (by linarith)]

/-- The formula of the code for a side that changes latitude is the mean of `latF` on it. -/
theorem latF_mean {a b : ℝ} (h : (a - b) * (1 / 2) ≠ 0) :
    sin ((a - b) * (1 / 2)) / ((a - b) * (1 / 2)) * (2 * cos ((b + a) * (1 / 2)) + a * sin ((b + a) * (1 / 2))) -
      cos b = (latG b - latG a) / (a - b) := by
  have d : a - b ≠ 0 := by
    intro e; apply h; rw [e, zero_mul]
  have ea : a = (b + a) * (1 / 2) + (a - b) * (1 / 2) := by ring
  have eb : b = (b + a) * (1 / 2) - (a - b) * (1 / 2) := by ring
  have h1 := Real.cos_add ((b + a) * (1 / 2)) ((a - b) * (1 / 2))
  have h2 := Real.cos_sub ((b + a) * (1 / 2)) ((a - b) * (1 / 2))
  have h3 := Real.sin_add ((b + a) * (1 / 2)) ((a - b) * (1 / 2))
  have h4 := Real.sin_sub ((b + a) * (1 / 2)) ((a - b) * (1 / 2))
  rw [← ea] at h1 h3
  rw [← eb] at h2 h4
  unfold latG
  rw [h1, h2, h3, h4]
  field_simp
  ring

theorem latSide_eq {small : ℝ} (h0 : 0 < small) {p q : ℝ × ℝ} (hx : |q.1 - p.1| < pi)
    (hy : p.2 = q.2 ∨ small ≤ |(p.2 - q.2) * (1 / 2)|) : latSide sin cos pi small p q = sph latF latG p q := by
  unfold latSide
  simp only []
  rw [wrapLe_id hx]
  by_cases hd : q.1 - p.1 = 0
  · rw [if_pos hd]
    unfold sph
    rw [hd]
    simp
  · rw [if_neg hd]
    unfold sph
    rcases hy with h | h
    · rw [if_pos (by rw [h]; simpa using h0), if_pos h, h]
      rw [show (q.2 + q.2) * (1 / 2) = q.2 by ring]
      unfold latF
      ring
    · have hne : (p.2 - q.2) * (1 / 2) ≠ 0 := by
        intro e; rw [e, abs_zero] at h; linarith
      have hpq : p.2 ≠ q.2 := by
        intro e; apply hne; rw [e]; ring
      rw [if_neg (not_lt.2 h), if_neg hpq, latF_mean hne]
      have d1 : p.2 - q.2 ≠ 0 := sub_ne_zero.2 hpq
      have d2 : q.2 - p.2 ≠ 0 := sub_ne_zero.2 fun e => hpq e.symm
      rw [show q.2 - p.2 = -(p.2 - q.2) by ring]
      field_simp

theorem polyCtrlat_eq {small radius : ℝ} (h0 : 0 < small) {l : List (ℝ × ℝ)}
    (hlon : ∀ p ∈ l, ∀ q ∈ l, |q.1 - p.1| < pi) (hs : HalfClear small l) :
    polyCtrlat sin cos pi small radius l = cyc (sph latF latG) l * radius * radius := by
  unfold polyCtrlat
  rw [sides_sum, cyc_congr_edges (F := sph latF latG)]
  intro e he
  have := polyEdges_mem e he
  exact latSide_eq h0 (hlon e.1 this.1 e.2 this.2) (hs e he)

/-- C121. The moment computed is the line integral of Jones around the polygon with straight sides: no
approximation is made along the sides. -/
theorem C121_line (small radius : ℝ) (h0 : 0 < small) (l : List (ℝ × ℝ))
    (hlon : ∀ p ∈ l, ∀ q ∈ l, |q.1 - p.1| < pi) (hs : HalfClear small l) :
    polyCtrlat sin cos pi small radius l = cyc lineLat l * radius ^ 2 := by
  rw [polyCtrlat_eq h0 hlon hs]
  have : lineLat = sph latF latG := by
    funext p q; exact lineLat_eq p q
  rw [this]
  ring

/-- C121. The moments computed for the pieces of a cell clipped to the cells of a lat-lon grid add up to the
moment computed for the cell. -/
theorem C121_pieces (small radius : ℝ) (h0 : 0 < small) (l : List (ℝ × ℝ)) (x y : Nat → ℝ) (nx ny : Nat)
    (hx : ∀ i, i < nx → x i ≤ x (i + 1)) (hy : ∀ j, j < ny → y j ≤ y (j + 1))
    (hl : ∀ p ∈ l, InBox (x 0, y 0) (x nx, y ny) p) (piece : Nat → Nat → List (ℝ × ℝ))
    (hp : ∀ i j, i < nx → j < ny → clip l (x i, y j) (x (i + 1), y (j + 1)) = some (piece i j))
    (hlon : ∀ p ∈ l, ∀ q ∈ l, |q.1 - p.1| ≤ pi - small)
    (hs : HalfClear small l) (hps : ∀ i j, i < nx → j < ny → HalfClear small (piece i j)) :
    gridSum ny nx (fun j i => polyCtrlat sin cos pi small radius (piece i j)) =
      polyCtrlat sin cos pi small radius l := by
  rw [polyCtrlat_eq h0 (fun p hp q hq => lt_of_le_of_lt (hlon p hp q hq) (by linarith)) hs,
    ← C28_tiling (sph latF latG) (sph_additive latF latG) l x y nx ny hx hy hl piece hp]
  have hull : ∀ i j, i < nx → j < ny → ∀ q ∈ piece i j, InHull l q := fun i j hi hj q hq =>
    (C28_inside l (piece i j) _ _ (hp i j hi hj) (hx i hi) (hy j hj) q hq).2
  have e : ∀ i j, i < nx → j < ny → polyCtrlat sin cos pi small radius (piece i j) =
      cyc (sph latF latG) (piece i j) * radius * radius := by
    intro i j hi hj
    refine polyCtrlat_eq h0 ?_ (hps i j hi hj)
    have up : ∀ a ∈ piece i j, ∀ b ∈ piece i j, b.1 - a.1 ≤ pi - small := by
      intro a ha b hb
      have h1 : ∀ v ∈ l, b.1 ≤ v.1 + (pi - small) := by
        intro v hv
        have := hull i j hi hj b hb 1 0 (v.1 + (pi - small)) fun w hw => by
          have := (abs_le.1 (hlon v hv w hw)).2; linarith
        linarith
      have := hull i j hi hj a ha (-1) 0 (pi - small - b.1) fun w hw => by
        have := h1 w hw; linarith
      linarith
    intro a ha b hb
    refine lt_of_le_of_lt (abs_le.2 ⟨by have := up b hb a ha; linarith, up a ha b hb⟩) (by linarith)
  unfold gridSum
  have out : ∀ (L : List ℝ), L.sum * radius * radius = (L.map fun a => a * radius * radius).sum := by
    intro L
    induction L with
    | nil => simp
    | cons a L ih => rw [List.sum_cons, List.map_cons, List.sum_cons, ← ih]; ring
  rw [out, List.map_map]
  congr 1
  apply List.map_congr_left
  intro i hi
  show _ = (_ : ℝ) * radius * radius
  rw [out, List.map_map]
  congr 1
  apply List.map_congr_left
  intro j hj
  exact e i j (List.mem_range.1 hi) (List.mem_range.1 hj)

/-! ### The centroid is in the cell -/

theorem sph_lin (s c s' c' : ℝ → ℝ) (k k' : ℝ) (p q : ℝ × ℝ) :
    sph (fun a => k * s a + k' * s' a) (fun a => k * c a + k' * c' a) p q = k * sph s c p q + k' * sph s' c' p q := by
  unfold sph
  by_cases h : p.2 = q.2
  · simp only [if_pos h]; ring
  · simp only [if_neg h]; ring

theorem cyc_lin (E F : ℝ × ℝ → ℝ × ℝ → ℝ) (k k' : ℝ) (l : List (ℝ × ℝ)) :
    cyc (fun p q => k * E p q + k' * F p q) l = k * cyc E l + k' * cyc F l := by
  rw [cyc_eq_edges, cyc_eq_edges, cyc_eq_edges]
  induction polyEdges l with
  | nil => simp
  | cons a t ih => simp only [List.map_cons, List.sum_cons] at ih ⊢; rw [ih]; ring

/-- A function with a derivative that does not fall below zero between the latitudes has the property used for
the triangles. -/
theorem mean_of_deriv {s c s' : ℝ → ℝ} {lo hi : ℝ} (hc : ∀ a, HasDerivAt c (-s a) a) (hsd : ∀ a, HasDerivAt s (s' a) a)
    (h0 : ∀ a, lo ≤ a → a ≤ hi → 0 ≤ s' a) : Mean s c (fun a => lo ≤ a ∧ a ≤ hi) := by
  have mono : MonotoneOn s (Set.Icc lo hi) := by
    apply monotoneOn_of_deriv_nonneg (convex_Icc lo hi)
    · exact fun a _ => (hsd a).continuousAt.continuousWithinAt
    · exact fun a _ => (hsd a).differentiableAt.differentiableWithinAt
    · intro a ha
      rw [interior_Icc] at ha
      rw [(hsd a).deriv]
      exact h0 a (le_of_lt ha.1) (le_of_lt ha.2)
  intro a b ha hb hab
  obtain ⟨x, hx, h⟩ := exists_deriv_eq_slope c hab (fun a _ => (hc a).continuousAt.continuousWithinAt)
    (fun a _ => (hc a).differentiableAt.differentiableWithinAt)
  rw [(hc x).deriv] at h
  have d : 0 < b - a := sub_pos.2 hab
  have e : s x * (b - a) = c a - c b := by
    have : -s x * (b - a) = c b - c a := by rw [h]; field_simp
    linarith
  have hxr : x ∈ Set.Icc lo hi := ⟨by linarith [ha.1, hx.1], by linarith [hb.2, hx.2]⟩
  have h1 : s a ≤ s x := mono ⟨ha.1, ha.2⟩ hxr (le_of_lt hx.1)
  have h2 : s x ≤ s b := mono hxr ⟨hb.1, hb.2⟩ (le_of_lt hx.2)
  rw [← e]
  exact ⟨mul_le_mul_of_nonneg_right h1 (le_of_lt d), mul_le_mul_of_nonneg_right h2 (le_of_lt d)⟩

/-- C121. The latitude of the centroid of a convex cell, moment over area, is between the smallest and the
largest latitude of its corners. -/
theorem C121_between (small radius : ℝ) (h0 : 0 < small) (l : List (ℝ × ℝ)) (hc : Convex l) (lo hi : ℝ)
    (h1 : -(pi / 2) ≤ lo) (h2 : hi ≤ pi / 2) (hlat : ∀ p ∈ l, lo ≤ p.2 ∧ p.2 ≤ hi)
    (hlon : ∀ p ∈ l, ∀ q ∈ l, |q.1 - p.1| ≤ pi - small) (hs : SidesClear small l) (hs' : HalfClear small l) :
    lo * polyArea sin pi small radius l ≤ polyCtrlat sin cos pi small radius l ∧
    polyCtrlat sin cos pi small radius l ≤ hi * polyArea sin pi small radius l := by
  have hcos : ∀ a, lo ≤ a → a ≤ hi → 0 ≤ cos a := fun a ha hb =>
    Real.cos_nonneg_of_mem_Icc ⟨by linarith, by linarith⟩
  rw [polyArea_eq h0 hc (fun p hp => ⟨le_trans h1 (hlat p hp).1, le_trans (hlat p hp).2 h2⟩) hlon hs,
    polyCtrlat_eq h0 (fun p hp q hq => lt_of_le_of_lt (hlon p hp q hq) (by linarith)) hs']
  have key : ∀ k k' : ℝ, (∀ a, lo ≤ a → a ≤ hi → 0 ≤ k * a + k') →
      0 ≤ k * cyc (sph latF latG) l + k' * cyc (sph sin cos) l := by
    intro k k' hk
    have hm : Mean (fun a => k * latF a + k' * sin a) (fun a => k * latG a + k' * cos a)
        (fun a => lo ≤ a ∧ a ≤ hi) := by
      refine mean_of_deriv (s' := fun a => (k * a + k') * cos a) ?_ ?_ ?_
      · intro a
        have := ((latG_deriv a).const_mul k).add ((Real.hasDerivAt_cos a).const_mul k')
        refine this.congr_deriv ?_
        ring
      · intro a
        have := ((latF_deriv a).const_mul k).add ((Real.hasDerivAt_sin a).const_mul k')
        refine this.congr_deriv ?_
        ring
      · intro a ha hb
        exact mul_nonneg (hk a ha hb) (hcos a ha hb)
    have := cyc_sph_nonneg hm l hlat hc
    have e : (sph (fun a => k * latF a + k' * sin a) fun a => k * latG a + k' * cos a) =
        fun p q => k * sph latF latG p q + k' * sph sin cos p q := by
      funext p q; exact sph_lin _ _ _ _ _ _ _ _
    rwa [e, cyc_lin] at this
  have r0 : 0 ≤ radius ^ 2 := sq_nonneg _
  constructor
  · have := mul_nonneg (key 1 (-lo) (fun a ha _ => by linarith)) r0
    nlinarith
  · have := mul_nonneg (key (-1) hi (fun a _ hb => by linarith)) r0
    nlinarith

/-! ### Boxes -/

/-- C121. For a lat-lon cell both formulas give the integral of the latitude over the cell. -/
theorem C121_box (small radius : ℝ) (h0 : 0 < small) (ll ur : ℝ × ℝ) (hx : ll.1 ≤ ur.1) (hw : ur.1 - ll.1 < pi)
    (hy : ll.2 = ur.2 ∨ ll.2 + 2 * small ≤ ur.2) :
    polyCtrlat sin cos pi small radius (boxPoly ll ur) =
      (∫ _ in ll.1..ur.1, ∫ b in ll.2..ur.2, b * cos b) * radius ^ 2 ∧
    boxCtrlat sin cos pi radius ll ur = (∫ _ in ll.1..ur.1, ∫ b in ll.2..ur.2, b * cos b) * radius ^ 2 := by
  have hint : (∫ _ in ll.1..ur.1, ∫ b in ll.2..ur.2, b * cos b) = (ur.1 - ll.1) * (latF ur.2 - latF ll.2) := by
    rw [integral_eq_sub_of_hasDerivAt (fun a _ => latF_deriv a)]
    · simp
      ring
    · apply Continuous.intervalIntegrable
      fun_prop
  have hpi := Real.pi_pos
  have hcy : cyc (sph latF latG) (boxPoly ll ur) = (ur.1 - ll.1) * (latF ur.2 - latF ll.2) := by
    unfold boxPoly cyc
    simp only [List.getLast?_cons_cons, List.getLast?_singleton, path]
    unfold sph
    simp only [sub_self, zero_mul, zero_div, neg_zero, ite_self, if_true]
    ring
  rw [hint]
  constructor
  · rw [polyCtrlat_eq h0 ?_ ?_, hcy]
    · ring
    · intro p hp q hq
      unfold boxPoly at hp hq
      simp only [List.mem_cons, List.not_mem_nil, or_false] at hp hq
      rcases hp with rfl | rfl | rfl | rfl <;> rcases hq with rfl | rfl | rfl | rfl <;>
        rw [abs_lt] <;> constructor <;> linarith
    · intro e he
      unfold boxPoly polyEdges at he
      simp only [List.getLast?_cons_cons, List.getLast?_singleton, pathEdges, List.mem_cons, List.not_mem_nil,
        or_false] at he
      have hd : ll.2 = ur.2 ∨ small ≤ |(ur.2 - ll.2) * (1 / 2)| := by
        rcases hy with h | h
        · exact Or.inl h
        · exact Or.inr (by rw [abs_of_nonneg (by linarith)]; linarith)
      rcases he with rfl | rfl | rfl | rfl
      · simp only []
        rcases hd with h | h
        · exact Or.inl h.symm
        · exact Or.inr h
      · exact Or.inl rfl
      · simp only []
        rcases hd with h | h
        · exact Or.inl h
        · exact Or.inr (by
            rw [show (ll.2 - ur.2) * (1 / 2) = -((ur.2 - ll.2) * (1 / 2)) by ring, abs_neg]; exact h)
      · exact Or.inl rfl
  · unfold boxCtrlat
    rw [wrap_id (by rw [abs_le]; constructor <;> linarith)]
    unfold latF
    ring

theorem ff_deriv (a : ℝ) : HasDerivAt (ff sin cos) (cos a ^ 2) a := by
  unfold ff
  have h := (((Real.hasDerivAt_cos a).mul (Real.hasDerivAt_sin a)).add (hasDerivAt_id a)).const_mul (1 / 2)
  refine h.congr_deriv ?_
  have := Real.sin_sq_add_cos_sq a
  linear_combination (-1 / 2 : ℝ) * this

/-- Along a parallel near `clon`. -/
theorem lonSide_level (clon : ℝ) {p q : ℝ × ℝ} (hl : p.2 = q.2) (hx : |q.1 - p.1| < pi) (hp : |p.1 - clon| ≤ pi)
    (hq : |q.1 - clon| ≤ pi) :
    lonSide sin cos pi clon p q = -(((q.1 - clon) ^ 2 - (p.1 - clon) ^ 2) / 2 * ff sin cos p.2) := by
  unfold lonSide
  simp only []
  rw [wrap_id (le_of_lt hx), wrap_id hp, wrap_id hq, if_pos, hl]
  · ring
  · rw [show p.1 - clon - (q.1 - clon) = -(q.1 - p.1) by ring, abs_neg]; exact hx

/-- C121. For a lat-lon cell at most half a turn from the middle longitude `clon` both formulas of the other moment give the
integral of (longitude - `clon`) times the cosine of the latitude over the cell. -/
theorem C121_lon_box (radius clon : ℝ) (ll ur : ℝ × ℝ) (hx : ll.1 ≤ ur.1) (hw : ur.1 - ll.1 < pi)
    (h1 : |ll.1 - clon| ≤ pi) (h2 : |ur.1 - clon| ≤ pi) :
    polyCtrlon sin cos pi radius clon (boxPoly ll ur) =
      (∫ a in ll.1..ur.1, ∫ b in ll.2..ur.2, (a - clon) * cos b * cos b) * radius ^ 2 ∧
    boxCtrlon sin cos pi radius clon ll ur =
      (∫ a in ll.1..ur.1, ∫ b in ll.2..ur.2, (a - clon) * cos b * cos b) * radius ^ 2 := by
  have hpi := Real.pi_pos
  have inner : ∀ a : ℝ, (∫ b in ll.2..ur.2, (a - clon) * cos b * cos b) =
      (a - clon) * (ff sin cos ur.2 - ff sin cos ll.2) := by
    intro a
    rw [← integral_eq_sub_of_hasDerivAt (fun b _ => ff_deriv b), ← integral_const_mul]
    · congr 1
      funext b
      ring
    · apply Continuous.intervalIntegrable
      fun_prop
  have hint : (∫ a in ll.1..ur.1, ∫ b in ll.2..ur.2, (a - clon) * cos b * cos b) =
      ((ur.1 - clon) ^ 2 - (ll.1 - clon) ^ 2) / 2 * (ff sin cos ur.2 - ff sin cos ll.2) := by
    simp only [inner]
    have hd : ∀ a ∈ Set.uIcc ll.1 ur.1, HasDerivAt
        (fun a => (a - clon) ^ 2 / 2 * (ff sin cos ur.2 - ff sin cos ll.2))
        ((a - clon) * (ff sin cos ur.2 - ff sin cos ll.2)) a := by
      intro a _
      have h := ((((hasDerivAt_id a).sub_const clon).pow 2).div_const 2).mul_const (ff sin cos ur.2 - ff sin cos ll.2)
      refine h.congr_deriv ?_
      simp
    rw [integral_eq_sub_of_hasDerivAt hd]
    · ring
    · apply Continuous.intervalIntegrable
      fun_prop
  have s1 := lonSide_level clon (p := ll) (q := (ur.1, ll.2)) rfl
    (by simp only []; rw [abs_lt]; constructor <;> linarith) h1 h2
  have s2 := lonSide_level clon (p := ur) (q := (ll.1, ur.2)) rfl
    (by simp only []; rw [abs_lt]; constructor <;> linarith) h2 h1
  rw [hint]
  constructor
  · unfold polyCtrlon
    rw [sides_sum (fun p q => if q.1 - p.1 = 0 then 0 else lonSide sin cos pi clon p q)]
    unfold boxPoly cyc
    simp only [List.getLast?_cons_cons, List.getLast?_singleton, path, sub_self, if_true]
    rw [s1, s2]
    by_cases h : ur.1 - ll.1 = 0
    · have h' : ll.1 - ur.1 = 0 := by linarith
      rw [if_pos h, if_pos h', show ur.1 = ll.1 by linarith]
      ring
    · have h' : ¬ll.1 - ur.1 = 0 := fun e => h (by linarith)
      rw [if_neg h, if_neg h']
      ring
  · unfold boxCtrlon
    rw [s1, s2]
    ring

/-- C121. Along slanted sides the moment in longitude is taken by the trapezoidal rule: it is not the integral, and
the moments of the pieces do not add up to that of the cell. The triangle with corners (0,0), (1,0), (1,pi/2) cut along
the meridian at 1/2. -/
theorem C121_lon_wrong :
    polyCtrlon sin cos pi 1 0 [(0, 0), (1, 0), (1, pi / 2)] = pi / 8 ∧
    polyCtrlon sin cos pi 1 0 [(0, 0), (1 / 2, 0), (1 / 2, pi / 4)] +
      polyCtrlon sin cos pi 1 0 [(1 / 2, 0), (1, 0), (1, pi / 2), (1 / 2, pi / 4)] = 1 / 16 + 3 * pi / 32 ∧
    1 / 16 + 3 * pi / 32 < pi / 8 := by
  have h3 := Real.pi_gt_three
  have c4 : cos (pi / 4) * sin (pi / 4) = 1 / 2 := by
    rw [Real.cos_pi_div_four, Real.sin_pi_div_four]
    have := Real.mul_self_sqrt (show (0 : ℝ) ≤ 2 by norm_num)
    linear_combination (1 / 4 : ℝ) * this
  have f0 : ff sin cos 0 = 0 := by unfold ff; simp
  have f4 : ff sin cos (pi / 4) = 1 / 4 + pi / 8 := by unfold ff; rw [c4]; ring
  have f2 : ff sin cos (pi / 2) = pi / 4 := by unfold ff; simp; ring
  have w : ∀ x : ℝ, -1 ≤ x → x ≤ 1 → wrap pi x = x := fun x h1 h2 => wrap_id (abs_le.2 ⟨by linarith, by linarith⟩)
  have side : ∀ a b y z : ℝ, 0 ≤ a → a ≤ 1 → 0 ≤ b → b ≤ 1 → lonSide sin cos pi 0 (a, y) (b, z) =
      -((b - a) * (b * ff sin cos z + a * ff sin cos y) / 2) := by
    intro a b y z ha0 ha1 hb0 hb1
    unfold lonSide
    simp only [sub_zero]
    rw [w _ (by linarith) (by linarith), w _ (by linarith) (by linarith), w _ (by linarith) (by linarith), if_pos]
    rw [abs_lt]
    constructor <;> linarith
  refine ⟨?_, ?_, by linarith⟩
  · unfold polyCtrlon sides
    norm_num
    rw [side _ _ _ _ (by norm_num) (by norm_num) (by norm_num) (by norm_num),
      side _ _ _ _ (by norm_num) (by norm_num) (by norm_num) (by norm_num), f0, f2]
    ring
  · unfold polyCtrlon sides
    norm_num
    rw [side _ _ _ _ (by norm_num) (by norm_num) (by norm_num) (by norm_num),
      side _ _ _ _ (by norm_num) (by norm_num) (by norm_num) (by norm_num),
      side _ _ _ _ (by norm_num) (by norm_num) (by norm_num) (by norm_num),
      side _ _ _ _ (by norm_num) (by norm_num) (by norm_num) (by norm_num), f0, f2, f4]
    ring

/-! ### Whole turns -/

/-- The same corners, some of them given with a longitude one turn larger: a cell across the date line. -/
def SameUpToTurn (l l' : List (ℝ × ℝ)) : Prop :=
  List.Forall₂ (fun p q => q.2 = p.2 ∧ (q.1 = p.1 ∨ q.1 = p.1 + 2 * pi)) l l'

theorem cyc_forall2 {R : ℝ × ℝ → ℝ × ℝ → Prop} {E F : ℝ × ℝ → ℝ × ℝ → ℝ} {l l' : List (ℝ × ℝ)}
    (h : List.Forall₂ R l l')
    (hE : ∀ p ∈ l, ∀ q ∈ l, ∀ p' q', R p p' → R q q' → E p q = F p' q') : cyc E l = cyc F l' := by
  have gen : ∀ (t t' : List (ℝ × ℝ)) (p p' : ℝ × ℝ), List.Forall₂ R t t' → R p p' → p ∈ l → (∀ q ∈ t, q ∈ l) →
      path E p t = path F p' t' := by
    intro t
    induction t with
    | nil => intro t' p p' ht hp _ _; cases ht; rfl
    | cons a t ih =>
      intro t' p p' ht hp hpl htl
      cases ht with
      | cons hab hr =>
        simp only [path]
        rw [hE p hpl a (htl a (List.mem_cons_self ..)) _ _ hp hab,
          ih _ _ _ hr hab (htl a (List.mem_cons_self ..)) fun q hq => htl q (List.mem_cons_of_mem _ hq)]
  have last : ∀ (t t' : List (ℝ × ℝ)), List.Forall₂ R t t' →
      (t.getLast? = none ∧ t'.getLast? = none) ∨ ∃ z z', t.getLast? = some z ∧ t'.getLast? = some z' ∧ R z z' := by
    intro t
    induction t with
    | nil => intro t' ht; cases ht; exact Or.inl ⟨rfl, rfl⟩
    | cons a t ih =>
      intro t' ht
      cases ht with
      | @cons _ b _ t' hab hr =>
        right
        rcases ih _ hr with ⟨h1, h2⟩ | ⟨z, z', h1, h2, h3⟩
        · rw [List.getLast?_eq_none_iff] at h1 h2
          subst h1 h2
          exact ⟨a, b, rfl, rfl, hab⟩
        · exact ⟨z, z', by rw [List.getLast?_cons, h1]; rfl, by rw [List.getLast?_cons, h2]; rfl, h3⟩
  unfold cyc
  rcases last l l' h with ⟨h1, h2⟩ | ⟨z, z', h1, h2, h3⟩
  · rw [h1, h2]
  · rw [h1, h2]
    exact gen l l' z z' h h3 (List.mem_of_getLast? h1) fun q hq => hq

theorem wrap_turn {d d' : ℝ} (h : |d| < pi) (hd : d' = d ∨ d' = d + 2 * pi ∨ d' = d - 2 * pi) :
    wrap pi d' = d ∧ wrapLe pi d' = d := by
  have := abs_lt.1 h
  unfold wrap wrapLe
  rcases hd with rfl | rfl | rfl
  · rw [if_neg (show ¬d' > pi by linarith), if_neg (by linarith), if_neg (by linarith)]
    exact ⟨rfl, rfl⟩
  · rw [if_pos (show d + 2 * pi > pi by linarith), if_neg (by linarith), if_neg (by linarith)]
    constructor <;> ring
  · rw [if_neg (show ¬d - 2 * pi > pi by linarith), if_pos (by linarith), if_pos (by linarith)]
    constructor <;> ring

/-- C121. A cell across the date line: a corner may be given with a longitude one turn larger, the area and
both moments stay the same. -/
theorem C121_turn (small radius clon : ℝ) (l l' : List (ℝ × ℝ)) (h : SameUpToTurn l l')
    (hlon : ∀ p ∈ l, ∀ q ∈ l, |q.1 - p.1| < pi) (hclon : ∀ p ∈ l, |p.1 - clon| < pi) :
    polyArea sin pi small radius l' = polyArea sin pi small radius l ∧
    polyCtrlat sin cos pi small radius l' = polyCtrlat sin cos pi small radius l ∧
    polyCtrlon sin cos pi radius clon l' = polyCtrlon sin cos pi radius clon l := by
  have dif : ∀ p ∈ l, ∀ q ∈ l, ∀ p' q' : ℝ × ℝ, (p'.2 = p.2 ∧ (p'.1 = p.1 ∨ p'.1 = p.1 + 2 * pi)) →
      (q'.2 = q.2 ∧ (q'.1 = q.1 ∨ q'.1 = q.1 + 2 * pi)) →
      q'.1 - p'.1 = q.1 - p.1 ∨ q'.1 - p'.1 = q.1 - p.1 + 2 * pi ∨ q'.1 - p'.1 = q.1 - p.1 - 2 * pi := by
    rintro p _ q _ p' q' ⟨_, hp | hp⟩ ⟨_, hq | hq⟩ <;> rw [hp, hq]
    · exact Or.inl rfl
    · exact Or.inr (Or.inl (by ring))
    · exact Or.inr (Or.inr (by ring))
    · exact Or.inl (by ring)
  refine ⟨?_, ?_, ?_⟩
  · unfold polyArea
    rw [sides_sum, sides_sum, ← cyc_forall2 h]
    intro p hp q hq p' q' hpp hqq
    unfold side
    rw [(wrap_turn (hlon p hp q hq) (dif p hp q hq p' q' hpp hqq)).1,
      (wrap_turn (hlon p hp q hq) (Or.inl rfl)).1, hpp.1, hqq.1]
  · unfold polyCtrlat
    rw [sides_sum, sides_sum, ← cyc_forall2 h]
    intro p hp q hq p' q' hpp hqq
    have w := wrap_turn (hlon p hp q hq) (dif p hp q hq p' q' hpp hqq)
    have w0 := wrap_turn (hlon p hp q hq) (Or.inl rfl)
    unfold latSide
    simp only []
    rw [w.2, w0.2, hpp.1, hqq.1]
    by_cases h1 : q.1 - p.1 = 0
    · rw [h1]; simp
    · rw [if_neg h1]
      by_cases h2 : q'.1 - p'.1 = 0
      · exfalso
        rw [h2, (wrap_turn (d := 0) (by rw [abs_zero]; exact Real.pi_pos) (Or.inl rfl)).1] at w
        exact h1 w.1.symm
      · rw [if_neg h2]
  · unfold polyCtrlon
    rw [sides_sum (fun p q => if q.1 - p.1 = 0 then 0 else lonSide sin cos pi clon p q),
      sides_sum (fun p q => if q.1 - p.1 = 0 then 0 else lonSide sin cos pi clon p q), ← cyc_forall2 h]
    intro p hp q hq p' q' hpp hqq
    have w := wrap_turn (hlon p hp q hq) (dif p hp q hq p' q' hpp hqq)
    have w0 := wrap_turn (hlon p hp q hq) (Or.inl rfl)
    have one : ∀ (a a' : ℝ × ℝ), a ∈ l → (a'.1 = a.1 ∨ a'.1 = a.1 + 2 * pi) →
        wrap pi (a'.1 - clon) = wrap pi (a.1 - clon) := by
      intro a a' ha e
      rw [(wrap_turn (hclon a ha) (Or.inl rfl)).1, (wrap_turn (d' := a'.1 - clon) (hclon a ha) ?_).1]
      rcases e with e | e
      · exact Or.inl (by rw [e])
      · exact Or.inr (Or.inl (by rw [e]; ring))
    have hl : lonSide sin cos pi clon p' q' = lonSide sin cos pi clon p q := by
      unfold lonSide
      simp only []
      rw [w.1, w0.1, hpp.1, hqq.1, one p p' hp hpp.2, one q q' hq hqq.2]
    by_cases h1 : q.1 - p.1 = 0
    · rw [if_pos h1]
      by_cases h2 : q'.1 - p'.1 = 0
      · rw [if_pos h2]
      · rw [if_neg h2, hl]
        unfold lonSide
        simp only []
        rw [w0.1, h1]
        rw [if_pos]
        · ring
        · have : q.1 = p.1 := by linarith
          rw [this]; simpa using Real.pi_pos
    · rw [if_neg h1, if_neg, hl]
      intro h2
      rw [h2, (wrap_turn (d := 0) (by rw [abs_zero]; exact Real.pi_pos) (Or.inl rfl)).1] at w
      exact h1 w.1.symm

/-! ### Concrete cases -/

/-- The northern half of a lune of 1 radian. -/
example (radius : ℝ) : polyCtrlat sin cos pi (1 / 10 ^ 10) radius (boxPoly (0, 0) (1, pi / 2)) =
    (pi / 2 - 1) * radius ^ 2 := by
  have h3 := Real.pi_gt_three
  have := (C121_box (1 / 10 ^ 10) radius (by norm_num) (0, 0) (1, pi / 2) (by norm_num)
    (by simp only []; linarith) (Or.inr (by simp only []; norm_num; linarith))).2
  rw [(C121_box (1 / 10 ^ 10) radius (by norm_num) (0, 0) (1, pi / 2) (by norm_num)
    (by simp only []; linarith) (Or.inr (by simp only []; norm_num; linarith))).1, ← this]
  unfold boxCtrlat
  rw [wrap_id (by norm_num; linarith)]
  simp
  ring

/-- A triangle that meets the hypotheses of `C121_line` and `C121_between`. -/
example : HalfClear (1 / 10) [(0, 0), (1, 0), (1, 1)] ∧ SidesClear (1 / 10) [(0, 0), (1, 0), (1, 1)] ∧
    Convex (K := ℝ) [(0, 0), (1, 0), (1, 1)] := by
  refine ⟨?_, ?_, ?_⟩
  · intro e he
    simp only [polyEdges, List.getLast?_cons_cons, List.getLast?_singleton, pathEdges, List.mem_cons,
      List.not_mem_nil, or_false] at he
    rcases he with rfl | rfl | rfl <;> norm_num [abs_of_nonneg, abs_of_neg]
  · intro e he
    simp only [polyEdges, List.getLast?_cons_cons, List.getLast?_singleton, pathEdges, List.mem_cons,
      List.not_mem_nil, or_false] at he
    rcases he with rfl | rfl | rfl <;> norm_num [abs_of_nonneg, abs_of_neg]
  · intro e he r hr
    simp only [polyEdges, List.getLast?_cons_cons, List.getLast?_singleton, pathEdges, List.mem_cons,
      List.not_mem_nil, or_false] at he
    simp only [List.mem_cons, List.not_mem_nil, or_false] at hr
    rcases he with rfl | rfl | rfl <;> rcases hr with rfl | rfl | rfl <;> unfold orient <;> norm_num

/-- The same triangle across the date line. -/
example : SameUpToTurn [(-1, 0), (1, 0), (1, 1)] [(-1 + 2 * pi, 0), (1, 0), (1, 1)] := by
  refine .cons ⟨rfl, Or.inr rfl⟩ (.cons ⟨rfl, Or.inl rfl⟩ (.cons ⟨rfl, Or.inl rfl⟩ .nil))

end Verif
