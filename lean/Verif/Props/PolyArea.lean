import Verif.Lemmas.PolyArea
import Verif.Props.Clip
import Mathlib.Analysis.SpecialFunctions.Trigonometric.Basic
import Mathlib.Analysis.SpecialFunctions.Trigonometric.Deriv
import Mathlib.Analysis.Real.Pi.Bounds
import Mathlib.Analysis.Calculus.Deriv.MeanValue
/-
C48: areas on the sphere, and the areas of the pieces of a clipped polygon.
-/
namespace Verif
open Clip Spec PolyArea
open Real (pi sin cos)

/-- Between the poles. -/
def LatRange (a : ℝ) : Prop := -(pi / 2) ≤ a ∧ a ≤ pi / 2

/-- Every side of the polygon runs along a parallel or changes latitude by at least `small`: the code has
another formula in between. -/
def SidesClear (small : ℝ) (l : List (ℝ × ℝ)) : Prop :=
  ∀ e ∈ polyEdges l, e.1.2 = e.2.2 ∨ small ≤ |e.2.2 - e.1.2|

theorem mean_sin : Mean sin cos LatRange := by
  intro a b ha hb hab
  obtain ⟨x, hx, h⟩ := exists_deriv_eq_slope cos hab Real.continuous_cos.continuousOn
    Real.differentiable_cos.differentiableOn
  rw [Real.deriv_cos] at h
  have d : 0 < b - a := sub_pos.2 hab
  have e : sin x * (b - a) = cos a - cos b := by
    have : -sin x * (b - a) = cos b - cos a := by rw [h]; field_simp
    linarith
  have hxr : x ∈ Set.Icc (-(pi / 2)) (pi / 2) := ⟨by linarith [ha.1, hx.1], by linarith [hb.2, hx.2]⟩
  have h1 : sin a ≤ sin x := Real.monotoneOn_sin ha hxr (le_of_lt hx.1)
  have h2 : sin x ≤ sin b := Real.monotoneOn_sin hxr hb (le_of_lt hx.2)
  rw [← e]
  exact ⟨mul_le_mul_of_nonneg_right h1 (le_of_lt d), mul_le_mul_of_nonneg_right h2 (le_of_lt d)⟩

theorem wrap_id {dx : ℝ} (h : |dx| ≤ pi) : wrap pi dx = dx := by
  have := abs_le.1 h
  unfold wrap
  rw [if_neg (show ¬dx > pi by linarith), if_neg (by linarith)]

theorem half_angle {a b : ℝ} (h : b - a ≠ 0) :
    sin (1 / 2 * (b + a)) * (sin (1 / 2 * (b - a)) / (1 / 2 * (b - a))) = (cos a - cos b) / (b - a) := by
  have e : cos a - cos b = 2 * sin (1 / 2 * (b + a)) * sin (1 / 2 * (b - a)) := by
    have h1 := Real.cos_sub (1 / 2 * (b + a)) (1 / 2 * (b - a))
    have h2 := Real.cos_add (1 / 2 * (b + a)) (1 / 2 * (b - a))
    rw [show 1 / 2 * (b + a) - 1 / 2 * (b - a) = a by ring] at h1
    rw [show 1 / 2 * (b + a) + 1 / 2 * (b - a) = b by ring] at h2
    rw [h1, h2]; ring
  rw [e]
  field_simp

theorem side_eq {small : ℝ} (h0 : 0 < small) {p q : ℝ × ℝ} (hx : |q.1 - p.1| ≤ pi - small)
    (hy : p.2 = q.2 ∨ small ≤ |q.2 - p.2|) : side sin pi small p q = sph sin cos p q := by
  have hx' := abs_le.1 hx
  unfold side
  rw [wrap_id (by linarith)]
  simp only []
  rw [if_neg]
  · unfold sph
    rcases hy with h | h
    · rw [if_pos (by rw [h]; simpa using h0), if_pos h, h]
      congr 3
      ring
    · rw [if_neg (not_lt.2 h)]
      have d : q.2 - p.2 ≠ 0 := by
        intro e; rw [e, abs_zero] at h; linarith
      rw [if_neg (by intro e; apply d; rw [e]; ring), mul_assoc, half_angle d]
      ring
  · rintro (h | h)
    · have := abs_lt.1 h; linarith
    · have := abs_lt.1 h; linarith

theorem sideNA_eq {small : ℝ} (h0 : 0 < small) {p q : ℝ × ℝ} (hy : p.2 = q.2 ∨ small ≤ |q.2 - p.2|) :
    sideNA sin cos small p q = sph sin cos p q := by
  unfold sideNA sph
  simp only []
  by_cases hd : q.1 - p.1 = 0
  · rw [if_pos hd, hd]; simp
  · rw [if_neg hd]
    rcases hy with h | h
    · rw [if_pos (by rw [h]; simpa using h0), if_pos h, h]
      congr 3
      ring
    · rw [if_neg (not_lt.2 h)]
      rw [if_neg (by intro e; rw [e] at h; simp at h; linarith)]

theorem cyc_congr_edges {E F : ℝ × ℝ → ℝ × ℝ → ℝ} {l : List (ℝ × ℝ)}
    (h : ∀ e ∈ polyEdges l, E e.1 e.2 = F e.1 e.2) : cyc E l = cyc F l := by
  rw [cyc_eq_edges, cyc_eq_edges]
  congr 1
  exact List.map_congr_left h

/-- The area of a convex polygon is the line integral. -/
theorem polyArea_eq {small radius : ℝ} (h0 : 0 < small) {l : List (ℝ × ℝ)} (hc : Convex l)
    (hlat : ∀ p ∈ l, LatRange p.2) (hlon : ∀ p ∈ l, ∀ q ∈ l, |q.1 - p.1| ≤ pi - small) (hs : SidesClear small l) :
    polyArea sin pi small radius l = cyc (sph sin cos) l * radius * radius := by
  unfold polyArea
  rw [sides_sum, cyc_congr_edges (F := sph sin cos)]
  · simp only []
    rw [if_neg (not_lt.2 (cyc_sph_nonneg mean_sin l hlat hc))]
  · intro e he
    have := polyEdges_mem e he
    exact side_eq h0 (hlon e.1 this.1 e.2 this.2) (hs e he)

/-- C48. The areas computed for the pieces of a grid cell clipped to the cells of a lat-lon grid add up to the
area computed for the cell. -/
theorem C48_pieces (small radius : ℝ) (h0 : 0 < small) (l : List (ℝ × ℝ)) (x y : Nat → ℝ) (nx ny : Nat)
    (hx : ∀ i, i < nx → x i ≤ x (i + 1)) (hy : ∀ j, j < ny → y j ≤ y (j + 1))
    (hl : ∀ p ∈ l, InBox (x 0, y 0) (x nx, y ny) p) (piece : Nat → Nat → List (ℝ × ℝ))
    (hp : ∀ i j, i < nx → j < ny → clip l (x i, y j) (x (i + 1), y (j + 1)) = some (piece i j))
    (hc : Convex l) (hlat : ∀ p ∈ l, LatRange p.2) (hlon : ∀ p ∈ l, ∀ q ∈ l, |q.1 - p.1| ≤ pi - small)
    (hs : SidesClear small l) (hps : ∀ i j, i < nx → j < ny → SidesClear small (piece i j)) :
    gridSum ny nx (fun j i => polyArea sin pi small radius (piece i j)) = polyArea sin pi small radius l := by
  rw [polyArea_eq h0 hc hlat hlon hs,
    ← C28_tiling (sph sin cos) (sph_additive sin cos) l x y nx ny hx hy hl piece hp]
  have hull : ∀ i j, i < nx → j < ny → ∀ q ∈ piece i j, InHull l q := fun i j hi hj q hq =>
    (C28_inside l (piece i j) _ _ (hp i j hi hj) (hx i hi) (hy j hj) q hq).2
  have e : ∀ i j, i < nx → j < ny → polyArea sin pi small radius (piece i j) =
      cyc (sph sin cos) (piece i j) * radius * radius := by
    intro i j hi hj
    refine polyArea_eq h0 (C28_convex l _ _ _ (hp i j hi hj) hc) ?_ ?_ (hps i j hi hj)
    · intro p hp
      have h := hull i j hi hj p hp
      constructor
      · have := h 0 (-1) (pi / 2) fun v hv => by have := (hlat v hv).1; linarith
        linarith
      · have := h 0 1 (pi / 2) fun v hv => by have := (hlat v hv).2; linarith
        linarith
    · have up : ∀ a ∈ piece i j, ∀ b ∈ piece i j, b.1 - a.1 ≤ pi - small := by
        intro a ha b hb
        have h1 : ∀ v ∈ l, b.1 ≤ v.1 + (pi - small) := by
          intro v hv
          have := hull i j hi hj b hb 1 0 (v.1 + (pi - small)) fun w hw => by
            have := (abs_le.1 (hlon v hv w hw)).2; linarith
          linarith
        have := hull i j hi hj a ha (-1) 0 (pi - small - b.1) fun w hw => by
          have := h1 w hw; linarith
        linarith
      intro a ha b hb
      exact abs_le.2 ⟨by have := up b hb a ha; linarith, up a ha b hb⟩
  unfold gridSum
  have out : ∀ (L : List ℝ), L.sum * radius * radius = (L.map fun a => a * radius * radius).sum := by
    intro L
    induction L with
    | nil => simp
    | cons a L ih => rw [List.sum_cons, List.map_cons, List.sum_cons, ← ih]; ring
  rw [out, List.map_map]
  congr 1
  apply List.map_congr_left
  intro i hi
  show _ = (_ : ℝ) * radius * radius
  rw [out, List.map_map]
  congr 1
  apply List.map_congr_left
  intro j hj
  exact e i j (List.mem_range.1 hi) (List.mem_range.1 hj)

/-- The corners of a lat-lon cell, counter-clockwise. -/
def boxPoly (ll ur : ℝ × ℝ) : List (ℝ × ℝ) := [ll, (ur.1, ll.2), ur, (ll.1, ur.2)]

/-- C48. For a lat-lon cell narrower than half a turn the polygon formula, the formula without adjustment and
the box formula agree, and are the known area. -/
theorem C48_box (small radius : ℝ) (h0 : 0 < small) (ll ur : ℝ × ℝ) (hx : ll.1 ≤ ur.1) (hw : ur.1 - ll.1 ≤ pi - small)
    (hy : ll.2 = ur.2 ∨ ll.2 + small ≤ ur.2) (h1 : -(pi / 2) ≤ ll.2) (h2 : ur.2 ≤ pi / 2) :
    polyArea sin pi small radius (boxPoly ll ur) = (ur.1 - ll.1) * (sin ur.2 - sin ll.2) * radius ^ 2 ∧
    polyAreaNA sin cos small radius (boxPoly ll ur) = (ur.1 - ll.1) * (sin ur.2 - sin ll.2) * radius ^ 2 ∧
    boxArea sin pi radius ll ur = (ur.1 - ll.1) * (sin ur.2 - sin ll.2) * radius ^ 2 := by
  have hy' : ll.2 ≤ ur.2 := by rcases hy with h | h <;> linarith
  have hpi := Real.pi_pos
  have hcy : cyc (sph sin cos) (boxPoly ll ur) = (ur.1 - ll.1) * (sin ur.2 - sin ll.2) := by
    unfold boxPoly cyc
    simp only [List.getLast?_cons_cons, List.getLast?_singleton, path]
    unfold sph
    simp only [sub_self, zero_mul, zero_div, neg_zero, ite_self, if_true]
    ring
  have hedge : SidesClear small (boxPoly ll ur) := by
    intro e he
    unfold boxPoly polyEdges at he
    simp only [List.getLast?_cons_cons, List.getLast?_singleton, pathEdges, List.mem_cons, List.not_mem_nil,
      or_false] at he
    have hd : ll.2 = ur.2 ∨ small ≤ |ur.2 - ll.2| := by
      rcases hy with h | h
      · exact Or.inl h
      · exact Or.inr (by rw [abs_of_nonneg (by linarith)]; linarith)
    rcases he with rfl | rfl | rfl | rfl
    · simp only []
      rcases hd with h | h
      · exact Or.inl h.symm
      · exact Or.inr (by rw [abs_sub_comm]; exact h)
    · exact Or.inl rfl
    · exact hd
    · exact Or.inl rfl
  refine ⟨?_, ?_, ?_⟩
  · rw [polyArea_eq h0 ?_ ?_ ?_ hedge, hcy]
    · ring
    · intro e he r hr
      unfold boxPoly polyEdges at he
      simp only [List.getLast?_cons_cons, List.getLast?_singleton, pathEdges, List.mem_cons, List.not_mem_nil,
        or_false] at he
      have dx : 0 ≤ ur.1 - ll.1 := by linarith
      have dy : 0 ≤ ur.2 - ll.2 := by linarith
      have dxy := mul_nonneg dx dy
      unfold boxPoly at hr
      simp only [List.mem_cons, List.not_mem_nil, or_false] at hr
      rcases he with rfl | rfl | rfl | rfl <;> rcases hr with rfl | rfl | rfl | rfl <;> unfold orient <;>
        simp only [] <;> nlinarith
    · intro p hp
      unfold boxPoly at hp
      simp only [List.mem_cons, List.not_mem_nil, or_false] at hp
      rcases hp with rfl | rfl | rfl | rfl <;> constructor <;> linarith
    · intro p hp q hq
      unfold boxPoly at hp hq
      simp only [List.mem_cons, List.not_mem_nil, or_false] at hp hq
      rcases hp with rfl | rfl | rfl | rfl <;> rcases hq with rfl | rfl | rfl | rfl <;>
        rw [abs_le] <;> constructor <;> linarith
  · unfold polyAreaNA
    rw [sides_sum, cyc_congr_edges (F := sph sin cos), hcy]
    · ring
    · intro e he
      exact sideNA_eq h0 (hedge e he)
  · unfold boxArea
    rw [wrap_id (by rw [abs_le]; constructor <;> linarith)]
    ring

/-- C48. The cells of a global lat-lon grid, each narrower than half a turn, have together the area of the
sphere. -/
theorem C48_sphere (radius : ℝ) (x y : Nat → ℝ) (nx ny : Nat) (hx : ∀ i, i < nx → |x (i + 1) - x i| ≤ pi)
    (hturn : x nx = x 0 + 2 * pi) (hs : y 0 = -(pi / 2)) (hn : y ny = pi / 2) :
    gridSum ny nx (fun j i => boxArea sin pi radius (x i, y j) (x (i + 1), y (j + 1))) = 4 * pi * radius ^ 2 := by
  have col : ∀ i, i < nx → ((List.range ny).map fun j =>
      boxArea sin pi radius (x i, y j) (x (i + 1), y (j + 1))).sum =
      (-2 * radius ^ 2 * x i) - (-2 * radius ^ 2 * x (i + 1)) := by
    intro i hi
    have : ((List.range ny).map fun j => boxArea sin pi radius (x i, y j) (x (i + 1), y (j + 1))) =
        (List.range ny).map fun j => (fun j => -(x (i + 1) - x i) * radius ^ 2 * sin (y j)) j -
          (fun j => -(x (i + 1) - x i) * radius ^ 2 * sin (y j)) (j + 1) := by
      apply List.map_congr_left
      intro j _
      unfold boxArea
      simp only []
      rw [wrap_id (hx i hi)]
      ring
    rw [this, telescope]
    rw [hs, hn, Real.sin_neg, Real.sin_pi_div_two]
    ring
  unfold gridSum
  have : ((List.range nx).map fun i => ((List.range ny).map fun j =>
      boxArea sin pi radius (x i, y j) (x (i + 1), y (j + 1))).sum) =
      (List.range nx).map fun i => (fun i => -2 * radius ^ 2 * x i) i - (fun i => -2 * radius ^ 2 * x i) (i + 1) := by
    apply List.map_congr_left
    intro i hi
    exact col i (List.mem_range.1 hi)
  rw [this, telescope]
  rw [hturn]
  ring

/-- C48. A box wider than half a turn is taken for its complement: the area is negative. -/
theorem C48_wide_wrong (radius : ℝ) (hr : radius ≠ 0) :
    boxArea sin pi radius (0, 0) (3 / 2 * pi, pi / 2) = -(1 / 2 * pi * radius ^ 2) ∧
    boxArea sin pi radius (0, 0) (3 / 2 * pi, pi / 2) < 0 := by
  have hpi := Real.pi_pos
  have e : boxArea sin pi radius (0, 0) (3 / 2 * pi, pi / 2) = -(1 / 2 * pi * radius ^ 2) := by
    unfold boxArea wrap
    simp only [sub_zero]
    rw [if_pos (show 3 / 2 * pi > pi by linarith), if_neg (by linarith), Real.sin_zero, Real.sin_pi_div_two]
    ring
  refine ⟨e, ?_⟩
  rw [e]
  have : 0 < radius ^ 2 := by positivity
  have := mul_pos hpi this
  linarith

/-! ### Concrete case: one eighth of the sphere, cut in two along the meridian at pi/4. -/

example : Convex (boxPoly (0, 0) (1, 1)) := by
  intro e he r hr
  unfold boxPoly polyEdges at he
  simp only [List.getLast?_cons_cons, List.getLast?_singleton, pathEdges, List.mem_cons, List.not_mem_nil,
    or_false] at he
  unfold boxPoly at hr
  simp only [List.mem_cons, List.not_mem_nil, or_false] at hr
  rcases he with rfl | rfl | rfl | rfl <;> rcases hr with rfl | rfl | rfl | rfl <;> unfold orient <;> norm_num

example (radius : ℝ) : polyArea sin pi (1 / 10 ^ 10) radius (boxPoly (0, 0) (pi / 2, pi / 2)) =
    pi / 2 * radius ^ 2 := by
  have h3 := Real.pi_gt_three
  have := (C48_box (1 / 10 ^ 10) radius (by norm_num) (0, 0) (pi / 2, pi / 2) (by simp only []; linarith)
    (by simp only []; norm_num; linarith) (Or.inr (by simp only []; norm_num; linarith)) (by simp only []; linarith)
    (le_refl _)).1
  rw [this]
  simp

/-- The hypotheses of `C48_pieces` about the clipping, for two columns. -/
example : clip (boxPoly (0, 0) (1, 1)) (0, 0) (1 / 2, 1) = some (boxPoly (0, 0) (1 / 2, 1)) ∧
    clip (boxPoly (0, 0) (1, 1)) (1 / 2, 0) (1, 1) = some [(1 / 2, 0), (1, 0), (1, 1), (1 / 2, 1)] := by
  constructor <;>
    norm_num [clip, left, right, bottom, top, pass, go, fits, MV, crossX, crossY, boxPoly] <;>
    refine ⟨List.cons_ne_nil _ _, ?_⟩ <;>
    rw [if_neg (List.cons_ne_nil _ _), if_neg (List.cons_ne_nil _ _), if_neg (List.cons_ne_nil _ _)]

end Verif
