import Verif.Lemmas.GreatCircleSum
import Mathlib.Analysis.SpecialFunctions.Trigonometric.Bounds
/-
Property C133: areas of great circle cells, the test for convex cells, and the inside test.
-/
namespace Verif.GcArea
open Verif.Vec3 Verif.Bilinear Verif.Spec.GcArea InnerProductGeometry

noncomputable section

/-! ### Angles -/

/-- C133: the angle of the program, without the tolerance, is the angle between the great circles, where these are determined. -/
theorem C133_angle {p a b : V ℝ} (ha : cross p a ≠ 0) (hb : cross p b ≠ 0) :
    sphericalAngle 0 p a b = angle (WithLp.toLp 2 (cross p a)) (WithLp.toLp 2 (cross p b)) :=
  exact_angle (fun h => ha (E_inj h)) (fun h => hb (E_inj h))

example : cross ![(1 : ℝ), 0, 0] ![0, 1, 0] ≠ 0 := by
  intro h
  have := congrFun h 2
  simp [cross] at this

theorem sum_bound (g h : Nat → ℝ) (e : ℝ) (hb : ∀ i, |g i - h i| ≤ e) : ∀ l : List Nat, |(l.map g).sum - (l.map h).sum| ≤ l.length * e
  | [] => by simp
  | i :: l => by
    have h1 := abs_le.1 (sum_bound g h e hb l)
    have h2 := abs_le.1 (hb i)
    simp only [List.map_cons, List.sum_cons, List.length_cons]
    push_cast
    rw [abs_le]
    constructor <;> nlinarith

/-- C133: the tolerance changes an angle by less than the angle of cosine `1 - eps30`, and the area of a cell accordingly. -/
theorem C133_tolerance {eps30 : ℝ} (h0 : 0 ≤ eps30) (h1 : eps30 ≤ 1) (R : ℝ) (l : List (V ℝ)) :
    (∀ p a b, |sphericalAngle eps30 p a b - sphericalAngle 0 p a b| ≤ Real.arccos (1 - eps30)) ∧
      |area eps30 R l - area 0 R l| ≤ l.length * Real.arccos (1 - eps30) * R ^ 2 := by
  refine ⟨angle_tolerance h0 h1, ?_⟩
  have hs : |angleSum eps30 l - angleSum 0 l| ≤ l.length * Real.arccos (1 - eps30) := by
    unfold angleSum
    rw [foldl_sum, foldl_sum, zero_add, zero_add]
    have := sum_bound (fun i => sphericalAngle eps30 (vtx l ((i + 1) % l.length)) (vtx l ((i + 2) % l.length)) (vtx l i))
      (fun i => sphericalAngle 0 (vtx l ((i + 1) % l.length)) (vtx l ((i + 2) % l.length)) (vtx l i)) _ (fun i => angle_tolerance h0 h1 _ _ _) (List.range l.length)
    rwa [List.length_range] at this
  have e : area eps30 R l - area 0 R l = (angleSum eps30 l - angleSum 0 l) * R ^ 2 := by unfold area; ring
  rw [e, abs_mul, abs_of_nonneg (sq_nonneg R)]
  exact mul_le_mul_of_nonneg_right hs (sq_nonneg R)

theorem binet (p a b : V ℝ) : dot3 (cross p a) (cross p b) = dot3 p p * dot3 a b - dot3 p b * dot3 a p := by
  simp [dot3, cross]; ring

/-- C133: areas do not change when the sphere is turned (or reflected). -/
theorem C133_rotate (eps30 R : ℝ) (f : V ℝ → V ℝ) (h0 : f 0 = 0)
    (hf : ∀ u v : V ℝ, f u 0 * f v 0 + f u 1 * f v 1 + f u 2 * f v 2 = u 0 * v 0 + u 1 * v 1 + u 2 * v 2) (l : List (V ℝ)) :
    area eps30 R (l.map f) = area eps30 R l := by
  have hd : ∀ u v, dot3 (f u) (f v) = dot3 u v := hf
  have ha : ∀ p a b, sphericalAngle eps30 (f p) (f a) (f b) = sphericalAngle eps30 p a b := by
    intro p a b
    simp only [sphericalAngle_eq, binet, hd]
  have hv : ∀ i, vtx (l.map f) i = f (vtx l i) := by
    intro i
    unfold vtx
    rw [List.getD_eq_getElem?_getD, List.getD_eq_getElem?_getD, List.getElem?_map]
    cases l[i]? with
    | none => simp [h0]
    | some x => rfl
  unfold area angleSum
  simp only [List.length_map, hv, ha]

/-! ### Triangles -/

/-- C133: a triangle that is no line has a positive area; the order of the vertices does not matter. -/
theorem C133_triangle {a b c : V ℝ} (h : det a b c ≠ 0) {R : ℝ} (hR : R ≠ 0) : 0 < area 0 R [a, b, c] := by
  have c1 := cross_of_det (p := a) (a := b) (c := c) h
  have c2 := cross_of_det (p := b) (a := c) (c := a) (by rw [det_rot a b c]; exact h)
  have c3 := cross_of_det (p := c) (a := a) (c := b) (by rw [det_rot b c a, det_rot a b c]; exact h)
  have ht := triangle_gt h
  unfold area
  rw [angleSum_three, exact_angle c2.1 c2.2, exact_angle c3.1 c3.2, exact_angle c1.1 c1.2]
  have e : (([a, b, c] : List (V ℝ)).length : ℝ) - 2 = 1 := by simp; norm_num
  rw [e, mul_assoc]
  exact mul_pos (by linarith) (mul_self_pos.2 hR)

/-- The octant has an eighth of the area of the sphere, `4 π R²`. -/
example (R : ℝ) : area 0 R [![1, 0, 0], ![0, 1, 0], ![0, 0, 1]] = 4 * Real.pi * R ^ 2 / 8 := by
  unfold area
  rw [angleSum_three]
  simp only [sphericalAngle_eq]
  norm_num [dot3, cross, angleOf_zero, Real.arccos_zero, Matrix.cons_val_two]
  ring

/-! ### Cutting -/

theorem turn {s : ℝ} {a b c : V ℝ} (h : 0 < s * det a b c) : 0 < s * det b c a ∧ 0 < s * det c a b := by
  rw [det_rot b c a, det_rot a b c]
  exact ⟨h, h⟩

theorem ne_of_turn {s : ℝ} {a b c : V ℝ} (h : 0 < s * det a b c) : det a b c ≠ 0 := by
  intro h0
  rw [h0] at h
  simp at h

/-- At a vertex `p` of a convex cell: a diagonal to `b` divides the angle. -/
theorem split_angle {s : ℝ} {p a b c : V ℝ} (h1 : 0 < s * det p a c) (h2 : 0 < s * det p b c) (h3 : 0 < s * det p a b) :
    sphericalAngle 0 p a c = sphericalAngle 0 p a b + sphericalAngle 0 p b c := by
  have c1 := cross_of_det (ne_of_turn h1)
  have c2 := cross_of_det (ne_of_turn h2)
  rw [exact_angle c1.1 c1.2, exact_angle c1.1 c2.1, exact_angle c2.1 c2.2]
  exact ang_add h1 h2.le h3.le c2.1

theorem cut_sum {s : ℝ} {a b m0 t0 : V ℝ} {m t : List (V ℝ)} (h : Turning s (a :: m0 :: m ++ b :: t0 :: t)) :
    angleSum 0 (a :: m0 :: m ++ b :: t0 :: t) = angleSum 0 (a :: m0 :: m ++ [b]) + angleSum 0 (a :: b :: t0 :: t) := by
  obtain ⟨M, ml, hM⟩ : ∃ M ml, m0 :: m = M ++ [ml] := ⟨_, _, (List.dropLast_append_getLast (List.cons_ne_nil m0 m)).symm⟩
  obtain ⟨T, tl, hT⟩ : ∃ T tl, t0 :: t = T ++ [tl] := ⟨_, _, (List.dropLast_append_getLast (List.cons_ne_nil t0 t)).symm⟩
  have hml : ml ∈ m0 :: m := by rw [hM]; simp
  have htl : tl ∈ t0 :: t := by rw [hT]; simp
  have hm0 : m0 ∈ m0 :: m := by simp
  have key : ∀ x ∈ m0 :: m, 0 < s * det a x b := fun x hx => h a x b
    ((List.Sublist.append (l₁ := [a, x]) (r₁ := [b]) (List.Sublist.cons_cons a (List.singleton_sublist.2 hx)) (by simp)))
  have key2 : ∀ y ∈ t0 :: t, 0 < s * det a b y := fun y hy => h a b y
    ((List.Sublist.append (l₁ := [a]) (r₁ := [b, y]) (by simp) (List.Sublist.cons_cons b (List.singleton_sublist.2 hy))))
  have key3 : ∀ x ∈ m0 :: m, ∀ y ∈ t0 :: t, 0 < s * det a x y := fun x hx y hy => h a x y
    ((List.Sublist.append (l₁ := [a, x]) (r₁ := [y]) (List.Sublist.cons_cons a (List.singleton_sublist.2 hx)) (List.singleton_sublist.2 (List.mem_cons_of_mem _ hy))))
  have key4 : ∀ x ∈ m0 :: m, ∀ y ∈ t0 :: t, 0 < s * det x b y := fun x hx y hy => h x b y
    ((List.Sublist.append (l₁ := [x]) (r₁ := [b, y]) (List.singleton_sublist.2 (List.mem_cons_of_mem _ hx)) (List.Sublist.cons_cons b (List.singleton_sublist.2 hy))))
  refine angleSum_cut 0 a b m0 t0 ml tl m t (a :: M) (b :: T) (by rw [hM]; rfl) (by rw [hT]; rfl) ?_ ?_
  · exact split_angle (turn (key4 ml hml t0 (by simp))).1 (turn (turn (key ml hml)).1).1 (turn (key2 t0 (by simp))).1
  · exact split_angle (key3 m0 hm0 tl htl) (key2 tl htl) (key m0 hm0)

/-- C133: areas add up: a convex cell that is cut along a diagonal has the areas of its two parts. -/
theorem C133_split {s : ℝ} {a b : V ℝ} {m t : List (V ℝ)} (hm : m ≠ []) (ht : t ≠ []) (h : Turning s (a :: m ++ b :: t)) (R : ℝ) :
    area 0 R (a :: m ++ b :: t) = area 0 R (a :: m ++ [b]) + area 0 R (a :: b :: t) := by
  cases m with
  | nil => exact absurd rfl hm
  | cons m0 m =>
    cases t with
    | nil => exact absurd rfl ht
    | cons t0 t =>
      unfold area
      rw [cut_sum h]
      simp only [List.length_append, List.length_cons, List.length_nil]
      push_cast
      ring

theorem turning_sub {s : ℝ} {l l' : List (V ℝ)} (h : Turning s l) (hs : l'.Sublist l) : Turning s l' := fun a b c hl => h a b c (hl.trans hs)

/-- C133: the area of a convex cell is the sum of the areas of the triangles cut off by the diagonals from its first vertex. -/
theorem C133_fan {s : ℝ} (R : ℝ) {a b : V ℝ} : ∀ {l : List (V ℝ)}, l ≠ [] → Turning s (a :: b :: l) →
    area 0 R (a :: b :: l) = fan (fun x y z => area 0 R [x, y, z]) a (b :: l) := by
  intro l
  induction l generalizing b with
  | nil => intro h; exact absurd rfl h
  | cons c l ih =>
    intro _ h
    cases l with
    | nil => simp [fan]
    | cons d l =>
      have hs := C133_split (m := [b]) (b := c) (t := d :: l) (by simp) (by simp) h R
      have h' : Turning s (a :: c :: d :: l) := turning_sub h (by simp)
      have := ih (b := c) (by simp) h'
      simp only [List.cons_append, List.nil_append] at hs
      rw [hs, this]
      rfl

theorem fan_pos {g : V ℝ → V ℝ → V ℝ → ℝ} {a : V ℝ} : ∀ {l : List (V ℝ)} {b c : V ℝ}, (∀ x y, [x, y].Sublist (b :: c :: l) → 0 < g a x y) → 0 < fan g a (b :: c :: l) := by
  intro l
  induction l with
  | nil =>
    intro b c h
    simpa [fan] using h b c (by simp)
  | cons d l ih =>
    intro b c h
    have h1 := h b c (by simp)
    have h2 := ih (b := c) (c := d) fun x y hs => h x y (hs.trans (by simp))
    simp only [fan] at h2 ⊢
    linarith

/-- C133: a convex cell has a positive area, in whichever sense its vertices go round. -/
theorem C133_positive {s : ℝ} {l : List (V ℝ)} (hl : 3 ≤ l.length) (h : Turning s l) {R : ℝ} (hR : R ≠ 0) : 0 < area 0 R l := by
  match l, hl, h with
  | a :: b :: c :: l, _, h =>
    rw [C133_fan R (by simp) h]
    refine fan_pos fun x y hs => C133_triangle (ne_of_turn (h a x y (List.Sublist.cons_cons a hs))) hR

/-- C133: so the test of `clip_2dx2d_great_circle` lets convex cells pass whose area is above the effect of the tolerance. What is missing: that it stops the
program for all other cells, see `C133_convex_wrong`. -/
theorem C133_convex_partial {s eps30 R : ℝ} (h0 : 0 ≤ eps30) (h1 : eps30 ≤ 1) {l : List (V ℝ)} (hl : 3 ≤ l.length) (hl' : l.length ≤ 20) (h : Turning s l) :
    0 < R → (l.length * Real.arccos (1 - eps30) * R ^ 2 < area 0 R l → convexTest eps30 R l = true) ∧ (eps30 = 0 → convexTest eps30 R l = true) := by
  intro hR
  have ht := abs_le.1 (C133_tolerance h0 h1 R l).2
  unfold convexTest gridArea
  rw [if_pos hl']
  refine ⟨fun ha => ?_, fun he => ?_⟩
  · simp only [decide_eq_true_eq]
    linarith
  · subst he
    simp only [decide_eq_true_eq]
    exact C133_positive hl h hR.ne'

/-- C133: a cell with more vertices than the arrays hold does not pass. -/
theorem C133_convex_many (eps30 R : ℝ) (l : List (V ℝ)) (h : 20 < l.length) : convexTest eps30 R l = false := by
  unfold convexTest gridArea
  rw [if_neg (by omega)]

end

end Verif.GcArea
