import Verif.Props.GreatCircleArea
/-
Property C133, continued: cells that are not convex, cells of a grid, the inside test.
-/
namespace Verif.GcArea
open Verif.Vec3 Verif.Bilinear Verif.Spec.GcArea InnerProductGeometry

noncomputable section

/-! ### Cells that are not convex -/

/-- The octant with a dent in one side. -/
def dented : List (V ℝ) := [![1, 0, 0], ![0, 1, 0], ![0, 0, 1], ![1, 1 / 4, 1]]

/-- C133: the comment in `clip_2dx2d_great_circle` says that a cell is convex exactly if its area is positive. The octant with a dent, whose last vertex lies inside the
triangle of the others, has a positive area: the program goes on with it. -/
theorem C133_convex_wrong : convexTest (1 / 10 ^ 30) 1 dented = true ∧ (∀ s, ¬ Turning s dented) ∧
    (∃ α β γ : ℝ, 0 < α ∧ 0 < β ∧ 0 < γ ∧ ∀ k, (![1, 1 / 4, 1] : V ℝ) k = α * (![1, 0, 0] : V ℝ) k + β * (![0, 1, 0] : V ℝ) k + γ * (![0, 0, 1] : V ℝ) k) := by
  refine ⟨?_, fun s h => ?_, 1, 1 / 4, 1, by norm_num, by norm_num, by norm_num, ?_⟩
  · have hone : ∀ t : ℝ, |t - 1| ≥ 1 / 10 ^ 30 → |t + 1| ≥ 1 / 10 ^ 30 → |t| ≤ 1 → angleOf (1 / 10 ^ 30) t = Real.arccos t := by
      intro t h1 h2 h3
      have h4 := abs_le.1 h3
      unfold angleOf
      simp only [if_neg (not_lt.2 h1), if_neg (not_lt.2 h2)]
      rw [if_neg (by push Not; exact ⟨h4.2, h4.1⟩)]
    have a1 : sphericalAngle (1 / 10 ^ 30) ![0, 1, 0] ![0, 0, 1] ![1, 0, 0] = Real.pi / 2 := by
      rw [sphericalAngle_eq]
      norm_num [dot3, cross, Matrix.cons_val_two]
      have := hone 0 (by norm_num) (by norm_num) (by norm_num)
      norm_num at this
      rw [this]
    have hs : √((17 : ℝ) / 16) * √((17 : ℝ) / 16) = 17 / 16 := Real.mul_self_sqrt (by norm_num)
    have hs1 : 1 < √((17 : ℝ) / 16) := by
      rw [Real.lt_sqrt (by norm_num)]; norm_num
    have hr : 0 < √((17 : ℝ) / 16) := by linarith
    have hc : (1 / 4) / √((17 : ℝ) / 16) ≤ 1 / 2 := by
      rw [div_le_iff₀ hr]; linarith
    have hc0 : 0 < (1 / 4) / √((17 : ℝ) / 16) := by positivity
    have hsmall : ∀ t : ℝ, 0 < t → t ≤ 1 / 2 → Real.pi / 3 ≤ angleOf (1 / 10 ^ 30) t := by
      intro t h1 h2
      rw [hone t (by rw [abs_of_neg (by linarith)]; norm_num; linarith) (by rw [abs_of_pos (by linarith)]; norm_num; linarith) (by rw [abs_of_pos h1]; linarith)]
      have : Real.arccos (1 / 2) = Real.pi / 3 := by
        rw [← Real.cos_pi_div_three, Real.arccos_cos (by positivity) (by linarith [Real.pi_pos])]
      rw [← this]
      exact Real.arccos_le_arccos h2
    have a2 : Real.pi / 3 ≤ sphericalAngle (1 / 10 ^ 30) ![0, 0, 1] ![1, 1 / 4, 1] ![0, 1, 0] := by
      rw [sphericalAngle_eq, if_neg (by norm_num [dot3, cross, Matrix.cons_val_two])]
      refine hsmall _ ?_ ?_
      · norm_num [dot3, cross, Matrix.cons_val_two]
      · have e : dot3 (cross ![0, 0, 1] ![1, 1 / 4, 1]) (cross ![0, 0, 1] ![0, 1, 0]) /
            √(dot3 (cross ![0, 0, 1] ![1, 1 / 4, 1]) (cross ![0, 0, 1] ![1, 1 / 4, 1]) * dot3 (cross ![0, 0, 1] ![0, 1, 0]) (cross ![0, 0, 1] ![0, 1, 0])) = (1 / 4) / √((17 : ℝ) / 16) := by
          norm_num [dot3, cross, Matrix.cons_val_two]
        rw [e]; exact hc
    have a3 : Real.pi / 3 ≤ sphericalAngle (1 / 10 ^ 30) ![1, 0, 0] ![0, 1, 0] ![1, 1 / 4, 1] := by
      rw [sphericalAngle_eq, if_neg (by norm_num [dot3, cross, Matrix.cons_val_two])]
      refine hsmall _ ?_ ?_
      · norm_num [dot3, cross, Matrix.cons_val_two]
      · have e : dot3 (cross ![1, 0, 0] ![0, 1, 0]) (cross ![1, 0, 0] ![1, 1 / 4, 1]) /
            √(dot3 (cross ![1, 0, 0] ![0, 1, 0]) (cross ![1, 0, 0] ![0, 1, 0]) * dot3 (cross ![1, 0, 0] ![1, 1 / 4, 1]) (cross ![1, 0, 0] ![1, 1 / 4, 1])) = (1 / 4) / √((17 : ℝ) / 16) := by
          norm_num [dot3, cross, Matrix.cons_val_two]
        rw [e]; exact hc
    have a4 : 5 * Real.pi / 6 < sphericalAngle (1 / 10 ^ 30) ![1, 1 / 4, 1] ![1, 0, 0] ![0, 0, 1] := by
      rw [sphericalAngle_eq, if_neg (by norm_num [dot3, cross, Matrix.cons_val_two])]
      have e : dot3 (cross ![1, 1 / 4, 1] ![1, 0, 0]) (cross ![1, 1 / 4, 1] ![0, 0, 1]) /
          √(dot3 (cross ![1, 1 / 4, 1] ![1, 0, 0]) (cross ![1, 1 / 4, 1] ![1, 0, 0]) * dot3 (cross ![1, 1 / 4, 1] ![0, 0, 1]) (cross ![1, 1 / 4, 1] ![0, 0, 1])) = -(16 / 17 : ℝ) := by
        have : √(((17 : ℝ) / 16) * (17 / 16)) = 17 / 16 := Real.sqrt_mul_self (by norm_num)
        norm_num [dot3, cross, Matrix.cons_val_two] at this ⊢
        rw [this]; norm_num
      rw [e, hone _ (by norm_num [abs_of_neg]) (by norm_num [abs_of_pos]) (by norm_num [abs_of_neg]), Real.arccos_neg]
      have h6 : Real.arccos (√3 / 2) = Real.pi / 6 := by
        rw [← Real.cos_pi_div_six, Real.arccos_cos (by positivity) (by linarith [Real.pi_pos])]
      have h3 : √3 / 2 < 16 / 17 := by
        have : √3 < 32 / 17 := by rw [Real.sqrt_lt' (by norm_num)]; norm_num
        linarith
      have := Real.arccos_lt_arccos (x := √3 / 2) (y := 16 / 17) (by have := Real.sqrt_nonneg 3; linarith) h3 (by norm_num)
      rw [h6] at this
      linarith
    unfold convexTest gridArea dented
    rw [if_pos (by simp)]
    simp only [decide_eq_true_eq]
    unfold area
    rw [angleSum_four, a1]
    simp only [List.length_cons, List.length_nil]
    push_cast
    have := Real.pi_pos
    linarith
  · have h1 := h ![1, 0, 0] ![0, 1, 0] ![0, 0, 1] (by simp [dented])
    have h2 := h ![1, 0, 0] ![0, 0, 1] ![1, 1 / 4, 1] (by simp [dented])
    norm_num [det, Matrix.cons_val_two] at h1 h2
    linarith
  · intro k
    fin_cases k <;> simp

/-! ### Cells of a grid -/

/-- C133: `spherical_excess_area` gives the area of the cell with these corners. -/
theorem C133_excess (eps30 R : ℝ) (ll ul lr ur : V ℝ) : excessArea eps30 R ll ul lr ur = area eps30 R [ll, lr, ur, ul] := by
  have hc : sphericalAngle eps30 ul ur ll = sphericalAngle eps30 ul ll ur := by
    rw [sphericalAngle_eq, sphericalAngle_eq]
    have : dot3 (cross ul ur) (cross ul ll) = dot3 (cross ul ll) (cross ul ur) := by simp [dot3]; ring
    rw [this, mul_comm (dot3 (cross ul ur) (cross ul ur))]
  unfold excessArea area
  rw [angleSum_four, hc]
  simp only [List.length_cons, List.length_nil]
  push_cast
  ring

/-- C133: the area of a cell of a grid is that of its four corners, or of the triangle left where the two northern corners (or the two southern ones) are one
point. -/
theorem C133_cell (eps10 eps30 R : ℝ) (nx : Nat) (xyz : Nat → V ℝ) (j i : Nat) (p q r t : V ℝ) (hp : xyz (j * (nx + 1) + i) = p) (hq : xyz ((j + 1) * (nx + 1) + i) = q)
    (hr : xyz ((j + 1) * (nx + 1) + i + 1) = r) (ht : xyz (j * (nx + 1) + i + 1) = t)
    (hpq : samePoint eps10 p q = false) (hpr : samePoint eps10 p r = false) (hqt : samePoint eps10 q t = false) (hrt : samePoint eps10 r t = false) :
    (samePoint eps10 q r = false → samePoint eps10 p t = false → cellArea eps10 eps30 R nx xyz j i = some (area eps30 R [p, q, r, t])) ∧
    (samePoint eps10 q r = true → samePoint eps10 p t = false → cellArea eps10 eps30 R nx xyz j i = some (area eps30 R [p, q, t])) ∧
    (samePoint eps10 q r = false → samePoint eps10 p t = true → cellArea eps10 eps30 R nx xyz j i = some (area eps30 R [p, q, r])) := by
  unfold cellArea
  rw [hp, hq, hr, ht]
  refine ⟨fun h1 h2 => ?_, fun h1 h2 => ?_, fun h1 h2 => ?_⟩ <;> simp [addEnd, gridArea, hpq, hpr, hqt, hrt, h1, h2]

/-! ### Inside -/

/-- Sum over the sides of a cell, with the first vertex at the end. -/
def around (g : V ℝ → V ℝ → ℝ) (first : V ℝ) : List (V ℝ) → ℝ
  | [] => 0
  | x :: l => g x (l.headD first) + around g first l

theorem angles_eq {eps10 : ℝ} (eps30 : ℝ) {p first : V ℝ} : ∀ {l : List (V ℝ)} (s : ℝ), (∀ a ∈ l, samePoint eps10 p a = false) →
    angles eps10 eps30 p first l s = some (s + around (fun x y => sphericalAngle eps30 p y x) first l)
  | [], s, _ => by simp [angles, around]
  | a :: l, s, h => by
    unfold angles
    rw [if_neg (by rw [h a (by simp)]; simp), angles_eq eps30 _ fun b hb => h b (List.mem_cons_of_mem _ hb)]
    simp only [around]
    rw [add_assoc]

theorem angles_vertex {eps10 eps30 : ℝ} {p first : V ℝ} : ∀ {l : List (V ℝ)} (s : ℝ), (∃ a ∈ l, samePoint eps10 p a = true) → angles eps10 eps30 p first l s = none
  | [], s, h => by simp at h
  | a :: l, s, h => by
    unfold angles
    by_cases ha : samePoint eps10 p a = true
    · rw [if_pos ha]
    · rw [if_neg ha]
      refine angles_vertex _ ?_
      obtain ⟨b, hb, hs⟩ := h
      rcases List.mem_cons.1 hb with rfl | hb
      · exact absurd hs ha
      · exact ⟨b, hb, hs⟩

/-- The middle direction is a combination of the outer ones. -/
theorem between {k u v : ℝ} (hk : 0 < k) (hu : 0 ≤ u) (hv : 0 ≤ v) {q x z : V ℝ} (hq : E q ≠ 0) (h : k • q = u • x + v • z) :
    angle (E x) (E z) = angle (E x) (E q) + angle (E q) (E z) := by
  refine angle_eq_angle_add_add_angle_add_of_mem_span hq ?_
  rw [Submodule.mem_span_pair]
  refine ⟨Real.toNNReal (u / k), Real.toNNReal (v / k), ?_⟩
  rw [NNReal.smul_def, NNReal.smul_def, Real.coe_toNNReal _ (div_nonneg hu hk.le), Real.coe_toNNReal _ (div_nonneg hv hk.le), ← E_smul, ← E_smul, ← E_add]
  congr 1
  have : q = k⁻¹ • (k • q) := by rw [smul_smul, inv_mul_cancel₀ hk.ne', one_smul]
  rw [this, h, smul_add, smul_smul, smul_smul, div_eq_inv_mul, div_eq_inv_mul]

/-- Once round: `y` has passed the line from `a` through `p`. -/
theorem full_turn {s : ℝ} {p a x y : V ℝ} (h1 : 0 < s * det p a x) (h2 : 0 < s * det p x y) (h3 : s * det p a y ≤ 0) :
    ang p a x + ang p x y + ang p y a = 2 * Real.pi := by
  have hy : E (-cross p y) ≠ 0 := by rw [E_neg]; exact neg_ne_zero.2 (cross_of_det (ne_of_turn h2)).2
  have hd := direction p a x y
  have : (s * det p a x) • (-cross p y) = (s * det p x y) • cross p a + (-(s * det p a y)) • cross p x := by
    have h := congrArg (fun v => s • v) hd
    simp only [smul_add, smul_smul] at h
    rw [smul_neg, neg_smul, h]
    abel
  have hb := between h1 h2.le (by linarith) hy this
  rw [E_neg, angle_neg_right, angle_neg_left] at hb
  unfold ang
  rw [angle_comm (E (cross p x)) (E (cross p y)), angle_comm (E (cross p y)) (E (cross p a)), hb]
  ring

theorem opposite {s : ℝ} {p a x y : V ℝ} (h1 : 0 < s * det p a x) (h2 : 0 < s * det p x y) (h3 : s * det p a y = 0) : ang p y a = Real.pi := by
  have hd := direction p a x y
  have hs : s ≠ 0 := by rintro rfl; simp at h1
  have h0 : det p a y = 0 := by rcases mul_eq_zero.1 h3 with h | h; exacts [absurd h hs, h]
  rw [h0, zero_smul] at hd
  have hy := (cross_of_det (ne_of_turn h2)).2
  unfold ang
  rw [angle_eq_pi_iff]
  refine ⟨hy, -(s * det p a x) / (s * det p x y), by rw [neg_div]; exact neg_neg_of_pos (div_pos h1 h2), ?_⟩
  have hx : det p x y ≠ 0 := ne_of_turn h2
  rw [neg_div, mul_div_mul_left _ _ hs, ← E_smul]
  congr 1
  have hd' : det p x y • cross p a = -(det p a x • cross p y) := eq_neg_of_add_eq_zero_left hd.symm
  have : cross p a = (det p x y)⁻¹ • (det p x y • cross p a) := by rw [smul_smul, inv_mul_cancel₀ hx, one_smul]
  rw [this, hd', smul_neg, smul_smul, neg_smul, div_eq_inv_mul]

theorem det_p (a b p : V ℝ) : det p a b = det a b p := by simp [det]; ring
theorem det_swap (a b p : V ℝ) : det p b a = -det p a b := by simp [det]; ring

/-- Behind the line no vertex comes back. -/
theorem stay {s : ℝ} {p a x y z : V ℝ} (h1 : 0 < s * det p a x) (h2 : s * det p a y ≤ 0) (hxy : 0 < s * det a x y) (hxz : 0 < s * det a x z)
    (hyz : 0 < s * det a y z) : s * det p a z < 0 := by
  by_contra h
  push Not at h
  have e : (s * det a y z) * (s * det p a x) = -(s * det p a z) * (s * det a x y) + (s * det p a y) * (s * det a x z) := by simp [det]; ring
  have t1 := mul_pos hyz h1
  have t2 := mul_nonneg h hxy.le
  have t3 := mul_nonneg (sub_nonneg.2 h2) hxz.le
  linarith

/-- From a vertex behind the line back to `a`. -/
theorem way_back {s : ℝ} {p a x : V ℝ} (hx : 0 < s * det p a x) : ∀ {l : List (V ℝ)} {y : V ℝ}, Turning s (a :: x :: y :: l) →
    (∀ u v, [u, v] <:+: y :: l ++ [a] → 0 < s * det u v p) → s * det p a y < 0 → around (ang p) a (y :: l) = ang p y a := by
  intro l
  induction l with
  | nil => intro y _ _ _; simp [around]
  | cons z l ih =>
    intro y ht hi hy
    have hyz : 0 < s * det p y z := by
      rw [det_p]; exact hi y z ⟨[], l ++ [a], by simp⟩
    have hz := stay hx hy.le (ht a x y (by simp)) (ht a x z (by simp)) (ht a y z (by simp))
    have hr := ih (y := z) (turning_sub ht (by simp)) (fun u v huv => hi u v (by
      obtain ⟨s', t', e⟩ := huv
      exact ⟨y :: s', t', by simp at e ⊢; exact e⟩)) hz
    have e : around (ang p) a (y :: z :: l) = ang p y z + around (ang p) a (z :: l) := rfl
    rw [e, hr]
    refine (ang_add (s := s) (a := y) (b := z) (c := a) ?_ ?_ hyz.le (cross_of_det (ne_of_turn hyz)).2).symm
    · rw [det_swap]; linarith
    · rw [det_swap]; linarith

/-- From a vertex before the line, once round. -/
theorem way_round {s : ℝ} {p a : V ℝ} : ∀ {l : List (V ℝ)} {x : V ℝ}, Turning s (a :: x :: l) →
    (∀ u v, [u, v] <:+: x :: l ++ [a] → 0 < s * det u v p) → 0 < s * det p a x → ang p a x + around (ang p) a (x :: l) = 2 * Real.pi := by
  intro l
  induction l with
  | nil =>
    intro x _ hi hx
    have := hi x a ⟨[], [], by simp⟩
    rw [← det_p, det_swap] at this
    linarith
  | cons y l ih =>
    intro x ht hi hx
    have hxy : 0 < s * det p x y := by
      rw [det_p]; exact hi x y ⟨[], l ++ [a], by simp⟩
    have hi' : ∀ u v, [u, v] <:+: y :: l ++ [a] → 0 < s * det u v p := fun u v huv => hi u v (by
      obtain ⟨s', t', e⟩ := huv
      exact ⟨x :: s', t', by simp at e ⊢; exact e⟩)
    have e : around (ang p) a (x :: y :: l) = ang p x y + around (ang p) a (y :: l) := rfl
    rw [e]
    by_cases hy : 0 < s * det p a y
    · have hr := ih (x := y) (turning_sub ht (by simp)) hi' hy
      rw [ang_add (s := s) hy hxy.le hx.le (cross_of_det (ne_of_turn hxy)).1] at hr
      linarith
    · push Not at hy
      have hf := full_turn hx hxy hy
      have hb : around (ang p) a (y :: l) = ang p y a := by
        rcases lt_or_eq_of_le hy with hlt | heq
        · exact way_back hx ht hi' hlt
        · cases l with
          | nil => simp [around]
          | cons z l =>
            have hyz : 0 < s * det p y z := by
              rw [det_p]; exact hi' y z ⟨[], l ++ [a], by simp⟩
            have hz := stay hx hy (ht a x y (by simp)) (ht a x z (by simp)) (ht a y z (by simp))
            have hr := way_back (l := l) (y := z) hx (turning_sub ht (by simp)) (fun u v huv => hi' u v (by
              obtain ⟨s', t', e⟩ := huv
              exact ⟨y :: s', t', by simp at e ⊢; exact e⟩)) hz
            have e : around (ang p) a (y :: z :: l) = ang p y z + around (ang p) a (z :: l) := rfl
            have hpi := opposite hx hxy heq
            have := angle_add_angle_eq_pi_of_angle_eq_pi (E (cross p z)) hpi
            rw [e, hr, hpi]
            unfold ang
            rw [← this]
            rw [angle_comm (E (cross p a)) (E (cross p z))]
      rw [hb]
      linarith

theorem around_congr {g h : V ℝ → V ℝ → ℝ} {a : V ℝ} : ∀ {l : List (V ℝ)}, (∀ u v, [u, v] <:+: l ++ [a] → g u v = h u v) → around g a l = around h a l
  | [], _ => rfl
  | [x], H => by simp [around, H x a ⟨[], [], by simp⟩]
  | x :: y :: l, H => by
    have := around_congr (l := y :: l) fun u v huv => H u v (by
      obtain ⟨s', t', e⟩ := huv
      exact ⟨x :: s', t', by simp at e ⊢; exact e⟩)
    have e1 : ∀ g, around g a (x :: y :: l) = g x y + around g a (y :: l) := fun _ => rfl
    rw [e1, e1, this, H x y ⟨[], l ++ [a], by simp⟩]

theorem around_bound {g h : V ℝ → V ℝ → ℝ} {e : ℝ} (hb : ∀ x y, |g x y - h x y| ≤ e) (a : V ℝ) : ∀ l : List (V ℝ), |around g a l - around h a l| ≤ l.length * e
  | [] => by simp [around]
  | x :: l => by
    have h1 := abs_le.1 (around_bound hb a l)
    have h2 := abs_le.1 (hb x (l.headD a))
    simp only [around, List.length_cons]
    push_cast
    rw [abs_le]
    constructor <;> nlinarith

/-- The angles at a point inside add up to a full turn. -/
theorem inside_sum {s : ℝ} {p a b : V ℝ} {l : List (V ℝ)} (ht : Turning s (a :: b :: l)) (hi : Inside s (a :: b :: l) p) :
    around (fun x y => sphericalAngle 0 p y x) a (a :: b :: l) = 2 * Real.pi := by
  have hc : ∀ u v, [u, v] <:+: a :: b :: l ++ [a] → 0 < s * det p u v := fun u v h => by rw [det_p]; exact hi u v (by simpa using h)
  have e : around (fun x y => sphericalAngle 0 p y x) a (a :: b :: l) = around (ang p) a (a :: b :: l) := by
    refine around_congr fun u v h => ?_
    have := cross_of_det (ne_of_turn (hc u v h))
    rw [exact_angle this.2 this.1, ang_comm]
  rw [e]
  have hr := way_round (s := s) (p := p) (a := a) ht (fun u v h => by
    rw [← det_p]
    refine hc u v ?_
    obtain ⟨s', t', e⟩ := h
    exact ⟨a :: s', t', by simp at e ⊢; exact e⟩) (hc a b ⟨[], l ++ [a], by simp⟩)
  exact hr

theorem inside_of {eps8 eps10 eps30 : ℝ} {p a b : V ℝ} {l : List (V ℝ)} :
    inside eps8 eps10 eps30 p (a :: b :: l) = match angles eps10 eps30 p a (a :: b :: l) 0 with
      | none => some true
      | some s => some (decide (|s - 2 * Real.pi| < eps8)) := rfl

/-- C133: a point on the inner side of all sides of a convex cell is found inside, in whichever sense the vertices go round, as long as the tolerance of the
test is above the one of the angles. -/
theorem C133_inside {s eps8 eps10 eps30 : ℝ} (h0 : 0 ≤ eps30) (h1 : eps30 ≤ 1) {l : List (V ℝ)} (hl : 3 ≤ l.length) (ht : Turning s l)
    (he : l.length * Real.arccos (1 - eps30) < eps8) {p : V ℝ} (hi : Inside s l p) : inside eps8 eps10 eps30 p l = some true := by
  match l, hl, ht, he, hi with
  | a :: b :: l, _, ht, he, hi =>
    rw [inside_of]
    by_cases hv : ∃ c ∈ a :: b :: l, samePoint eps10 p c = true
    · rw [angles_vertex _ hv]
    · push Not at hv
      rw [angles_eq _ _ fun c hc => by simpa using hv c hc]
      simp only [zero_add, Option.some.injEq, decide_eq_true_eq]
      rw [← inside_sum ht hi]
      exact lt_of_le_of_lt (around_bound (fun x y => angle_tolerance h0 h1 p y x) a _) he

/-- A square and its centre. -/
def insideEx : List (V ℝ) := [![1, 0, 1], ![0, 1, 1], ![-1, 0, 1], ![0, -1, 1]]

theorem sub3 {a b c x y z w : V ℝ} (h : List.Sublist [a, b, c] [x, y, z, w]) :
    (a = x ∧ b = y ∧ c = z) ∨ (a = x ∧ b = y ∧ c = w) ∨ (a = x ∧ b = z ∧ c = w) ∨ (a = y ∧ b = z ∧ c = w) := by
  rcases List.sublist_cons_iff.1 h with h | ⟨r, hr, h⟩
  · have := List.Sublist.eq_of_length h (by simp)
    simp only [List.cons.injEq, and_true] at this
    tauto
  · simp only [List.cons.injEq] at hr
    obtain ⟨rfl, rfl⟩ := hr
    rcases List.sublist_cons_iff.1 h with h | ⟨r, hr, h⟩
    · have := List.Sublist.eq_of_length h (by simp)
      simp only [List.cons.injEq, and_true] at this
      tauto
    · simp only [List.cons.injEq] at hr
      obtain ⟨rfl, rfl⟩ := hr
      rcases List.sublist_cons_iff.1 h with h | ⟨r, hr, h⟩
      · simp at h; tauto
      · simp only [List.cons.injEq] at hr
        tauto

theorem insideEx_turning : Turning 1 insideEx := by
  intro a b c h
  rcases sub3 h with ⟨rfl, rfl, rfl⟩ | ⟨rfl, rfl, rfl⟩ | ⟨rfl, rfl, rfl⟩ | ⟨rfl, rfl, rfl⟩ <;> norm_num [det, Matrix.cons_val_two]

theorem pairs5 {a b x y z w v : V ℝ} (h : [a, b] <:+: [x, y, z, w, v]) : (a = x ∧ b = y) ∨ (a = y ∧ b = z) ∨ (a = z ∧ b = w) ∨ (a = w ∧ b = v) := by
  obtain ⟨s, t, e⟩ := h
  match s with
  | [] => simp at e; tauto
  | [_] => simp at e; tauto
  | [_, _] => simp at e; tauto
  | [_, _, _] => simp at e; tauto
  | _ :: _ :: _ :: _ :: s =>
    have := congrArg List.length e
    simp at this
    omega

theorem insideEx_inside : Inside 1 insideEx ![0, 0, 1] := by
  intro a b h
  rcases pairs5 (x := ![1, 0, 1]) (y := ![0, 1, 1]) (z := ![-1, 0, 1]) (w := ![0, -1, 1]) (v := ![1, 0, 1]) h with ⟨rfl, rfl⟩ | ⟨rfl, rfl⟩ | ⟨rfl, rfl⟩ | ⟨rfl, rfl⟩ <;>
    norm_num [det, Matrix.cons_val_two]

example (eps10 : ℝ) : inside (1 / 10 ^ 8) eps10 0 ![0, 0, 1] insideEx = some true :=
  C133_inside (le_refl 0) zero_le_one (by simp [insideEx]) insideEx_turning (by simp) insideEx_inside

example : 0 < area 0 1 insideEx := C133_positive (by simp [insideEx]) insideEx_turning one_ne_zero

theorem antipode_angle (eps30 : ℝ) (p a b : V ℝ) : sphericalAngle eps30 (-p) a b = sphericalAngle eps30 p a b := by
  have h : ∀ a b, dot3 (cross (-p) a) (cross (-p) b) = dot3 (cross p a) (cross p b) := by
    intro a b; simp [dot3, cross]; ring
  simp only [sphericalAngle_eq, h]

/-- C133: the test cannot tell a point from the one on the other side of the sphere: where a point is inside, so is its antipode, although that is on the
outer side of every side. The callers compare bounding boxes first. -/
theorem C133_antipode_wrong {s eps8 eps10 eps30 : ℝ} (h0 : 0 ≤ eps30) (h1 : eps30 ≤ 1) {l : List (V ℝ)} (hl : 3 ≤ l.length) (ht : Turning s l)
    (he : l.length * Real.arccos (1 - eps30) < eps8) {p : V ℝ} (hi : Inside s l p) :
    inside eps8 eps10 eps30 (-p) l = some true ∧ ∀ a b, [a, b] <:+: l ++ l.take 1 → s * det a b (-p) < 0 := by
  refine ⟨?_, fun a b h => ?_⟩
  · match l, hl, ht, he, hi with
    | a :: b :: l, _, ht, he, hi =>
      rw [inside_of]
      by_cases hv : ∃ c ∈ a :: b :: l, samePoint eps10 (-p) c = true
      · rw [angles_vertex _ hv]
      · push Not at hv
        rw [angles_eq _ _ fun c hc => by simpa using hv c hc]
        simp only [zero_add, Option.some.injEq, decide_eq_true_eq, antipode_angle]
        rw [← inside_sum ht hi]
        exact lt_of_le_of_lt (around_bound (fun x y => angle_tolerance h0 h1 p y x) a _) he
  · have := hi a b h
    have e : det a b (-p) = -det a b p := by simp [det]; ring
    rw [e]
    linarith

/-- C133: for triangles the sum of the angles is a full turn exactly if the point or its antipode lies in the triangle or on a side. -/
theorem C133_triangle_sum {p a b c : V ℝ} (h : det a b c ≠ 0) (ha : cross p a ≠ 0) (hb : cross p b ≠ 0) (hc : cross p c ≠ 0) :
    around (fun x y => sphericalAngle 0 p y x) a [a, b, c] = 2 * Real.pi ↔
      ∃ k u v w : ℝ, k ≠ 0 ∧ 0 ≤ u ∧ 0 ≤ v ∧ 0 ≤ w ∧ k • p = u • a + v • b + w • c := by
  have ha' : E (cross p a) ≠ 0 := fun h => ha (E_inj h)
  have hb' : E (cross p b) ≠ 0 := fun h => hb (E_inj h)
  have hc' : E (cross p c) ≠ 0 := fun h => hc (E_inj h)
  have hn : E (-cross p c) ≠ 0 := by rw [E_neg]; exact neg_ne_zero.2 hc'
  have e : around (fun x y => sphericalAngle 0 p y x) a [a, b, c] = angle (E (cross p a)) (E (cross p b)) + (2 * Real.pi -
      (angle (E (cross p a)) (E (-cross p c)) + angle (E (-cross p c)) (E (cross p b)))) := by
    simp only [around, List.headD_cons, List.headD_nil]
    rw [exact_angle hb' ha', exact_angle hc' hb', exact_angle ha' hc', E_neg, angle_neg_right, angle_neg_left]
    unfold ang
    rw [angle_comm (E (cross p b)) (E (cross p a))]
    ring
  have hlin : ∀ k u v w : ℝ, k • p = u • a + v • b + w • c → u • cross p a + v • cross p b + w • cross p c = 0 := by
    intro k u v w hk
    have h0 : ∀ i, k * p i = u * a i + v * b i + w * c i := fun i => by
      have := congrFun hk i; simpa using this
    funext i
    fin_cases i <;> simp [cross]
    · linear_combination p 2 * h0 1 - p 1 * h0 2
    · linear_combination p 0 * h0 2 - p 2 * h0 0
    · linear_combination p 1 * h0 0 - p 0 * h0 1
  have hpar : ∀ u v w : ℝ, u • cross p a + v • cross p b + w • cross p c = 0 → (u ≠ 0 ∨ v ≠ 0 ∨ w ≠ 0) → ∃ k : ℝ, k ≠ 0 ∧ k • p = u • a + v • b + w • c := by
    intro u v w h0 hne
    have hx : ∀ q : V ℝ, cross p q = 0 → ∃ k : ℝ, k • p = q := by
      intro q hq
      have hp : dot3 p p ≠ 0 := by
        intro h'
        rw [← inner_E, inner_self_eq_zero] at h'
        have hp0 : p = 0 := E_inj h'
        exact ha (by rw [hp0]; funext i; fin_cases i <;> simp [cross])
      refine ⟨dot3 p q / dot3 p p, ?_⟩
      have q0 := congrFun hq 0
      have q1 := congrFun hq 1
      have q2 := congrFun hq 2
      simp [cross] at q0 q1 q2
      funext i
      simp only [Pi.smul_apply, smul_eq_mul]
      rw [div_mul_eq_mul_div, div_eq_iff hp]
      fin_cases i <;> simp [dot3]
      · linear_combination p 1 * q2 - p 2 * q1
      · linear_combination p 2 * q0 - p 0 * q2
      · linear_combination p 0 * q1 - p 1 * q0
    obtain ⟨k, hk⟩ := hx (u • a + v • b + w • c) (by
      rw [← h0]; funext i; fin_cases i <;> simp [cross] <;> ring)
    refine ⟨k, fun hk0 => ?_, hk⟩
    rw [hk0, zero_smul] at hk
    have h0 : ∀ i, 0 = u * a i + v * b i + w * c i := fun i => by
      have := congrFun hk i; simpa using this
    have e1 : u * det a b c = 0 := by
      simp only [det]
      linear_combination (-(b 1 * c 2 - b 2 * c 1)) * h0 0 - (b 2 * c 0 - b 0 * c 2) * h0 1 - (b 0 * c 1 - b 1 * c 0) * h0 2
    have e2 : v * det a b c = 0 := by
      simp only [det]
      linear_combination (-(c 1 * a 2 - c 2 * a 1)) * h0 0 - (c 2 * a 0 - c 0 * a 2) * h0 1 - (c 0 * a 1 - c 1 * a 0) * h0 2
    have e3 : w * det a b c = 0 := by
      simp only [det]
      linear_combination (-(a 1 * b 2 - a 2 * b 1)) * h0 0 - (a 2 * b 0 - a 0 * b 2) * h0 1 - (a 0 * b 1 - a 1 * b 0) * h0 2
    rcases hne with h' | h' | h'
    · exact absurd (mul_eq_zero.1 e1) (by push Not; exact ⟨h', h⟩)
    · exact absurd (mul_eq_zero.1 e2) (by push Not; exact ⟨h', h⟩)
    · exact absurd (mul_eq_zero.1 e3) (by push Not; exact ⟨h', h⟩)
  rw [e]
  constructor
  · intro hs
    have h1 : angle (E (cross p a)) (E (cross p b)) = angle (E (cross p a)) (E (-cross p c)) + angle (E (-cross p c)) (E (cross p b)) := by linarith
    rcases (angle_eq_angle_add_angle_iff hn).1 h1 with hp | hm
    · obtain ⟨_, r, hr0, hr⟩ := angle_eq_pi_iff.1 hp
      have hr' : cross p b = r • cross p a := E_inj hr
      obtain ⟨k, hk, hk'⟩ := hpar (-r) 1 0 (by rw [hr']; simp) (Or.inr (Or.inl one_ne_zero))
      exact ⟨k, -r, 1, 0, hk, by linarith, zero_le_one, le_refl _, hk'⟩
    · rw [Submodule.mem_span_pair] at hm
      obtain ⟨u, v, hm⟩ := hm
      have hm' : (u : ℝ) • cross p a + (v : ℝ) • cross p b = -cross p c := E_inj (u := (u : ℝ) • cross p a + (v : ℝ) • cross p b) hm
      obtain ⟨k, hk, hk'⟩ := hpar u v 1 (by rw [hm']; simp) (Or.inr (Or.inr one_ne_zero))
      exact ⟨k, u, v, 1, hk, u.2, v.2, zero_le_one, hk'⟩
  · rintro ⟨k, u, v, w, hk, hu, hv, hw, hp⟩
    have h0 := hlin k u v w hp
    have h1 : angle (E (cross p a)) (E (cross p b)) = angle (E (cross p a)) (E (-cross p c)) + angle (E (-cross p c)) (E (cross p b)) := by
      rcases lt_or_eq_of_le hw with hw' | hw'
      · refine between hw' hu hv hn ?_
        rw [smul_neg]
        exact (eq_neg_of_add_eq_zero_left h0).symm
      · rw [← hw', zero_smul, add_zero] at h0
        have hv' : v ≠ 0 := by
          rintro rfl
          rw [zero_smul, add_zero] at h0
          rcases smul_eq_zero.1 h0 with hu' | hu'
          · have : k • p = 0 := by rw [hp, hu', ← hw']; simp
            rcases smul_eq_zero.1 this with h' | h'
            · exact hk h'
            · exact ha (by rw [h']; funext i; fin_cases i <;> simp [cross])
          · exact ha hu'
        have hu' : u ≠ 0 := by
          rintro rfl
          rw [zero_smul, zero_add] at h0
          rcases smul_eq_zero.1 h0 with h' | h'
          · exact hv' h'
          · exact hb h'
        have hpi : angle (E (cross p a)) (E (cross p b)) = Real.pi := by
          rw [angle_eq_pi_iff]
          refine ⟨ha', -(u / v), neg_neg_of_pos (div_pos (lt_of_le_of_ne hu (Ne.symm hu')) (lt_of_le_of_ne hv (Ne.symm hv'))), ?_⟩
          rw [← E_smul]
          congr 1
          have : v • cross p b = -(u • cross p a) := eq_neg_of_add_eq_zero_right h0
          have e : cross p b = v⁻¹ • (v • cross p b) := by rw [smul_smul, inv_mul_cancel₀ hv', one_smul]
          rw [e, this, smul_neg, smul_smul, neg_smul, div_eq_inv_mul]
        rw [hpi]
        have := angle_add_angle_eq_pi_of_angle_eq_pi (E (-cross p c)) hpi
        rw [angle_comm (E (-cross p c)) (E (cross p b))]
        exact this.symm
    linarith

end

end Verif.GcArea
