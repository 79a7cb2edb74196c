import Verif.Spec.ConformalGridArea
import Verif.Lemmas.ConformalGrid
import Mathlib.Algebra.BigOperators.Intervals
/-
Lemmas for the lengths and areas of the conformal cubic grid.
-/
noncomputable section
namespace Verif.ConformalGrid
open Real Spec.ConformalGrid

theorem angle_arc (p q : Point) : angle p q = arc p q := by
  unfold angle arc InnerProductGeometry.angle vec
  congr 1
  rw [Real.sqrt_mul (by positivity)]
  simp [EuclideanSpace.norm_eq, Fin.sum_univ_three, PiLp.inner_apply]
  congr 1
  ring

/-- A map of points which keeps products and turns or keeps cross products. -/
structure Mirror (f : Point → Point) : Prop where
  dot : ∀ p q, (f p).x * (f q).x + (f p).y * (f q).y + (f p).z * (f q).z = p.x * q.x + p.y * q.y + p.z * q.z
  cross : ∀ p q, cross (f p) (f q) = ⟨-(f (cross p q)).x, -(f (cross p q)).y, -(f (cross p q)).z⟩

def negX (p : Point) : Point := ⟨-p.x, p.y, p.z⟩
def negY (p : Point) : Point := ⟨p.x, -p.y, p.z⟩
def swapXY (p : Point) : Point := ⟨p.y, p.x, p.z⟩

theorem mirror_negX : Mirror negX := ⟨fun p q => by simp [negX], fun p q => by simp [negX, Spec.ConformalGrid.cross]; constructor <;> ring⟩
theorem mirror_negY : Mirror negY := ⟨fun p q => by simp [negY], fun p q => by simp [negY, Spec.ConformalGrid.cross]; constructor <;> ring⟩
theorem mirror_swap : Mirror swapXY := ⟨fun p q => by simp [swapXY]; ring, fun p q => by simp [swapXY, Spec.ConformalGrid.cross]⟩

theorem Mirror.arc {f : Point → Point} (h : Mirror f) (p q : Point) : Spec.ConformalGrid.arc (f p) (f q) = Spec.ConformalGrid.arc p q := by
  rw [← angle_arc, ← angle_arc]
  unfold angle
  have a := h.dot p p
  have b := h.dot q q
  rw [h.dot p q]
  rw [show (f p).x ^ 2 + (f p).y ^ 2 + (f p).z ^ 2 = p.x ^ 2 + p.y ^ 2 + p.z ^ 2 by linear_combination a,
    show (f q).x ^ 2 + (f q).y ^ 2 + (f q).z ^ 2 = q.x ^ 2 + q.y ^ 2 + q.z ^ 2 by linear_combination b]

theorem arc_neg (p q : Point) : Spec.ConformalGrid.arc ⟨-p.x, -p.y, -p.z⟩ ⟨-q.x, -q.y, -q.z⟩ = Spec.ConformalGrid.arc p q := by
  rw [← angle_arc, ← angle_arc]
  unfold angle
  simp

theorem arc_comm (p q : Point) : Spec.ConformalGrid.arc p q = Spec.ConformalGrid.arc q p := InnerProductGeometry.angle_comm _ _

theorem Mirror.corner {f : Point → Point} (h : Mirror f) (p q r : Point) : Spec.ConformalGrid.corner (f p) (f q) (f r) = Spec.ConformalGrid.corner p q r := by
  unfold Spec.ConformalGrid.corner
  rw [h.cross, h.cross, arc_neg, h.arc]

theorem corner_comm (p q r : Point) : corner p q r = corner r q p := arc_comm _ _

theorem Mirror.quad {f : Point → Point} (h : Mirror f) (a b c d : Point) : Spec.ConformalGrid.quad (f a) (f b) (f c) (f d) = Spec.ConformalGrid.quad a b c d := by
  unfold Spec.ConformalGrid.quad
  rw [h.corner, h.corner, h.corner, h.corner]

/-- The other way round. -/
theorem quad_turn (a b c d : Point) : quad b a d c = quad a b c d := by
  unfold quad
  rw [corner_comm c b a, corner_comm b a d, corner_comm a d c, corner_comm d c b]
  ring

theorem quad_swap (a b c d : Point) : quad a d c b = quad a b c d := by
  unfold quad
  rw [corner_comm b a d, corner_comm a d c, corner_comm d c b, corner_comm c b a]
  ring

theorem vec_smul (c : ℝ) (p : Point) : vec ⟨c * p.x, c * p.y, c * p.z⟩ = c • vec p := by
  unfold vec
  ext i
  fin_cases i <;> simp

/-- The normal vectors have the direction of the cross product. -/
theorem normal_dir (p q : Point) : ∃ c : ℝ, vec (normal p q) = c • vec (cross p q) ∧ (0 < c ∨ vec (cross p q) = 0) := by
  refine ⟨(√((p.y * q.z - p.z * q.y) ^ 2 + (p.z * q.x - p.x * q.z) ^ 2 + (p.x * q.y - p.y * q.x) ^ 2))⁻¹, ?_, ?_⟩
  · rw [← vec_smul]
    congr 1
    unfold normal cross
    simp only [Point.mk.injEq]
    refine ⟨?_, ?_, ?_⟩ <;> rw [div_eq_inv_mul]
  · by_cases h : 0 < (p.y * q.z - p.z * q.y) ^ 2 + (p.z * q.x - p.x * q.z) ^ 2 + (p.x * q.y - p.y * q.x) ^ 2
    · left
      exact inv_pos.2 (Real.sqrt_pos.2 h)
    · right
      have a := sq_nonneg (p.y * q.z - p.z * q.y)
      have b := sq_nonneg (p.z * q.x - p.x * q.z)
      have c := sq_nonneg (p.x * q.y - p.y * q.x)
      have a' : p.y * q.z - p.z * q.y = 0 := pow_eq_zero_iff (two_ne_zero) |>.1 (by linarith)
      have b' : p.z * q.x - p.x * q.z = 0 := pow_eq_zero_iff (two_ne_zero) |>.1 (by linarith)
      have c' : p.x * q.y - p.y * q.x = 0 := pow_eq_zero_iff (two_ne_zero) |>.1 (by linarith)
      unfold vec cross
      rw [a', b', c']
      ext i
      fin_cases i <;> rfl

theorem angle_dir {x x' y y' : EuclideanSpace ℝ (Fin 3)} {c d : ℝ} (h : x' = c • x ∧ (0 < c ∨ x = 0)) (h' : y' = d • y ∧ (0 < d ∨ y = 0)) :
    InnerProductGeometry.angle x' y' = InnerProductGeometry.angle x y := by
  have a : InnerProductGeometry.angle x' y' = InnerProductGeometry.angle x y' := by
    rw [h.1]
    rcases h.2 with e | e
    · exact InnerProductGeometry.angle_smul_left_of_pos _ _ e
    · rw [e, smul_zero]
  rw [a, h'.1]
  rcases h'.2 with e | e
  · exact InnerProductGeometry.angle_smul_right_of_pos _ _ e
  · rw [e, smul_zero]

/-- One of the four terms. -/
theorem term_corner (p q r : Point) : π - angle (normal q r) (normal p q) = corner p q r := by
  rw [angle_arc]
  unfold corner arc
  obtain ⟨c, hc⟩ := normal_dir q r
  obtain ⟨d, hd⟩ := normal_dir p q
  rw [angle_dir hc hd, ← InnerProductGeometry.angle_neg_right, InnerProductGeometry.angle_comm]
  congr 1
  unfold vec cross
  ext i
  fin_cases i <;> simp <;> ring

theorem excess_quad (a b c d : Point) : excess a b c d = quad a b c d := by
  unfold excess quad
  simp only
  rw [term_corner a b c, term_corner b c d, term_corner c d a, term_corner d a b]
  ring

/-! ### Symmetry of the fine points -/

theorem coord_le {m i : Nat} (hi : i ≤ m) : |coord m i| ≤ 1 := by
  unfold coord
  have h0 : (0 : ℝ) ≤ i := Nat.cast_nonneg i
  have h1 : (i : ℝ) ≤ m := by exact_mod_cast hi
  have : 0 ≤ 2 * (i : ℝ) / m ∧ 2 * (i : ℝ) / m ≤ 2 := by
    refine ⟨by positivity, ?_⟩
    rcases (Nat.cast_nonneg (α := ℝ) m).eq_or_lt with e | e
    · rw [← e]; norm_num
    · rw [div_le_iff₀ e]; linarith
  rw [abs_le]; constructor <;> linarith [this.1, this.2]

theorem coord_mirror {m i : Nat} (hm : 0 < m) (hi : i ≤ m) : coord m (m - i) = -coord m i := by
  unfold coord
  have : (m : ℝ) ≠ 0 := by exact_mod_cast hm.ne'
  rw [Nat.cast_sub hi]
  field_simp
  ring

theorem pts_swap {m j i : Nat} (hj : j ≤ m) (hi : i ≤ m) : pts m i j = swapXY (pts m j i) := map_swap _ _ (coord_le hi)

theorem pts_negX {m j i : Nat} (hm : 0 < m) (hi : i ≤ m) : pts m j (m - i) = negX (pts m j i) := by
  unfold pts
  rw [coord_mirror hm hi]
  exact map_neg_x _ _

theorem pts_negY {m j i : Nat} (hm : 0 < m) (hj : j ≤ m) : pts m (m - j) i = negY (pts m j i) := by
  unfold pts
  rw [coord_mirror hm hj]
  exact map_neg_y _ _

/-- Arc of the fine grid along a row. -/
def rowArc (m j i : Nat) : ℝ := arc (pts m j i) (pts m j (i + 1))
/-- Cell of the fine grid. -/
def cellQuad (m j i : Nat) : ℝ := quad (pts m j i) (pts m j (i + 1)) (pts m (j + 1) (i + 1)) (pts m (j + 1) i)

theorem dxl_eq {m j i : Nat} (hj : j ≤ m) (hi : i < m) : dxl m j i = rowArc m j i := by
  unfold dxl fineDx fineDy rowArc
  rw [angle_arc, angle_arc, pts_swap (show j ≤ m by omega) (show i ≤ m by omega), pts_swap (show j ≤ m by omega) (show i + 1 ≤ m by omega), mirror_swap.arc]
  ring

theorem rowArc_col {m j i : Nat} (hi : i < m) : rowArc m j (m - 1 - i) = rowArc m j i := by
  unfold rowArc
  rw [show m - 1 - i + 1 = m - i by omega, show m - 1 - i = m - (i + 1) by omega, pts_negX (by omega) (show i + 1 ≤ m by omega), pts_negX (by omega) (show i ≤ m by omega), mirror_negX.arc, arc_comm]

theorem rowArc_row {m j i : Nat} (hm : 0 < m) (hj : j ≤ m) : rowArc m (m - j) i = rowArc m j i := by
  unfold rowArc
  rw [pts_negY hm hj, pts_negY hm hj, mirror_negY.arc]

theorem cellQuad_swap {m j i : Nat} (hj : j < m) (hi : i < m) : cellQuad m i j = cellQuad m j i := by
  unfold cellQuad
  rw [pts_swap (show j ≤ m by omega) (show i ≤ m by omega), pts_swap (show j + 1 ≤ m by omega) (show i ≤ m by omega), pts_swap (show j + 1 ≤ m by omega) (show i + 1 ≤ m by omega),
    pts_swap (show j ≤ m by omega) (show i + 1 ≤ m by omega), mirror_swap.quad, quad_swap]

theorem cellQuad_col {m j i : Nat} (hi : i < m) : cellQuad m j (m - 1 - i) = cellQuad m j i := by
  unfold cellQuad
  have a : i + 1 ≤ m := by omega
  have b : i ≤ m := by omega
  rw [show m - 1 - i + 1 = m - i by omega, show m - 1 - i = m - (i + 1) by omega, pts_negX (by omega) a, pts_negX (by omega) b, pts_negX (by omega) a, pts_negX (by omega) b, mirror_negX.quad, quad_turn]

theorem cellQuad_row {m j i : Nat} (hj : j < m) (hi : i < m) : cellQuad m (m - 1 - j) i = cellQuad m j i := by
  rw [cellQuad_swap hi (by omega), cellQuad_col hj, cellQuad_swap hj hi]

/-- The loops which make the areas symmetric change nothing. -/
theorem areal_eq {m j i : Nat} (hj : j < m) (hi : i < m) : areal m j i = cellQuad m j i := by
  have e : ∀ j i, fineArea m j i = cellQuad m j i := fun j i => excess_quad _ _ _ _
  have hh : half m - 1 ≤ m := by unfold half; omega
  let Inv (a : Arr) : Prop := ∀ j i, j < m → i < m → a j i = cellQuad m j i
  have body : ∀ J I a, J < m → I < m → Inv a → Inv (areaBody J I a) := by
    intro J I a hJ hI h j i hj hi
    unfold areaBody
    have s := cellQuad_swap hJ hI
    by_cases c : J < I
    · rw [if_pos c]
      unfold set
      by_cases d : j = J ∧ i = I
      · rw [if_pos d, h J I hJ hI, h I J hI hJ, s, d.1, d.2]; ring
      · rw [if_neg d]; exact h j i hj hi
    · rw [if_neg c]
      by_cases c' : I < J
      · rw [if_pos c']
        unfold set
        by_cases d : j = J ∧ i = I
        · rw [if_pos d, h I J hI hJ, s, d.1, d.2]
        · rw [if_neg d]; exact h j i hj hi
      · rw [if_neg c']; exact h j i hj hi
  have inner : ∀ J, J < m → ∀ c s a, s + c ≤ m → Inv a → Inv (forPure (fun i a => areaBody J i a) s c a) := by
    intro J hJ c
    induction c with
    | zero => intro s a _ h; exact h
    | succ c ih => intro s a hs h; exact ih (s + 1) _ (by omega) (body J s a hJ (by omega) h)
  have outer : ∀ c s a, s + c ≤ m → Inv a → Inv (forPure (fun j a => forPure (fun i a => areaBody j i a) 0 (half m - 1) a) s c a) := by
    intro c
    induction c with
    | zero => intro s a _ h; exact h
    | succ c ih => intro s a hs h; exact ih (s + 1) _ (by omega) (inner s (by omega) (half m - 1) 0 a (by omega) h)
  exact outer (half m - 1) 0 _ (by omega) (fun j i _ _ => e j i) j i hj hi

theorem forPure_sum (f : Nat → ℝ) : ∀ r s a, forPure (fun k a => a + f k) s r a = a + ∑ k ∈ Finset.range r, f (s + k) := by
  intro r
  induction r with
  | zero => intro s a; simp [forPure]
  | succ r ih =>
    intro s a
    show forPure (fun k a => a + f k) (s + 1) r (a + f s) = _
    rw [ih, Finset.sum_range_succ']
    simp only [Nat.add_zero]
    rw [add_assoc, add_comm (f s)]
    congr 2
    apply Finset.sum_congr rfl
    intro k _
    rw [show s + 1 + k = s + (k + 1) by omega]

theorem addUp_eq (r : Nat) (f : Nat → ℝ) : addUp r f = ∑ k ∈ Finset.range r, f k := by
  unfold addUp
  rw [forPure_sum]
  simp

end Verif.ConformalGrid
