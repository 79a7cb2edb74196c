import Verif.Lemmas.GridFromFile
import Mathlib.Analysis.SpecialFunctions.Trigonometric.Bounds
import Mathlib.Tactic.FieldSimp
import Mathlib.Tactic.NormNum
/-
C127: a grid made from a file by make_hgrid: the supergrid has the corners and centres of the file, and the middles of the sides.
-/
namespace Verif.GridFromFile
open Verif.TransferMosaic (Mem put loop2)
open Verif.Spec.GridFromFile

section
variable {F : Type} [Field F]

/-- The memory has the corners `C` and the centres `T` of `ni` by `nj` cells. -/
def Reads (ni nj : Nat) (C T : Nat → Nat → F × F) (s : Src F) : Prop :=
  (∀ j ≤ nj, ∀ i ≤ ni, s.xc (j * (ni + 1) + i) = some (C j i).1 ∧ s.yc (j * (ni + 1) + i) = some (C j i).2) ∧
  ∀ j < nj, ∀ i < ni, s.xt (j * ni + i) = some (T j i).1 ∧ s.yt (j * ni + i) = some (T j i).2

/-- Value of `x` and `y` at row J and column I. -/
def At (nx : Nat) (x y : Mem F) (J I : Nat) (p : F × F) : Prop := x (J * (nx + 1) + I) = some p.1 ∧ y (J * (nx + 1) + I) = some p.2

theorem uniform_iff [DecidableEq F] (ni nj : Nat) (hi : 0 < ni) (hj : 0 < nj) (C T : Nat → Nat → F × F) (s : Src F) (h : Reads ni nj C T s) :
    isUniform ni nj s.xt s.yt = true ↔ Uniform ni nj T := by
  unfold isUniform Uniform
  simp only [Bool.and_eq_true, List.all_eq_true, List.mem_range, decide_eq_true_eq]
  have h0 : ∀ i < ni, s.xt i = some (T 0 i).1 := fun i hi => by have := (h.2 0 hj i hi).1; simpa using this
  have h1 : ∀ j < nj, s.yt (j * ni) = some (T j 0).2 := fun j hj => by have := (h.2 j hj 0 hi).2; simpa using this
  constructor
  · rintro ⟨a, b⟩
    refine ⟨fun j hj i hi => ?_, fun j hj i hi => ?_⟩
    · cases i with
      | zero => rfl
      | succ i =>
        have := a j hj i (by omega)
        rw [(h.2 j hj (i + 1) hi).2, h1 j hj] at this
        exact Option.some.inj this
    · cases j with
      | zero => rfl
      | succ j =>
        have := b i hi j (by omega)
        rw [(h.2 (j + 1) hj i hi).1, h0 i hi] at this
        exact Option.some.inj this
  · rintro ⟨a, b⟩
    refine ⟨fun j hj i hi => ?_, fun i hi j hj => ?_⟩
    · rw [(h.2 j hj (i + 1) (by omega)).2, h1 j hj, a j hj (i + 1) (by omega)]
    · rw [(h.2 (j + 1) (by omega) i hi).1, h0 i hi, b (j + 1) (by omega) i hi]

/-- C127: whatever the corners and centres of the file are, each point of the supergrid has its value: corners at even rows and columns, centres at odd
rows and columns, and between two corners the middle of the side: level with the centres if the centres form rows and columns, otherwise the mean of
the angles if this is asked for, otherwise the point `mid` half way on the great circle. -/
theorem C127_points [DecidableEq F] (ni nj : Nat) (hi : 0 < ni) (hj : 0 < nj) (C T : Nat → Nat → F × F) (s : Src F) (h : Reads ni nj C T s) (ang : Bool)
    (mid : F × F → F × F → F × F) :
    (Uniform ni nj T → ∀ J ≤ 2 * nj, ∀ I ≤ 2 * ni, At (2 * ni) (superX ang mid (2 * ni) (2 * nj) s) (superY ang mid (2 * ni) (2 * nj) s) J I (pointUniform C T J I)) ∧
    (¬ Uniform ni nj T → ∀ J ≤ 2 * nj, ∀ I ≤ 2 * ni, At (2 * ni) (superX ang mid (2 * ni) (2 * nj) s) (superY ang mid (2 * ni) (2 * nj) s) J I
      (point (if ang then angular else mid) C T J I)) := by
  have hu := uniform_iff ni nj hi hj C T s h
  have e1 : 2 * ni / 2 = ni := by omega
  have e2 : 2 * nj / 2 = nj := by omega
  refine ⟨fun u J hJ I hI => ?_, fun u J hJ I hI => ?_⟩
  · have hm : modeOf ang ni nj s = .uniform := by unfold modeOf; rw [if_pos (hu.2 u)]
    unfold At superX superY pointUniform
    rw [e1, e2, hm, sides_at _ _ _ _ _ _ _ _ _ _ hJ hI, sides_at _ _ _ _ _ _ _ _ _ _ hJ hI]
    by_cases hJ2 : J % 2 = 0 <;> by_cases hI2 : I % 2 = 0
    · simp only [if_pos hJ2, if_pos hI2]
      exact h.1 _ (by omega) _ (by omega)
    · simp only [if_pos hJ2, if_neg hI2, sideX]
      refine ⟨?_, (h.1 (J / 2) (by omega) (I / 2) (by omega)).2⟩
      have := (h.2 0 hj (I / 2) (by omega)).1
      simpa using this
    · simp only [if_neg hJ2, if_pos hI2, sideY]
      refine ⟨(h.1 (J / 2) (by omega) (I / 2) (by omega)).1, ?_⟩
      have := (h.2 (J / 2) (by omega) 0 hi).2
      simpa using this
    · simp only [if_neg hJ2, if_neg hI2]
      exact h.2 _ (by omega) _ (by omega)
  · have hm : modeOf ang ni nj s = if ang then .angular else .sphere := by unfold modeOf; rw [if_neg (fun h' => u (hu.1 h'))]
    unfold At superX superY point
    rw [e1, e2, hm, sides_at _ _ _ _ _ _ _ _ _ _ hJ hI, sides_at _ _ _ _ _ _ _ _ _ _ hJ hI]
    by_cases hJ2 : J % 2 = 0 <;> by_cases hI2 : I % 2 = 0
    · simp only [if_pos hJ2, if_pos hI2]
      exact h.1 _ (by omega) _ (by omega)
    · simp only [if_pos hJ2, if_neg hI2]
      have a := h.1 (J / 2) (by omega) (I / 2) (by omega)
      have b := h.1 (J / 2) (by omega) (I / 2 + 1) (by omega)
      rw [← Nat.add_assoc] at b
      cases ang <;> simp [sideX, midOf, half, a, b, angular] <;> constructor <;> ring
    · simp only [if_neg hJ2, if_pos hI2]
      have a := h.1 (J / 2) (by omega) (I / 2) (by omega)
      have b := h.1 (J / 2 + 1) (by omega) (I / 2) (by omega)
      cases ang <;> simp [sideY, midOf, half, a, b, angular] <;> constructor <;> ring
    · simp only [if_neg hJ2, if_neg hI2]
      exact h.2 _ (by omega) _ (by omega)

/-- C127: each length is the distance between the two ends of its side. -/
theorem C127_lengths (dist : Option F × Option F → Option F × Option F → F) (nx ny : Nat) (x y : Mem F) (p : Nat → Nat → F × F)
    (h : ∀ J ≤ ny, ∀ I ≤ nx, At nx x y J I (p J I)) :
    (∀ J ≤ ny, ∀ I < nx, lenX dist nx ny x y (J * nx + I) =
      some (dist (some (p J I).1, some (p J I).2) (some (p J (I + 1)).1, some (p J (I + 1)).2))) ∧
    ∀ J < ny, ∀ I ≤ nx, lenY dist nx ny x y (J * (nx + 1) + I) =
      some (dist (some (p J I).1, some (p J I).2) (some (p (J + 1) I).1, some (p (J + 1) I).2)) := by
  refine ⟨fun J hJ I hI => ?_, fun J hJ I hI => ?_⟩
  · unfold lenX
    rw [write_all nx (ny + 1) nx (le_refl _) _ _ (fun _ _ _ => rfl) _ J I (by omega) hI]
    have a := h J hJ I (by omega)
    have b := h J hJ (I + 1) (by omega)
    unfold At at a b
    rw [← Nat.add_assoc] at b
    rw [a.1, a.2, b.1, b.2]
  · unfold lenY
    rw [write_all (nx + 1) ny (nx + 1) (le_refl _) _ _ (fun _ _ _ => rfl) _ J I hJ (by omega)]
    have a := h J (by omega) I hI
    have b := h (J + 1) (by omega) I hI
    unfold At at a b
    rw [a.1, a.2, b.1, b.2]

/-- C127: a text file gives the products of its two lists. -/
theorem C127_text (nx ny : Nat) (xb yb : Nat → F) (J I : Nat) (hJ : J ≤ ny) (hI : I ≤ nx) : At nx (textX nx ny xb) (textY nx ny yb) J I (xb I, yb J) := by
  refine ⟨?_, ?_⟩
  · exact write_all (nx + 1) (ny + 1) (nx + 1) (le_refl _) (fun _ i => some (xb i)) _ (fun _ _ _ => rfl) _ J I (by omega) (by omega)
  · exact write_all (nx + 1) (ny + 1) (nx + 1) (le_refl _) (fun j _ => some (yb j)) _ (fun _ _ _ => rfl) _ J I (by omega) (by omega)

/-- C127: a file with the four vertices of each cell (south-west, south-east, north-east, north-west): all corners get the values they have in the file. -/
theorem C127_vertices [LinearOrder F] (n m : Nat) (hn : 0 < n) (hm : 0 < m) (C T : Nat → Nat → F × F) (lonV latV : Nat → F) (lon lat : Mem F)
    (hx : Vertices n m (fun j i => (C j i).1) lonV) (hy : Vertices n m (fun j i => (C j i).2) latV)
    (ht : ∀ j < m, ∀ i < n, lon (j * n + i) = some (T j i).1 ∧ lat (j * n + i) = some (T j i).2) : Reads n m C T (src2 n m lonV latV lon lat) :=
  ⟨fun j hj i hi => ⟨corners2_at n m hn hm _ _ hx j i hj hi, corners2_at n m hn hm _ _ hy j i hj hi⟩, ht⟩

variable [LinearOrder F]

/-- Rectangular corners and centres give a rectangular supergrid. -/
theorem rectangular (ni nj : Nat) (hi : 0 < ni) (hj : 0 < nj) (bx cx by' cy : Nat → F) (s : Src F)
    (h : Reads ni nj (fun j i => (bx i, by' j)) (fun j i => (cx i, cy j)) s) (ang : Bool) (mid : F × F → F × F → F × F) (J I : Nat) (hJ : J ≤ 2 * nj)
    (hI : I ≤ 2 * ni) : At (2 * ni) (superX ang mid (2 * ni) (2 * nj) s) (superY ang mid (2 * ni) (2 * nj) s) J I (woven bx cx I, woven by' cy J) := by
  have := (C127_points ni nj hi hj _ _ s h ang mid).1 ⟨fun _ _ _ _ => rfl, fun _ _ _ _ => rfl⟩ J hJ I hI
  convert this using 1
  unfold pointUniform woven
  by_cases hJ2 : J % 2 = 0 <;> by_cases hI2 : I % 2 = 0 <;> simp [hJ2, hI2]

/-- C127: a file with bounds of the rows and of the columns that join: the coordinates of the supergrid are bounds and centres by turns. -/
theorem C127_bounds (n m : Nat) (hn : 0 < n) (hm : 0 < m) (lon lat lonB latB bx by' : Nat → F) (hx : Bounds n bx lonB) (hy : Bounds m by' latB) (ang : Bool)
    (mid : F × F → F × F → F × F) (J I : Nat) (hJ : J ≤ 2 * m) (hI : I ≤ 2 * n) :
    At (2 * n) (superX ang mid (2 * n) (2 * m) (src3 n m lon lat lonB latB)) (superY ang mid (2 * n) (2 * m) (src3 n m lon lat lonB latB)) J I
      (woven bx lon I, woven by' lat J) := by
  refine rectangular n m hn hm bx lon by' lat _ ⟨fun j hj i hi => ⟨?_, ?_⟩, fun j hj i hi => ⟨?_, ?_⟩⟩ ang mid J I hJ hI
  · exact lonCorners3_at n m hn bx lonB hx j i hj hi
  · exact latCorners3_at n m hm by' latB hy j i hj hi
  · exact rows_at n m lon j i hj hi
  · exact columns_at n m lat j i hj hi

/-- C127: if the centres lie within their cells, the coordinates of the supergrid increase strictly: no cell is empty or folded. -/
theorem C127_increasing (n : Nat) (b c : Nat → F) (h : Within n b c) (I : Nat) (hI : I < 2 * n) : woven b c I < woven b c (I + 1) := by
  unfold woven
  have := h (I / 2) (by omega)
  by_cases hI2 : I % 2 = 0
  · rw [if_pos hI2, if_neg (by omega), show (I + 1) / 2 = I / 2 by omega]
    exact this.1
  · rw [if_neg hI2, if_pos (by omega), show (I + 1) / 2 = I / 2 + 1 by omega]
    exact this.2

variable [IsStrictOrderedRing F]

/-- C127 (part): a file with centres only. If the longitudes increase strictly over more than half and less than a whole turn, and the latitudes
increase from a southern one, or decrease from a northern one, between the poles: the centres lie within the cells, which reach once around and from pole
to pole. Missing: one longitude, or longitudes over half a turn or less (`C127_halfturn_wrong`), and latitudes on the northern half only
(`C127_northern_wrong`). -/
theorem C127_centres_partial (ni nj : Nat) (hi : 2 ≤ ni) (hj : 0 < nj) (xt yt : Nat → F) (hx : ∀ i, i + 1 < ni → xt i < xt (i + 1))
    (hx1 : xt 0 + 180 < xt (ni - 1)) (hx2 : xt (ni - 1) < xt 0 + 360)
    (hy : (yt 0 ≤ 0 ∧ -90 < yt 0 ∧ yt (nj - 1) < 90 ∧ ∀ j, j + 1 < nj → yt j < yt (j + 1)) ∨
      (0 < yt 0 ∧ yt 0 < 90 ∧ -90 < yt (nj - 1) ∧ ∀ j, j + 1 < nj → yt (j + 1) < yt j)) (ang : Bool) (mid : F × F → F × F → F × F) :
    (∀ J ≤ 2 * nj, ∀ I ≤ 2 * ni, At (2 * ni) (superX ang mid (2 * ni) (2 * nj) (src5 ni nj xt yt)) (superY ang mid (2 * ni) (2 * nj) (src5 ni nj xt yt)) J I
      (woven (lonEdge5 ni xt) xt I, woven (latEdge5 nj yt) (fun j => if 0 < yt 0 then yt (nj - 1 - j) else yt j) J)) ∧
    Within ni (lonEdge5 ni xt) xt ∧ lonEdge5 ni xt ni = lonEdge5 ni xt 0 + 360 ∧
    Within nj (latEdge5 nj yt) (fun j => if 0 < yt 0 then yt (nj - 1 - j) else yt j) ∧ latEdge5 nj yt 0 = -90 ∧ latEdge5 nj yt nj = 90 := by
  have hlat : (fun j => if 0 < yt 0 then yt (nj - 1 - j) else yt j) = lat5 nj yt := by
    funext j
    unfold lat5 reversed
    by_cases h : 0 < yt 0
    · simp only [h, decide_true, if_true]
      congr 1; omega
    · simp [h]
  refine ⟨fun J hJ I hI => ?_, fun i hin => ?_, ?_, fun j hjn => ?_, ?_, ?_⟩
  · rw [hlat]
    refine rectangular ni nj (by omega) hj _ _ _ _ _ ⟨fun j hj i hi => ⟨?_, ?_⟩, fun j hj i hi => ⟨?_, ?_⟩⟩ ang mid J I hJ hI
    · exact rows_at (ni + 1) (nj + 1) _ j i (by omega) (by omega)
    · exact columns_at (ni + 1) (nj + 1) _ j i (by omega) (by omega)
    · exact rows_at ni nj _ j i hj hi
    · exact columns_at ni nj _ j i hj hi
  · unfold lonEdge5
    simp only [if_pos hx1]
    rw [if_neg (by omega : ¬ i = ni)]
    constructor
    · by_cases h0 : i = 0
      · subst h0
        rw [if_pos rfl]; linarith
      · rw [if_neg h0]
        have := hx (i - 1) (by omega)
        rw [show i - 1 + 1 = i by omega] at this
        linarith
    · by_cases hl : i + 1 = ni
      · rw [if_pos hl, show ni - 1 = i by omega]
        have : xt (ni - 1) = xt i := by congr 1; omega
        rw [this] at hx2
        linarith
      · rw [if_neg hl, if_neg (by omega), show i + 1 - 1 = i by omega]
        have := hx i (by omega)
        linarith
  · unfold lonEdge5
    simp only [if_pos hx1, if_true]
    rw [if_neg (by omega)]
  · unfold latEdge5 reversed
    rcases hy with ⟨h0, h1, h2, h3⟩ | ⟨h0, h1, h2, h3⟩
    · simp only [not_lt.2 h0, decide_false, if_false, Bool.false_eq_true]
      rw [if_neg (by omega : ¬ j = nj)]
      constructor
      · by_cases hj0 : j = 0
        · subst hj0; rw [if_pos rfl]; exact h1
        · rw [if_neg hj0]
          have := h3 (j - 1) (by omega)
          rw [show j - 1 + 1 = j by omega] at this
          linarith
      · by_cases hl : j + 1 = nj
        · rw [if_pos hl, show j = nj - 1 by omega]; exact h2
        · rw [if_neg hl, if_neg (by omega), show j + 1 - 1 = j by omega]
          have := h3 j (by omega)
          linarith
    · simp only [h0, decide_true, if_true]
      rw [if_neg (by omega : ¬ j = nj)]
      constructor
      · by_cases hj0 : j = 0
        · subst hj0; rw [if_pos rfl]; simpa using h2
        · rw [if_neg hj0]
          have := h3 (nj - j - 1) (by omega)
          rw [show nj - j - 1 + 1 = nj - j by omega] at this
          rw [show nj - 1 - j = nj - j - 1 by omega]
          linarith
      · by_cases hl : j + 1 = nj
        · rw [if_pos hl, show nj - 1 - j = 0 by omega]; exact h1
        · rw [if_neg hl, if_neg (by omega)]
          have := h3 (nj - (j + 1) - 1) (by omega)
          rw [show nj - (j + 1) - 1 + 1 = nj - (j + 1) by omega] at this
          rw [show nj - 1 - j = nj - (j + 1) by omega]
          linarith
  · unfold latEdge5
    rw [if_neg (by omega), if_pos rfl]
  · unfold latEdge5
    rw [if_pos rfl]

/-- C127: the edges between centres that increase strictly (form 4, each direction of the projection): each centre lies within its edges. -/
theorem C127_edges (n : Nat) (hn : 2 ≤ n) (c : Nat → F) (h : ∀ i, i + 1 < n → c i < c (i + 1)) : Within n (edges4 n c) c := by
  intro i hi
  unfold edges4
  simp only []
  constructor
  · by_cases h0 : i = 0
    · subst h0
      rw [if_pos rfl]
      have := h 0 (by omega)
      norm_num at this ⊢
      linarith
    · rw [if_neg h0, if_neg (by omega)]
      have := h (i - 1) (by omega)
      rw [show i - 1 + 1 = i by omega] at this
      linarith
  · rw [if_neg (by omega)]
    by_cases hl : i + 1 = n
    · rw [if_pos hl, show n - 1 = i by omega]
      have := h (i - 1) (by omega)
      rw [show i - 1 + 1 = i by omega] at this
      linarith
    · rw [if_neg hl, show i + 1 - 1 = i by omega]
      have := h i (by omega)
      linarith

end

/-- C127 (wrong): two columns half a turn apart, centres at 90 and 270: the first cell has no width on its western side, its bound is at 180 like
the other, and the second reaches from 180 to 540. -/
theorem C127_halfturn_wrong :
    let xt : Nat → ℚ := fun i => if i = 0 then 90 else 270
    lonEdge5 2 xt 0 = 180 ∧ lonEdge5 2 xt 1 = 180 ∧ lonEdge5 2 xt 2 = 540 ∧ ¬ Within 2 (lonEdge5 2 xt) xt := by
  intro xt
  have e0 : lonEdge5 2 xt 0 = 180 := by simp [lonEdge5, xt]; norm_num
  have e1 : lonEdge5 2 xt 1 = 180 := by simp [lonEdge5, xt]; norm_num
  have e2 : lonEdge5 2 xt 2 = 540 := by simp [lonEdge5, xt]; norm_num
  refine ⟨e0, e1, e2, fun h => ?_⟩
  have := (h 0 (by omega)).1
  rw [e0] at this
  simp [xt] at this
  norm_num at this

/-- C127 (wrong): latitudes 10 and 50, from south to north: they are taken to go from north to south, the rows are turned around, and no centre lies
within its cell. -/
theorem C127_northern_wrong :
    let yt : Nat → ℚ := fun j => if j = 0 then 10 else 50
    latEdge5 2 yt 1 = 30 ∧ lat5 2 yt 0 = 50 ∧ lat5 2 yt 1 = 10 := by
  intro yt
  refine ⟨?_, ?_, ?_⟩
  · simp [latEdge5, reversed, yt]; norm_num
  · simp [lat5, reversed, yt]
  · simp [lat5, reversed, yt]

/-! ### Lambert's projection -/

section
open Real

theorem cone_pos {phi1 phi2 : ℝ} (h0 : 0 < phi1) (h12 : phi1 < phi2) (h2 : phi2 < π / 2) : 0 < coneN phi1 phi2 ∧ 0 < coneF phi1 (coneN phi1 phi2) := by
  have hpi := pi_pos
  have c1 : 0 < cos phi1 := cos_pos_of_mem_Ioo ⟨by linarith, by linarith⟩
  have c2 : 0 < cos phi2 := cos_pos_of_mem_Ioo ⟨by linarith, by linarith⟩
  have c12 : cos phi2 < cos phi1 := cos_lt_cos_of_nonneg_of_le_pi_div_two h0.le h2.le h12
  have t1 : 0 < tan (π / 4 + phi1 / 2) := tan_pos_of_pos_of_lt_pi_div_two (by linarith) (by linarith)
  have t12 : tan (π / 4 + phi1 / 2) < tan (π / 4 + phi2 / 2) := tan_lt_tan_of_lt_of_lt_pi_div_two (by linarith) (by linarith) (by linarith)
  refine ⟨?_, ?_⟩
  · unfold coneN
    exact div_pos (log_pos ((one_lt_div c2).2 c12)) (log_pos ((one_lt_div t1).2 t12))
  · unfold coneF
    exact mul_pos c1 (rpow_pos_of_pos t1 _)

theorem rho_pos {n F lat : ℝ} (hF : 0 < F) (h1 : -(π / 2) < lat) (h2 : lat < π / 2) : 0 < rho n F lat := by
  unfold rho
  exact mul_pos hF (rpow_pos_of_pos (one_div_pos.2 (tan_pos_of_pos_of_lt_pi_div_two (by linarith) (by linarith))) _)

/-- C127: Lambert's projection with standard parallels north of the equator: a point within a quarter turn of the cone around the central longitude is
found again from its place on the plane. -/
theorem C127_lambert (phi1 phi2 lat0 lon0 lon lat : ℝ) (h0 : 0 < phi1) (h12 : phi1 < phi2) (h2 : phi2 < π / 2) (hlat : -(π / 2) < lat) (hlat' : lat < π / 2)
    (hlon : |coneN phi1 phi2 * (lon - lon0)| < π / 2) :
    let n := coneN phi1 phi2
    let F := coneF phi1 n
    let r0 := rho n F lat0
    backLon n r0 lon0 (projX n F lon0 lon lat) (projY n F r0 lon0 lon lat) = lon ∧
    backLat n F r0 (projX n F lon0 lon lat) (projY n F r0 lon0 lon lat) = lat := by
  intro n F r0
  obtain ⟨hn, hF⟩ := cone_pos h0 h12 h2
  have hn : 0 < n := hn
  have hF : 0 < F := hF
  have hr : 0 < rho n F lat := rho_pos hF hlat hlat'
  have hlon := abs_lt.1 hlon
  have hc : 0 < cos (n * (lon - lon0)) := cos_pos_of_mem_Ioo ⟨by have := hlon.1; exact this, hlon.2⟩
  have t1 : 0 < tan (π / 4 + lat / 2) := tan_pos_of_pos_of_lt_pi_div_two (by linarith) (by linarith)
  refine ⟨?_, ?_⟩
  · unfold backLon projX projY
    rw [show r0 - (r0 - rho n F lat * cos (n * (lon - lon0))) = rho n F lat * cos (n * (lon - lon0)) by ring, mul_div_mul_left _ _ hr.ne', ← tan_eq_sin_div_cos,
      arctan_tan hlon.1 hlon.2]
    field_simp
    ring
  · have hb : backRho n r0 (projX n F lon0 lon lat) (projY n F r0 lon0 lon lat) = rho n F lat := by
      unfold backRho projX projY
      rw [if_neg (not_lt.2 hn.le), show rho n F lat * sin (n * (lon - lon0)) * (rho n F lat * sin (n * (lon - lon0))) +
        (r0 - (r0 - rho n F lat * cos (n * (lon - lon0)))) ^ 2 = rho n F lat ^ 2 * (sin (n * (lon - lon0)) ^ 2 + cos (n * (lon - lon0)) ^ 2) by ring,
        sin_sq_add_cos_sq, mul_one, sqrt_sq hr.le]
    unfold backLat
    rw [hb]
    have : F / rho n F lat = tan (π / 4 + lat / 2) ^ n := by
      unfold rho
      rw [one_div, inv_rpow t1.le]
      have := (rpow_pos_of_pos t1 n).ne'
      field_simp
    rw [this, ← rpow_mul t1.le, mul_one_div_cancel hn.ne', rpow_one, arctan_tan (by linarith) (by linarith)]
    ring

/-- C127: and the other way around: each place on the plane south of the tip of the cone is the projection of the point found for it. So the corners that
are computed for form 4 are the points whose places are the edges between the centres. -/
theorem C127_lambert_back (phi1 phi2 lat0 lon0 x y : ℝ) (h0 : 0 < phi1) (h12 : phi1 < phi2) (h2 : phi2 < π / 2) :
    let n := coneN phi1 phi2
    let F := coneF phi1 n
    let r0 := rho n F lat0
    y < r0 → projX n F lon0 (backLon n r0 lon0 x y) (backLat n F r0 x y) = x ∧ projY n F r0 lon0 (backLon n r0 lon0 x y) (backLat n F r0 x y) = y := by
  intro n F r0 hy
  obtain ⟨hn, hF⟩ := cone_pos h0 h12 h2
  have hn : 0 < n := hn
  have hF : 0 < F := hF
  have hd : 0 < r0 - y := by linarith
  have hs : 0 < x * x + (r0 - y) ^ 2 := by have := mul_self_nonneg x; have := pow_pos hd 2; linarith
  have hr : 0 < √(x * x + (r0 - y) ^ 2) := sqrt_pos.2 hs
  set r := √(x * x + (r0 - y) ^ 2) with hrdef
  have hb : backRho n r0 x y = r := by unfold backRho; rw [if_neg (not_lt.2 hn.le)]
  have hpos : 0 < (F / r) ^ (1 / n) := rpow_pos_of_pos (div_pos hF hr) _
  have hrho : rho n F (backLat n F r0 x y) = r := by
    unfold rho backLat
    rw [hb, show π / 4 + (2 * arctan ((F / r) ^ (1 / n)) - π / 2) / 2 = arctan ((F / r) ^ (1 / n)) by ring, tan_arctan, one_div, inv_rpow hpos.le,
      ← rpow_mul (div_pos hF hr).le, one_div_mul_cancel hn.ne', rpow_one]
    field_simp
  have hang : n * (backLon n r0 lon0 x y - lon0) = arctan (x / (r0 - y)) := by
    unfold backLon
    field_simp
    ring
  have hrr : r = (r0 - y) * √(1 + (x / (r0 - y)) ^ 2) := by
    rw [hrdef, show x * x + (r0 - y) ^ 2 = (r0 - y) ^ 2 * (1 + (x / (r0 - y)) ^ 2) by field_simp; ring, sqrt_mul (by positivity), sqrt_sq hd.le]
  have hq : 0 < √(1 + (x / (r0 - y)) ^ 2) := sqrt_pos.2 (by positivity)
  refine ⟨?_, ?_⟩
  · unfold projX
    rw [hrho, hang, sin_arctan, hrr]
    field_simp
  · unfold projY
    rw [hrho, hang, cos_arctan, hrr]
    field_simp
    ring

/-- C127 (wrong): with standard parallels south of the equator the constant of the cone is positive but the distance from its tip is taken negative, so that the base
of `pow` is negative for every point and the latitude is no number. -/
theorem C127_southern_wrong (phi1 phi2 : ℝ) (h1 : -(π / 2) < phi1) (h12 : phi1 < phi2) (h2 : phi2 < 0) (r0 x y : ℝ) (hy : y ≠ r0) :
    let n := coneN phi1 phi2
    n < 0 ∧ coneF phi1 n / backRho n r0 x y < 0 := by
  intro n
  have hpi := pi_pos
  have c1 : 0 < cos phi1 := cos_pos_of_mem_Ioo ⟨by linarith, by linarith⟩
  have c2 : 0 < cos phi2 := cos_pos_of_mem_Ioo ⟨by linarith, by linarith⟩
  have c12 : cos phi1 < cos phi2 := by
    rw [← cos_neg phi1, ← cos_neg phi2]
    exact cos_lt_cos_of_nonneg_of_le_pi_div_two (by linarith) (by linarith) (by linarith)
  have t1 : 0 < tan (π / 4 + phi1 / 2) := tan_pos_of_pos_of_lt_pi_div_two (by linarith) (by linarith)
  have t12 : tan (π / 4 + phi1 / 2) < tan (π / 4 + phi2 / 2) := tan_lt_tan_of_lt_of_lt_pi_div_two (by linarith) (by linarith) (by linarith)
  have hn : n < 0 := by
    show coneN phi1 phi2 < 0
    unfold coneN
    exact div_neg_of_neg_of_pos (log_neg (div_pos c1 c2) ((div_lt_one c2).2 c12)) (log_pos ((one_lt_div t1).2 t12))
  refine ⟨hn, ?_⟩
  have hF : 0 < coneF phi1 n := by
    unfold coneF
    exact mul_pos c1 (rpow_pos_of_pos t1 _)
  have hd : 0 < (r0 - y) ^ 2 := by
    have : r0 - y ≠ 0 := sub_ne_zero.2 (Ne.symm hy)
    positivity
  have hr : 0 < √(x * x + (r0 - y) ^ 2) := sqrt_pos.2 (by have := mul_self_nonneg x; linarith)
  unfold backRho
  rw [if_pos hn]
  exact div_neg_of_pos_of_neg hF (by linarith)

end

/-- C127 (wrong): the rows of form 4 are not checked. With at least as many columns as rows no row is looked at; with fewer columns than rows the loop
goes on for ever, past the last row. -/
theorem C127_rows_wrong (nlon nlat f : Nat) :
    (nlat ≤ nlon → rowCheck nlon nlat (f + 1) nlon 0 = ([], true)) ∧ (max nlon 1 < nlat → rowCheck nlon nlat f nlon 0 = (List.range f, false)) := by
  constructor
  · intro h
    simp [rowCheck, not_lt.2 h]
  · intro h
    have : ∀ f i j, i < nlat → rowCheck nlon nlat f i j = ((List.range f).map (j + ·), false) := by
      intro f
      induction f with
      | zero => intro i j _; rfl
      | succ f ih =>
        intro i j hi
        rw [rowCheck, if_pos hi]
        simp only [ih _ (j + 1) h]
        rw [List.range_succ_eq_map, List.map_cons, List.map_map]
        simp only [Nat.add_zero, Prod.mk.injEq, List.cons.injEq, true_and, and_true]
        apply List.map_congr_left
        intro a _
        show j + 1 + a = j + (a + 1)
        omega
    rw [this f nlon 0 (by omega)]
    simp

/-! ### Forms and tiles -/

/-- The names of the dimensions of each form. -/
def names : Form → List (String × String)
  | .v1 | .v5 => [("grid_xt", "grid_yt")]
  | .v2 => [("rlon", "rlat"), ("i", "j")]
  | .v3 => [("lon", "lat")]
  | .v4 => [("x", "y")]

/-- C127 (part): the size is taken from the dimensions of the form that is read, and there is such a form, unless the file has dimensions "lon" and "i"
(`C127_form_wrong`) or a dimension "grid_xt" without the variables "grid_lon" and "grid_xt". -/
theorem C127_form_partial (f : File) (d : String × String) (h : sizeDims f = some d) (h1 : ¬ (f.dim "lon" = true ∧ f.dim "i" = true))
    (h2 : f.dim "grid_xt" = true → f.var "grid_lon" = true ∨ f.var "grid_xt" = true) : ∃ k, form f = some k ∧ d ∈ names k ∧
    (k = .v1 → f.var "grid_lon" = true) ∧ (k = .v5 → f.var "grid_lon" = false ∧ f.var "grid_xt" = true) := by
  unfold sizeDims at h
  unfold form
  cases ha : f.dim "grid_xt" <;> cases hb : f.dim "rlon" <;> cases hc : f.dim "lon" <;> cases hd : f.dim "i" <;> cases he : f.dim "x" <;>
    cases hv : f.var "grid_lon" <;> cases hw : f.var "grid_xt" <;> simp [ha, hb, hc, hd, he, hv, hw] at h h1 h2 ⊢ <;> simp [names, ← h.2]

/-- C127 (wrong): a file with dimensions "lon", "lat" and "i" is sized by "lon" and "lat" but read as one with vertices; a file with dimensions "grid_xt"
and "grid_yt" only is accepted, and nothing is read. -/
theorem C127_form_wrong :
    (let f : File := ⟨fun d => d ∈ ["lon", "lat", "i", "j"], fun _ => false⟩
     sizeDims f = some ("lon", "lat") ∧ form f = some .v2) ∧
    (let f : File := ⟨fun d => d ∈ ["grid_xt", "grid_yt"], fun _ => false⟩
     sizeDims f = some ("grid_xt", "grid_yt") ∧ form f = none) := by decide

/-- C127: tiles that passed the check on the size are written from where they were put. -/
theorem C127_tiles (nx ny : Nat) (l : List (Nat × Nat)) (h : sameSize ((nx, ny) :: l) = true) (n : Nat) (hn : n ≤ l.length) :
    outStart ((nx, ny) :: l) n = tileStart nx ny n := by
  have hall : ∀ s ∈ (nx, ny) :: l, s = (nx, ny) := by
    intro s hs
    rcases List.mem_cons.1 hs with h' | h'
    · exact h'
    · unfold sameSize at h
      exact of_decide_eq_true (List.all_eq_true.1 h s h')
  unfold outStart tileStart
  have hmap : ((List.take n ((nx, ny) :: l)).map fun s => (s.1 + 1) * (s.2 + 1)) = List.replicate n ((nx + 1) * (ny + 1)) := by
    rw [List.eq_replicate_iff]
    refine ⟨by simp; omega, fun b hb => ?_⟩
    obtain ⟨s, hs, rfl⟩ := List.mem_map.1 hb
    rw [hall s (List.mem_of_mem_take hs)]
  rw [hmap, List.sum_replicate, smul_eq_mul, Nat.mul_assoc]

/-! ### Examples -/

/-- Two cells with vertices, in one row. -/
def gffV : Nat → ℚ := fun k => [0, 10, 11, 1, 10, 20, 22, 11].getD k 0

/-- `C127_vertices`: corners of two cells. -/
example : Vertices 2 1 (fun j i => if j = 0 then 10 * (i : ℚ) else 11 * (i : ℚ) + (if i = 0 then 1 else 0)) gffV := by
  intro j hj i hi
  have : j = 0 := by omega
  subst this
  rcases (by omega : i = 0 ∨ i = 1) with rfl | rfl <;> norm_num [gffV]

example : (corners2 2 1 gffV 3, corners2 2 1 gffV 4, corners2 2 1 gffV 5) = (some 1, some 11, some 22) := by decide +kernel

/-- `C127_bounds`, `C127_increasing`: two columns from 0 to 20. -/
example : Bounds 2 (fun i => 10 * (i : ℚ)) (fun k => ([0, 10, 10, 20] : List ℚ).getD k 0) ∧ Within 2 (fun i => 10 * (i : ℚ)) (fun i => 10 * i + 5) := by
  constructor
  · intro i hi
    rcases (by omega : i = 0 ∨ i = 1) with rfl | rfl <;> norm_num
  · intro i hi
    constructor <;> norm_num; linarith

/-- `C127_centres_partial`: four columns and three rows from north to south. -/
example :
    let xt : Nat → ℚ := fun i => 45 + 90 * i
    let yt : Nat → ℚ := fun j => 60 - 60 * j
    (∀ i, i + 1 < 4 → xt i < xt (i + 1)) ∧ xt 0 + 180 < xt 3 ∧ xt 3 < xt 0 + 360 ∧ 0 < yt 0 ∧ yt 0 < 90 ∧ -90 < yt 2 ∧ ∀ j, j + 1 < 3 → yt (j + 1) < yt j := by
  refine ⟨fun i _ => ?_, ?_, ?_, ?_, ?_, ?_, fun j _ => ?_⟩ <;> norm_num

/-- `C127_lambert`: the parallels of the program, 50 and 50.000001 degrees. -/
example : (0 : ℝ) < 50 * (Real.pi / 180) ∧ 50 * (Real.pi / 180) < 50.000001 * (Real.pi / 180) ∧ 50.000001 * (Real.pi / 180) < Real.pi / 2 := by
  have := Real.pi_pos
  refine ⟨by positivity, by nlinarith, by nlinarith⟩

/-- `C127_form_partial`: a file with bounds. -/
example : let f : File := ⟨fun d => d ∈ ["lon", "lat", "bnds"], fun _ => true⟩
    sizeDims f = some ("lon", "lat") ∧ form f = some .v3 := by decide

/-- `C127_tiles`: three tiles. -/
example : sameSize [(4, 6), (4, 6), (4, 6)] = true ∧ outStart [(4, 6), (4, 6), (4, 6)] 2 = 70 := by decide

end Verif.GridFromFile
