import Verif.Spec.TopogShapes
import Verif.Props.Decomposition
import Mathlib.Tactic.Linarith
import Mathlib.Tactic.Ring
import Mathlib.Tactic.Positivity
import Mathlib.Tactic.NormNum
/-
C140: shapes of make_topog that are given by formulas.
-/
namespace Verif
open TopogShapes Verif.Spec.TopogShapes Verif.Spec

/-! ### Bowl -/

private theorem bell {t : ℝ} (h : t ≠ 0) : 0 < 1 - Real.exp (-t ^ 2) ∧ 1 - Real.exp (-t ^ 2) < 1 := by
  have h1 : Real.exp (-t ^ 2) < 1 := by
    rw [Real.exp_lt_one_iff]
    have : 0 < t ^ 2 := by positivity
    linarith
  have h2 := Real.exp_pos (-t ^ 2)
  constructor <;> linarith

/-- Outside the bowl the depth is `min_depth`; inside it is larger and less than `min_depth + bottom_depth`. -/
theorem C140_bowl (o : Bowl) (g : Grid) (hb : 0 < o.bottom) (i j : Nat) :
    (o.minDepth < bowl o g i j ↔ (o.west < centre g.x i j ∧ centre g.x i j < o.east) ∧ o.south < centre g.y i j ∧ centre g.y i j < o.north) ∧
    o.minDepth ≤ bowl o g i j ∧ bowl o g i j < o.minDepth + o.bottom := by
  unfold bowl bowlAt
  generalize centre g.x i j = xx
  generalize centre g.y i j = yy
  by_cases h : xx ≤ o.west ∨ o.east ≤ xx ∨ yy ≤ o.south ∨ o.north ≤ yy
  · rw [if_pos h]
    refine ⟨⟨fun h1 => absurd h1 (lt_irrefl _), ?_⟩, le_refl _, by linarith⟩
    rintro ⟨⟨a, b⟩, c, d⟩
    rcases h with h | h | h | h <;> linarith
  · rw [if_neg h]
    push Not at h
    obtain ⟨h1, h2, h3, h4⟩ := h
    obtain ⟨a1, a2⟩ := bell (t := (yy - o.south) / 2) (by apply ne_of_gt; linarith)
    obtain ⟨b1, b2⟩ := bell (t := (yy - o.north) / 2) (by apply ne_of_lt; linarith)
    obtain ⟨c1, c2⟩ := bell (t := (xx - o.west) / 4) (by apply ne_of_gt; linarith)
    obtain ⟨d1, d2⟩ := bell (t := (xx - o.east) / 4) (by apply ne_of_lt; linarith)
    generalize 1 - Real.exp (-((yy - o.south) / 2) ^ 2) = a at *
    generalize 1 - Real.exp (-((yy - o.north) / 2) ^ 2) = b at *
    generalize 1 - Real.exp (-((xx - o.west) / 4) ^ 2) = c at *
    generalize 1 - Real.exp (-((xx - o.east) / 4) ^ 2) = d at *
    have p1 : 0 < o.bottom * a := mul_pos hb a1
    have p2 : 0 < o.bottom * a * b := mul_pos p1 b1
    have p3 : 0 < o.bottom * a * b * c := mul_pos p2 c1
    have p4 : 0 < o.bottom * a * b * c * d := mul_pos p3 d1
    have q1 : o.bottom * a < o.bottom := by nlinarith
    have q2 : o.bottom * a * b < o.bottom * a := by nlinarith
    have q3 : o.bottom * a * b * c < o.bottom * a * b := by nlinarith
    have q4 : o.bottom * a * b * c * d < o.bottom * a * b * c := by nlinarith
    exact ⟨⟨fun _ => ⟨⟨h1, h2⟩, h3, h4⟩, fun _ => by linarith⟩, by linarith, by linarith⟩

/-- `--bottom_depth` is called the maximum depth of the ocean; the middle of a large bowl is deeper. -/
theorem C140_bowl_depth_wrong : ∃ (o : Bowl) (g : Grid), 0 < o.minDepth ∧ o.minDepth < o.bottom ∧ o.bottom < bowl o g 0 0 := by
  refine ⟨⟨5000, 10, 200, -100, -200, 100⟩, ⟨fun _ _ => 0, fun _ _ => 0⟩, by norm_num, by norm_num, ?_⟩
  have hc : centre (fun _ _ => (0 : ℝ)) 0 0 = 0 := by unfold centre; norm_num
  have he : Real.exp (-(2500 : ℝ)) ≤ 1 / 2501 := by
    have h1 := Real.add_one_le_exp (2500 : ℝ)
    rw [Real.exp_neg, ← one_div]
    exact one_div_le_one_div_of_le (by norm_num) (by linarith)
  unfold bowl bowlAt
  simp only [hc]
  rw [if_neg (by norm_num)]
  have e1 : -(((0 : ℝ) - -100) / 2) ^ 2 = -2500 := by norm_num
  have e2 : -(((0 : ℝ) - 100) / 2) ^ 2 = -2500 := by norm_num
  have e3 : -(((0 : ℝ) - -200) / 4) ^ 2 = -2500 := by norm_num
  have e4 : -(((0 : ℝ) - 200) / 4) ^ 2 = -2500 := by norm_num
  rw [e1, e2, e3, e4]
  set E := 1 - Real.exp (-(2500 : ℝ)) with hE
  have hE1 : 2500 / 2501 ≤ E := by rw [hE]; linarith
  have h2 : (2500 / 2501 : ℝ) ^ 2 ≤ E ^ 2 := pow_le_pow_left₀ (by norm_num) hE1 2
  have h4 : ((2500 / 2501 : ℝ) ^ 2) ^ 2 ≤ (E ^ 2) ^ 2 := pow_le_pow_left₀ (by norm_num) h2 2
  have : (5000 : ℝ) * E * E * E * E = 5000 * (E ^ 2) ^ 2 := by ring
  rw [this]
  have h5 : (0.9984 : ℝ) ≤ ((2500 / 2501 : ℝ) ^ 2) ^ 2 := by norm_num
  linarith

/-! ### Gaussian bump -/

private theorem foldl_least (f : Nat × Nat → ℝ) : ∀ (l : List (Nat × Nat)) (m : ℝ), (∀ c ∈ l, m ≤ f c) → l.foldl (fun m c => min (f c) m) m = m
  | [], _, _ => rfl
  | c :: l, m, h => by
    rw [List.foldl_cons, min_eq_right (h c (by simp))]
    exact foldl_least f l m fun d hd => h d (by simp [hd])

private theorem foldl_largest (f : Nat × Nat → ℝ) : ∀ (l : List (Nat × Nat)) (m : ℝ), (m ≤ l.foldl (fun m c => max (f c) m) m) ∧
    (∀ c ∈ l, f c ≤ l.foldl (fun m c => max (f c) m) m) ∧ (∀ b, m ≤ b → (∀ c ∈ l, f c ≤ b) → l.foldl (fun m c => max (f c) m) m ≤ b)
  | [], _ => ⟨le_refl _, by simp, fun b h _ => h⟩
  | c :: l, m => by
    obtain ⟨h1, h2, h3⟩ := foldl_largest f l (max (f c) m)
    rw [List.foldl_cons]
    refine ⟨(le_max_right _ _).trans h1, ?_, ?_⟩
    · intro d hd
      rcases List.mem_cons.1 hd with rfl | hd
      · exact (le_max_left _ _).trans h1
      · exact h2 d hd
    · intro b hb hl
      exact h3 b (max_le (hl c (by simp)) hb) fun d hd => hl d (by simp [hd])

private theorem mem_inner {nx ny : Nat} {c : Nat × Nat} : c ∈ inner nx ny ↔ 1 ≤ c.1 ∧ c.1 < nx ∧ 1 ≤ c.2 ∧ c.2 < ny := by
  unfold inner
  simp only [List.mem_flatMap, List.mem_map, List.mem_range]
  constructor
  · rintro ⟨j, hj, i, hi, rfl⟩
    dsimp only
    omega
  · intro h
    exact ⟨c.2 - 1, by omega, c.1 - 1, by omega, Prod.ext (by dsimp only; omega) (by dsimp only; omega)⟩

private theorem least_eq {nx ny : Nat} {f : Nat → Nat → ℝ} (h : ∀ i < nx, ∀ j < ny, f 0 0 ≤ f i j) : least nx ny f = f 0 0 := by
  unfold least
  exact foldl_least (fun c => f c.1 c.2) _ _ fun c hc => by
    have := mem_inner.1 hc
    exact h c.1 (by omega) c.2 (by omega)

private theorem largest_eq {nx ny : Nat} (hx : 2 ≤ nx) (hy : 2 ≤ ny) {f : Nat → Nat → ℝ} {b : ℝ} (h : ∀ i < nx, ∀ j < ny, f i j ≤ b)
    (hb : f (nx - 1) (ny - 1) = b) : largest nx ny f = b := by
  unfold largest
  obtain ⟨_, h2, h3⟩ := foldl_largest (fun c => f c.1 c.2) (inner nx ny) (f 0 0)
  refine le_antisymm (h3 b (h 0 (by omega) 0 (by omega)) fun c hc => ?_) ?_
  · have := mem_inner.1 hc
    exact h c.1 (by omega) c.2 (by omega)
  · have := h2 (nx - 1, ny - 1) (mem_inner.2 ⟨by dsimp only; omega, by dsimp only; omega, by dsimp only; omega, by dsimp only; omega⟩)
    dsimp only at this
    rw [hb] at this
    exact this

/-- On a regular grid of at least two rows and columns the depth is that of the bump. -/
theorem C140_gaussian_partial (o : Gauss) {nx ny : Nat} {g : Grid} {X Y : Nat → ℝ} (hx : 2 ≤ nx) (hy : 2 ≤ ny) (hr : Regular nx ny g X Y) (hs : o.scale ≠ 0)
    {i j : Nat} (hi : i < nx) (hj : j < ny) : gaussian o nx ny g i j = bumpDepth o nx ny X Y i j := by
  have mX : ∀ i k, i ≤ k → k < nx → X i ≤ X k := by
    intro i k h hk
    rcases Nat.eq_or_lt_of_le h with rfl | h
    · exact le_refl _
    · exact le_of_lt (hr.incX i k h hk)
  have mY : ∀ i k, i ≤ k → k < ny → Y i ≤ Y k := by
    intro i k h hk
    rcases Nat.eq_or_lt_of_le h with rfl | h
    · exact le_refl _
    · exact le_of_lt (hr.incY i k h hk)
  have x00 := hr.lon 0 (by omega) 0 (by omega)
  have y00 := hr.lat 0 (by omega) 0 (by omega)
  have hxw : least nx ny (centre g.x) = X 0 := by
    rw [least_eq, x00]
    intro i hi j hj
    rw [x00, hr.lon i hi j hj]
    exact mX 0 i (by omega) hi
  have hys : least nx ny (centre g.y) = Y 0 := by
    rw [least_eq, y00]
    intro i hi j hj
    rw [y00, hr.lat i hi j hj]
    exact mY 0 j (by omega) hj
  have hxe : largest nx ny (centre g.x) = X (nx - 1) := largest_eq hx hy
    (fun i hi j hj => by rw [hr.lon i hi j hj]; exact mX i (nx - 1) (by omega) (by omega)) (hr.lon _ (by omega) _ (by omega))
  have hyn : largest nx ny (centre g.y) = Y (ny - 1) := largest_eq hx hy
    (fun i hi j hj => by rw [hr.lat i hi j hj]; exact mY j (ny - 1) (by omega) (by omega)) (hr.lat _ (by omega) _ (by omega))
  have hw : o.scale * min (X (nx - 1) - X 0) (Y (ny - 1) - Y 0) ≠ 0 := by
    refine mul_ne_zero hs (ne_of_gt (lt_min ?_ ?_))
    · have := hr.incX 0 (nx - 1) (by omega) (by omega); linarith
    · have := hr.incY 0 (ny - 1) (by omega) (by omega); linarith
  have ex : 1 / 2 * (X (nx - 1) + X 0) = (X 0 + X (nx - 1)) / 2 := by ring
  have ey : 1 / 2 * (Y (ny - 1) + Y 0) = (Y 0 + Y (ny - 1)) / 2 := by ring
  unfold gaussian gaussAt bump bumpDepth
  simp only [hxw, hys, hxe, hyn, hr.lon i hi j hj, hr.lat i hi j hj, if_neg hw, ex, ey]

/-- The depth is at least `min_depth`; with a bump upwards and slopes that rise it is not larger than `bottom_depth` or `min_depth`. -/
theorem C140_gaussian_range_partial (o : Gauss) {nx ny : Nat} {g : Grid} {X Y : Nat → ℝ} (hx : 2 ≤ nx) (hy : 2 ≤ ny) (hr : Regular nx ny g X Y) (hs : o.scale ≠ 0)
    (hb : 0 ≤ o.bottom) (ha : 0 ≤ o.amp) (h1 : 0 ≤ o.slopeX) (h2 : 0 ≤ o.slopeY) {i j : Nat} (hi : i < nx) (hj : j < ny) :
    o.minDepth ≤ gaussian o nx ny g i j ∧ gaussian o nx ny g i j ≤ max o.bottom o.minDepth := by
  rw [C140_gaussian_partial o hx hy hr hs hi hj]
  unfold bumpDepth
  refine ⟨le_max_right _ _, max_le_max ?_ (le_refl _)⟩
  have a1 : 0 ≤ o.amp * o.bottom := mul_nonneg ha hb
  have a2 := mul_nonneg a1 (le_of_lt (Real.exp_pos (-((X i - (X 0 + X (nx - 1)) / 2) ^ 2 + (Y j - (Y 0 + Y (ny - 1)) / 2) ^ 2) /
        (o.scale * min (X (nx - 1) - X 0) (Y (ny - 1) - Y 0)) ^ 2)))
  have a3 : 0 ≤ X i - X 0 := by
    rcases Nat.eq_zero_or_pos i with rfl | h
    · linarith
    · have := hr.incX 0 i h hi; linarith
  have a4 : 0 ≤ Y j - Y 0 := by
    rcases Nat.eq_zero_or_pos j with rfl | h
    · linarith
    · have := hr.incY 0 j h hj; linarith
  have a5 := mul_nonneg h1 a3
  have a6 := mul_nonneg h2 a4
  linarith

/-- In a grid of one column there is no bump: the width is 0, and the first cell gets `min_depth`. -/
theorem C140_gaussian_column_wrong (o : Gauss) {ny : Nat} {g : Grid} {X Y : Nat → ℝ} (hr : Regular 1 ny g X Y) (h1 : o.slopeX = 0) (h2 : o.slopeY = 0) (hy : 0 < ny) :
    gaussian o 1 ny g 0 0 = o.minDepth ∧ ∀ j, 0 < j → j < ny → gaussian o 1 ny g 0 j = max o.bottom o.minDepth := by
  have hin : inner 1 ny = [] := by
    unfold inner
    simp
  have x00 := hr.lon 0 (by omega) 0 hy
  have y00 := hr.lat 0 (by omega) 0 hy
  have ex : 1 / 2 * (X 0 + X 0) = X 0 := by ring
  have ey : 1 / 2 * (Y 0 + Y 0) = Y 0 := by ring
  constructor
  · unfold gaussian gaussAt bump least largest
    simp only [hin, List.foldl_nil, x00, y00, ex, ey]
    simp
  · intro j hj hjn
    have hne : (Y j - Y 0) ^ 2 ≠ 0 := by
      have := hr.incY 0 j hj hjn
      have : Y j - Y 0 ≠ 0 := by intro h; linarith
      positivity
    unfold gaussian gaussAt bump least largest
    simp only [hin, List.foldl_nil, x00, y00, ex, ey, hr.lon 0 (by omega) j hjn, hr.lat 0 (by omega) j hjn, h1, h2]
    simp [hne]

/-- The extent of the grid is taken without the first row and the first column except for the first cell: on a grid that leans to the west the bottom goes down to the west of it,
below `bottom_depth`. -/
theorem C140_gaussian_extent_wrong : ∃ (o : Gauss) (g : Grid), 0 ≤ o.amp ∧ 0 ≤ o.slopeX ∧ 0 ≤ o.slopeY ∧ o.minDepth < o.bottom ∧
    (∀ i j, centre g.x i j < centre g.x (i + 1) j ∧ centre g.y i j < centre g.y i (j + 1)) ∧ o.bottom < gaussian o 2 2 g 0 1 := by
  refine ⟨⟨5000, 10, 0, 1 / 4, 100, 0⟩, ⟨fun i j => 2 * (i : ℝ) - j, fun _ j => (j : ℝ)⟩, by norm_num, by norm_num, by norm_num, by norm_num, ?_, ?_⟩
  · intro i j
    constructor
    · unfold centre
      push_cast
      linarith
    · unfold centre
      push_cast
      linarith
  · have hin : inner 2 2 = [(1, 1)] := by decide
    unfold gaussian gaussAt least largest
    simp only [hin, List.foldl_cons, List.foldl_nil]
    have c1 : centre (fun i j : Nat => 2 * (i : ℝ) - j) 1 1 = 3 / 2 := by unfold centre; norm_num
    have c2 : centre (fun i j : Nat => 2 * (i : ℝ) - j) 0 0 = 1 / 2 := by unfold centre; norm_num
    have c3 : centre (fun i j : Nat => 2 * (i : ℝ) - j) 0 1 = -(1 / 2) := by unfold centre; norm_num
    have d1 : centre (fun _ j : Nat => (j : ℝ)) 1 1 = 3 / 2 := by unfold centre; norm_num
    have d2 : centre (fun _ j : Nat => (j : ℝ)) 0 0 = 1 / 2 := by unfold centre; norm_num
    have d3 : centre (fun _ j : Nat => (j : ℝ)) 0 1 = 3 / 2 := by unfold centre; norm_num
    rw [c1, c2, c3, d1, d2, d3]
    unfold bump
    norm_num

/-! ### Box channel -/

private theorem mem_from_to {a b k : Int} : k ∈ from_to a b ↔ a ≤ k ∧ k < b := by
  unfold from_to
  simp only [List.mem_map, List.mem_range]
  constructor
  · rintro ⟨n, hn, rfl⟩; omega
  · intro h
    exact ⟨(k - a).toNat, by omega, by omega⟩

private theorem decode {nx : Nat} {a b c d : Int} (hb : 0 ≤ b ∧ b < nx) (hd : 0 ≤ d ∧ d < nx) (h : a * nx + b = c * nx + d) : a = c ∧ b = d := by
  have e1 : (b + a * nx) % (nx : Int) = b := by rw [Int.add_mul_emod_self_right]; exact Int.emod_eq_of_lt hb.1 hb.2
  have e2 : (d + c * nx) % (nx : Int) = d := by rw [Int.add_mul_emod_self_right]; exact Int.emod_eq_of_lt hd.1 hd.2
  have hbd : b = d := by
    rw [← e1, ← e2]
    congr 1
    omega
  subst hbd
  refine ⟨?_, rfl⟩
  have : a * (nx : Int) = c * nx := by omega
  exact Int.eq_of_mul_eq_mul_right (by omega) this

/-- The elements set to 0 are those of the walls. -/
private theorem closed_iff {o : Channel} {nx ny : Nat} (hn : 0 < o.westNorth) (hn' : 0 < o.eastNorth)
    {i j : Nat} (hi : i < nx) (hj : j < ny) :
    (j : Int) * nx + i ∈ closed o nx ny ↔ wall nx ny o.westSouth o.westNorth o.eastSouth o.eastNorth i j := by
  have hi' : 0 ≤ (i : Int) ∧ (i : Int) < nx := ⟨by omega, by omega⟩
  unfold closed wall
  simp only [List.mem_append, List.mem_flatMap, List.mem_map, List.mem_range, List.mem_cons, List.not_mem_nil, or_false, mem_from_to]
  constructor
  · rintro ((((⟨i', hi1, h | h⟩ | ⟨j', hj', h⟩) | ⟨j', hj', h⟩) | ⟨j', hj', h⟩) | ⟨j', hj', h⟩)
    · have := decode (nx := nx) (a := j) (b := i) (c := 0) (d := i') hi' ⟨by omega, by omega⟩ (by omega)
      left; omega
    · have := decode (nx := nx) (a := j) (b := i) (c := (ny : Int) - 1) (d := i') hi' ⟨by omega, by omega⟩ h
      right; left; omega
    · have := decode (nx := nx) (a := j') (b := 0) (c := j) (d := i) ⟨by omega, by omega⟩ hi' (by omega)
      right; right; left; omega
    · have := decode (nx := nx) (a := j') (b := 0) (c := j) (d := i) ⟨by omega, by omega⟩ hi' (by omega)
      right; right; left; omega
    · have := decode (nx := nx) (a := j') (b := (nx : Int) - 1) (c := j) (d := i) ⟨by omega, by omega⟩ hi' (by omega)
      right; right; right; omega
    · have := decode (nx := nx) (a := j') (b := (nx : Int) - 1) (c := j) (d := i) ⟨by omega, by omega⟩ hi' (by omega)
      right; right; right; omega
  · rintro (h | h | ⟨h, h'⟩ | ⟨h, h'⟩)
    · left; left; left; left
      exact ⟨i, hi, .inl (by rw [h]; simp)⟩
    · left; left; left; left
      refine ⟨i, hi, .inr ?_⟩
      have : (j : Int) = (ny : Int) - 1 := by omega
      rw [this]
    · by_cases hw : (j : Int) < o.westSouth
      · left; left; left; right
        exact ⟨j, ⟨by omega, hw⟩, by rw [h]; simp⟩
      · left; left; right
        exact ⟨j, ⟨by omega, by omega⟩, by rw [h]; simp⟩
    · have hi2 : (i : Int) = (nx : Int) - 1 := by omega
      by_cases hw : (j : Int) < o.eastSouth
      · left; right
        exact ⟨j, ⟨by omega, hw⟩, by rw [hi2]; ring⟩
      · right
        exact ⟨j, ⟨by omega, by omega⟩, by rw [hi2]; ring⟩

/-- With openings that begin inside the grid: walls all round except for the openings, flat bottom elsewhere. -/
theorem C140_channel_partial (o : Channel) {nx ny : Nat} (hx : 1 ≤ nx) (hy : 1 ≤ ny) (h1 : 0 < o.westSouth) (h2 : o.westSouth ≤ o.westNorth) (h3 : 0 < o.eastSouth)
    (h4 : o.eastSouth ≤ o.eastNorth) (h5 : o.westSouth ≤ ny) (h6 : o.eastSouth ≤ ny) :
    ∃ d, channel o nx ny = .ok d ∧ ∀ i < nx, ∀ j < ny,
      (wall nx ny o.westSouth o.westNorth o.eastSouth o.eastNorth i j → d i j = 0) ∧ (¬ wall nx ny o.westSouth o.westNorth o.eastSouth o.eastNorth i j → d i j = o.basin) := by
  have range : ∀ j b : Int, 0 ≤ j → j < ny → 0 ≤ b → b < nx → 0 ≤ j * nx + b ∧ j * nx + b < (nx : Int) * ny := by
    intro j b hj hj' hb hb'
    have a1 : 0 ≤ j * nx := mul_nonneg hj (by omega)
    have a2 : (j + 1) * nx ≤ (ny : Int) * nx := mul_le_mul_of_nonneg_right (by omega) (by omega)
    have a3 : (j + 1) * (nx : Int) = j * nx + nx := by ring
    have a4 : (ny : Int) * nx = nx * ny := by ring
    constructor <;> omega
  have hany : (closed o nx ny).any (fun k => decide (k < 0) || decide ((nx : Int) * ny ≤ k)) = false := by
    rw [List.any_eq_false]
    intro k hk
    have : 0 ≤ k ∧ k < (nx : Int) * ny := by
      unfold closed at hk
      simp only [List.mem_append, List.mem_flatMap, List.mem_map, List.mem_range, List.mem_cons, List.not_mem_nil, or_false, mem_from_to] at hk
      rcases hk with ((((⟨i', hi1, rfl | rfl⟩ | ⟨j', hj', rfl⟩) | ⟨j', hj', rfl⟩) | ⟨j', hj', rfl⟩) | ⟨j', hj', rfl⟩)
      · have := range 0 i' (by omega) (by omega) (by omega) (by omega); omega
      · exact range _ _ (by omega) (by omega) (by omega) (by omega)
      · have := range j' 0 (by omega) (by omega) (by omega) (by omega); omega
      · have := range j' 0 (by omega) (by omega) (by omega) (by omega); omega
      · have := range j' ((nx : Int) - 1) (by omega) (by omega) (by omega) (by omega); omega
      · have := range j' ((nx : Int) - 1) (by omega) (by omega) (by omega) (by omega); omega
    simp only [Bool.or_eq_true, decide_eq_true_eq]
    omega
  unfold channel
  rw [if_neg (by omega), if_neg (by omega), hany]
  simp only [Bool.false_eq_true, if_false]
  refine ⟨_, rfl, ?_⟩
  intro i hi j hj
  have hiff := closed_iff (o := o) (ny := ny) (by omega) (by omega) hi hj
  exact ⟨fun h => if_pos (hiff.2 h), fun h => if_neg fun h' => h (hiff.1 h')⟩

/-- The documentation opens the points `[jwest_south:jwest_north]`, indices counted from 1. The first of them is closed. -/
theorem C140_channel_first_wrong (o : Channel) {nx ny : Nat} (hx : 1 ≤ nx) (h1 : 2 ≤ o.westSouth) (h2 : o.westSouth ≤ o.westNorth) (h3 : 0 < o.eastSouth)
    (h4 : o.eastSouth ≤ o.eastNorth) (h5 : o.westSouth < ny) (h6 : o.eastSouth ≤ ny) :
    ∃ d, channel o nx ny = .ok d ∧ d 0 (o.westSouth.toNat - 1) = 0 := by
  obtain ⟨d, hd, h⟩ := C140_channel_partial o hx (show 1 ≤ ny by omega) (by omega) h2 h3 h4 (by omega) h6
  refine ⟨d, hd, (h 0 hx _ (by omega)).1 (.inr (.inr (.inl ⟨rfl, ?_⟩)))⟩
  omega

/-- An opening that begins beyond the grid is not refused: 0 is written outside the array. -/
theorem C140_channel_beyond_wrong (o : Channel) {nx ny : Nat} (hx : 1 ≤ nx) (h2 : o.westSouth ≤ o.westNorth) (h3 : 0 < o.eastSouth)
    (h4 : o.eastSouth ≤ o.eastNorth) (h5 : (ny : Int) < o.westSouth) : channel o nx ny = .error .undefined := by
  unfold channel
  rw [if_neg (by omega), if_neg (by omega), if_pos]
  rw [List.any_eq_true]
  refine ⟨(ny : Int) * nx, ?_, ?_⟩
  · unfold closed
    simp only [List.mem_append, List.mem_map, mem_from_to]
    left; left; left; right
    exact ⟨ny, ⟨by omega, h5⟩, rfl⟩
  · simp only [Bool.or_eq_true, decide_eq_true_eq]
    right
    rw [mul_comm]

/-- Values that are not positive or in the wrong order are refused. -/
theorem C140_channel_refused (o : Channel) (nx ny : Nat)
    (h : o.westSouth ≤ 0 ∨ o.westNorth ≤ 0 ∨ o.eastSouth ≤ 0 ∨ o.eastNorth ≤ 0 ∨ o.westNorth < o.westSouth ∨ o.eastNorth < o.eastSouth) :
    channel o nx ny = .error .refused := by
  unfold channel
  by_cases h1 : o.westSouth ≤ 0 ∨ o.westNorth ≤ 0 ∨ o.eastSouth ≤ 0 ∨ o.eastNorth ≤ 0
  · rw [if_pos h1]
  · rw [if_neg h1, if_pos (by omega)]

/-! ### Processes -/

private theorem part_smaller {npts ndivs : Nat} (h1 : 2 ≤ ndivs) {ext : List (Int × Int)} (he : mppComputeExtent npts ndivs = .ok ext) {x : Int × Int} (hx : x ∈ ext) :
    points x.1 x.2 < npts := by
  have h2 : ndivs ≤ npts := by
    by_contra h
    rw [C01_too_many_divisions_refused npts ndivs (by omega)] at he
    cases he
  obtain ⟨ext', he', hl, hp⟩ := C01_extents_partition npts ndivs (by omega) h2
  rw [he] at he'
  obtain rfl : ext = ext' := by injection he'
  have gen : ∀ (l : List (Int × Int)) (lo hi : Int), OrderedPartition lo hi l → ∀ x ∈ l, 1 ≤ size x ∧ lo ≤ x.1 ∧ x.2 ≤ hi ∧ size x + (l.length - 1 : Nat) ≤ hi - lo + 1 := by
    intro l
    induction l with
    | nil => intro lo hi _ x hx; cases hx
    | cons a l ih =>
      obtain ⟨b, e⟩ := a
      rintro lo hi ⟨hb, hbe, hp⟩ x hx
      have lenle : ∀ (l : List (Int × Int)) (lo hi : Int), OrderedPartition lo hi l → (l.length : Int) ≤ hi - lo + 1 := by
        intro l
        induction l with
        | nil => intro lo hi h; simp only [OrderedPartition] at h; simp; omega
        | cons a l ih =>
          obtain ⟨b, e⟩ := a
          rintro lo hi ⟨hb, hbe, hp⟩
          have := ih _ _ hp
          simp only [List.length_cons]
          push_cast
          omega
      rcases List.mem_cons.1 hx with rfl | hx
      · have := lenle _ _ _ hp
        simp only [size, List.length_cons]
        omega
      · obtain ⟨i1, i2, i3, i4⟩ := ih _ _ hp x hx
        have : 1 ≤ l.length := by
          cases l with
          | nil => cases hx
          | cons _ _ => simp
        simp only [List.length_cons]
        refine ⟨i1, by omega, i3, by omega⟩
  obtain ⟨g1, _, _, g4⟩ := gen ext 0 (npts - 1) hp x hx
  unfold points
  unfold size at g1 g4
  omega

private theorem part_le {npts ndivs : Nat} {ext : List (Int × Int)} (h1 : 1 ≤ ndivs) (he : mppComputeExtent npts ndivs = .ok ext) {x : Int × Int} (hx : x ∈ ext) :
    points x.1 x.2 ≤ npts := by
  rcases Nat.lt_or_ge 1 ndivs with h | h
  · exact le_of_lt (part_smaller h he hx)
  · obtain rfl : ndivs = 1 := by omega
    have h2 : 1 ≤ npts := by
      by_contra h
      rw [C01_too_many_divisions_refused npts 1 (by omega)] at he
      cases he
    obtain ⟨ext', he', hl, hp⟩ := C01_extents_partition npts 1 (by omega) h2
    rw [he] at he'
    obtain rfl : ext = ext' := by injection he'
    obtain ⟨a, rfl⟩ := List.length_eq_one_iff.1 hl
    obtain rfl := List.mem_singleton.1 hx
    obtain ⟨b, e⟩ := x
    obtain ⟨h3, h4, h5⟩ := hp
    simp only [OrderedPartition] at h5
    unfold points
    dsimp only
    omega

/-- With one process the routine has arrays for the whole grid. -/
theorem C140_one_process (s : Shape) {nx ny : Nat} (hx : 1 ≤ nx) (hy : 1 ≤ ny) (g : Grid) :
    ∃ d, defineDomain2D nx ny 1 1 0 0 = .ok d ∧ d.pes.length = 1 ∧ ∀ pe ∈ d.pes, call s nx ny g pe = whole s nx ny g := by
  obtain ⟨xs, hxs, lx, px⟩ := C01_extents_partition nx 1 (by omega) hx
  obtain ⟨ys, hys, ly, py⟩ := C01_extents_partition ny 1 (by omega) hy
  obtain ⟨a, rfl⟩ := List.length_eq_one_iff.1 lx
  obtain ⟨b, rfl⟩ := List.length_eq_one_iff.1 ly
  unfold defineDomain2D
  rw [hxs, hys]
  refine ⟨_, rfl, rfl, ?_⟩
  intro pe hpe
  simp only [List.flatMap_cons, List.flatMap_nil, List.map_cons, List.map_nil, List.append_nil, List.mem_singleton] at hpe
  subst hpe
  obtain ⟨a1, a2⟩ := a
  obtain ⟨b1, b2⟩ := b
  obtain ⟨p1, p2, p3⟩ := px
  obtain ⟨q1, q2, q3⟩ := py
  simp only [OrderedPartition] at p3 q3
  unfold call
  have e1 : points (a1 + 0) (a2 + 0) = nx := by unfold points; omega
  have e2 : points (b1 + 0) (b2 + 0) = ny := by unfold points; omega
  dsimp only
  rw [e1, e2, if_neg (by omega)]

/-- With several processes every one of them writes outside its array. -/
theorem C140_processes_wrong (s : Shape) {nx ny l0 l1 : Nat} (hl0 : 1 ≤ l0) (hl1 : 1 ≤ l1) (hl : 2 ≤ l0 * l1) {d : Domain2D} (g : Grid)
    (hd : defineDomain2D nx ny l0 l1 0 0 = .ok d) : ∀ pe ∈ d.pes, call s nx ny g pe = .error .undefined := by
  unfold defineDomain2D at hd
  cases hx : mppComputeExtent nx l0 with
  | error e => simp [hx] at hd
  | ok xs =>
    cases hy : mppComputeExtent ny l1 with
    | error e => simp [hx, hy] at hd
    | ok ys =>
      rw [hx, hy] at hd
      simp only [Except.ok.injEq] at hd
      subst hd
      intro pe hpe
      simp only [List.mem_flatMap, List.mem_map, Int.add_zero] at hpe
      obtain ⟨y, hy', x, hx', rfl⟩ := hpe
      unfold call
      dsimp only
      rw [if_pos]
      have a1 := part_le hl0 hx hx'
      have a2 := part_le hl1 hy hy'
      by_cases h : 2 ≤ l0
      · have a3 := part_smaller h hx hx'
        have a4 : 1 ≤ ny := by
          by_contra h0
          rw [C01_too_many_divisions_refused ny l1 (by omega)] at hy
          cases hy
        calc points x.1 x.2 * points y.1 y.2 ≤ points x.1 x.2 * ny := Nat.mul_le_mul_left _ a2
          _ < nx * ny := Nat.mul_lt_mul_of_pos_right a3 a4
      · obtain rfl : l0 = 1 := by omega
        have a3 := part_smaller (by omega) hy hy'
        have a4 : 1 ≤ nx := by
          by_contra h0
          rw [C01_too_many_divisions_refused nx 1 (by omega)] at hx
          cases hx
        calc points x.1 x.2 * points y.1 y.2 ≤ nx * points y.1 y.2 := Nat.mul_le_mul_right _ a1
          _ < nx * ny := Nat.mul_lt_mul_of_pos_left a3 a4

/-! ### Cases -/

/-- A grid of 3 by 4 cells of one degree. -/
noncomputable def tsGrid : Grid := ⟨fun i _ => (i : ℝ), fun _ j => 60 + (j : ℝ)⟩

theorem C140_example_regular : Regular 3 4 tsGrid (fun i => (i : ℝ) + 1 / 2) (fun j => 60 + (j : ℝ) + 1 / 2) := by
  constructor
  · intro i _ j _; unfold centre tsGrid; push_cast; ring
  · intro i _ j _; unfold centre tsGrid; push_cast; ring
  · intro i k h _
    have : (i : ℝ) < k := by exact_mod_cast h
    linarith
  · intro i k h _
    have : (i : ℝ) < k := by exact_mod_cast h
    linarith

/-- The documented opening `20:40` would be the rows 19 to 39 counted from 0; they are 20 to 39. -/
example : wall 50 100 20 40 30 60 0 19 ∧ ¬ wall 50 100 20 40 30 60 0 20 ∧ ¬ wall 50 100 20 40 30 60 0 39 ∧ wall 50 100 20 40 30 60 0 40 ∧
    ¬ wall 50 100 20 40 30 60 49 30 ∧ ¬ wall 50 100 20 40 30 60 25 50 := by
  unfold wall
  omega

end Verif
