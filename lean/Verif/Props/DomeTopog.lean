import Verif.Model.DomeTopog
import Mathlib.Tactic.Linarith
import Mathlib.Tactic.Ring
import Mathlib.Tactic.NormNum
import Mathlib.Tactic.FieldSimp
/-
C142: the dome topography of make_topog.
-/
namespace Verif
namespace Spec.DomeTopog

/-- The centres of the cells, which are the points of the supergrid with odd indices, lie on meridians `X 0 < X 1 < ..` and circles of latitude `Y 0 < Y 1 < ..`. -/
structure Regular (nx ny : Nat) (sx sy : Nat → Nat → ℝ) (X Y : Nat → ℝ) : Prop where
  lon : ∀ i < nx, ∀ j < ny, sx (2 * i + 1) (2 * j + 1) = X i
  lat : ∀ i < nx, ∀ j < ny, sy (2 * i + 1) (2 * j + 1) = Y j
  incX : ∀ i k, i < k → k < nx → X i < X k
  incY : ∀ j k, j < k → k < ny → Y j < Y k

/-- `k` is the last of `n` points below `v`, and `v` is not beyond the points. -/
def Before (a : Nat → ℝ) (n : Nat) (v : ℝ) (k : Nat) : Prop := k + 1 < n ∧ a k < v ∧ v ≤ a (k + 1)

end Spec.DomeTopog

open DomeTopog Spec.DomeTopog

private theorem snap_aux {a : Nat → ℝ} {n : Nat} (h : ∀ i k, i < k → k < n → a i < a k) (v : ℝ) : ∀ m, m < n →
    ((v ≤ a 0 ∨ a m < v) → (List.range m).foldl (fun v i => if a i ≤ v ∧ v ≤ a (i + 1) then a i else v) v = v) ∧
    (∀ k < m, a k < v → v ≤ a (k + 1) → (List.range m).foldl (fun v i => if a i ≤ v ∧ v ≤ a (i + 1) then a i else v) v = a k) := by
  intro m
  induction m with
  | zero =>
    intro _
    exact ⟨fun _ => rfl, fun k hk => absurd hk (Nat.not_lt_zero k)⟩
  | succ m ih =>
    intro hm
    obtain ⟨i1, i2⟩ := ih (by omega)
    have hlt := h m (m + 1) (by omega) hm
    simp only [List.range_succ, List.foldl_append, List.foldl_cons, List.foldl_nil]
    constructor
    · rintro (hv | hv)
      · rw [i1 (.inl hv)]
        split_ifs with hc
        · rcases Nat.eq_zero_or_pos m with h0 | h0
          · subst h0
            exact le_antisymm hc.1 hv
          · have := h 0 m h0 (by omega)
            linarith [hc.1]
        · rfl
      · rw [i1 (.inr (by linarith)), if_neg (fun hc => by linarith [hc.2])]
    · intro k hk h1 h2
      rcases Nat.lt_or_ge k m with hkm | hkm
      · rw [i2 k hkm h1 h2]
        have := h k m hkm (by omega)
        rw [if_neg (fun hc => by linarith [hc.1])]
      · have : k = m := by omega
        subst this
        rw [i1 (.inr h1), if_pos ⟨le_of_lt h1, h2⟩]

/-- Looking up an edge in the grid: the last centre below it; an edge outside the grid stays. -/
theorem C142_snap {a : Nat → ℝ} {n : Nat} (h : ∀ i k, i < k → k < n → a i < a k) (hn : 1 ≤ n) (v : ℝ) :
    (∀ k, Before a n v k → snap a n v = a k) ∧ (v ≤ a 0 ∨ a (n - 1) < v → snap a n v = v) := by
  obtain ⟨h1, h2⟩ := snap_aux h v (n - 1) (by omega)
  exact ⟨fun k hk => h2 k (by have := hk.1; omega) hk.2.1 hk.2.2, h1⟩

/-- An edge on the centre of a cell, other than the first one, goes to the centre before. -/
theorem C142_snap_wrong {a : Nat → ℝ} {n : Nat} (h : ∀ i k, i < k → k < n → a i < a k) (k : Nat) (hk : k + 1 < n) : snap a n (a (k + 1)) = a k ∧ a k ≠ a (k + 1) :=
  ⟨(C142_snap h (by omega) _).1 k ⟨hk, h k (k + 1) (by omega) hk, le_refl _⟩, ne_of_lt (h k (k + 1) (by omega) hk)⟩

private theorem snap_congr {a b : Nat → ℝ} {n : Nat} (h : ∀ i < n, a i = b i) (v : ℝ) : snap a n v = snap b n v := by
  unfold snap
  have : ∀ m, m < n ∨ m = 0 → (List.range m).foldl (fun v i => if a i ≤ v ∧ v ≤ a (i + 1) then a i else v) v =
      (List.range m).foldl (fun v i => if b i ≤ v ∧ v ≤ b (i + 1) then b i else v) v := by
    intro m
    induction m with
    | zero => intro _; rfl
    | succ m ih =>
      intro hm
      simp only [List.range_succ, List.foldl_append, List.foldl_cons, List.foldl_nil]
      rw [ih (by omega), h m (by omega), h (m + 1) (by omega)]
  exact this (n - 1) (by omega)

private theorem north_le {nx ny : Nat} {y : Cells} : ∀ (l : List Nat) (m : ℝ), (m ≤ l.foldl (fun m k => max (y (k % nx) (k / nx)) m) m) ∧
    ∀ k ∈ l, y (k % nx) (k / nx) ≤ l.foldl (fun m k => max (y (k % nx) (k / nx)) m) m
  | [], m => ⟨le_refl _, fun _ h => absurd h List.not_mem_nil⟩
  | k :: l, m => by
    obtain ⟨h1, h2⟩ := north_le (nx := nx) (ny := ny) (y := y) l (max (y (k % nx) (k / nx)) m)
    rw [List.foldl_cons]
    refine ⟨le_trans (le_max_right _ _) h1, ?_⟩
    intro k' hk'
    rcases List.mem_cons.mp hk' with he | he
    · subst he
      exact le_trans (le_max_left _ _) h1
    · exact h2 k' he

private theorem le_north {nx ny : Nat} {y : Cells} {i j : Nat} (hi : i < nx) (hj : j < ny) : y i j ≤ north nx ny y := by
  have hk : j * nx + i < nx * ny := by
    have : (j + 1) * nx ≤ ny * nx := Nat.mul_le_mul_right _ hj
    have e : (j + 1) * nx = j * nx + nx := Nat.succ_mul _ _
    rw [Nat.mul_comm nx ny]
    omega
  have := (north_le (nx := nx) (ny := ny) (y := y) (List.range (nx * ny)) (y 0 0)).2 (j * nx + i) (List.mem_range.mpr hk)
  have e1 : (j * nx + i) % nx = i := by
    rw [Nat.add_comm, Nat.add_mul_mod_self_right, Nat.mod_eq_of_lt hi]
  have e2 : (j * nx + i) / nx = j := by
    rw [Nat.add_comm, Nat.add_mul_div_right _ _ (by omega), Nat.div_eq_of_lt hi, Nat.zero_add]
  rwa [e1, e2] at this

/-- The depth on a regular grid whose embayment is in the grid: `kw`, `ke` and `ks` are the last centres before the edges of the embayment, and `foot` is the foot of the slope. -/
theorem C142_depth {o : Dome} {nx ny : Nat} {sx sy : Cells} {X Y : Nat → ℝ} (g : Regular nx ny sx sy X Y) {kw ke ks : Nat} (hw : Before X nx o.west kw)
    (he : Before X nx o.east ke) (hs : Before Y ny o.south ks) :
    ∃ foot : ℝ, (∀ k, Before Y ny (Y ks - (o.bottom - o.depth) / (o.slope * 111324)) k → foot = Y k) ∧
      (Y ks - (o.bottom - o.depth) / (o.slope * 111324) ≤ Y 0 → foot = Y ks - (o.bottom - o.depth) / (o.slope * 111324)) ∧
      ∀ i < nx, ∀ j < ny, domeOfSuper o nx ny sx sy i j =
        if ks ≤ j then (if kw ≤ i ∧ i ≤ ke then o.depth else 0)
        else if foot ≤ Y j then o.bottom - o.slope * 111324 * (Y j - foot) else o.bottom := by
  have hnx : 0 < nx := by have := hw.1; omega
  have hny : 0 < ny := by have := hs.1; omega
  have ex : ∀ v, snap (fun i => centres sx i 0) nx v = snap X nx v := fun v => snap_congr (fun i hi => g.lon i hi 0 hny) v
  have ey : ∀ v, snap (fun j => centres sy 0 j) ny v = snap Y ny v := fun v => snap_congr (fun j hj => g.lat 0 hnx j hj) v
  have sw := (C142_snap g.incX hnx o.west).1 kw hw
  have se := (C142_snap g.incX hnx o.east).1 ke he
  have ss := (C142_snap g.incY hny o.south).1 ks hs
  refine ⟨snap Y ny (Y ks - (o.bottom - o.depth) / (o.slope * 111324)), fun k hk => (C142_snap g.incY hny _).1 k hk, fun h => (C142_snap g.incY hny _).2 (.inl h), ?_⟩
  intro i hi j hj
  have cx : centres sx i j = X i := g.lon i hi j hj
  have cy : centres sy i j = Y j := g.lat i hi j hj
  have hn : Y j ≤ north nx ny (centres sy) := by
    rw [← cy]
    exact le_north hi hj
  have iffX : ∀ {p q : Nat}, p < nx → q < nx → (X p ≤ X q ↔ p ≤ q) := by
    intro p q hp hq
    constructor
    · intro h
      by_contra hc
      exact absurd (g.incX q p (by omega) hp) (not_lt.mpr h)
    · intro h
      rcases Nat.lt_or_ge p q with hl | hl
      · exact le_of_lt (g.incX p q hl hq)
      · have : p = q := by omega
        rw [this]
  have iffY : ∀ {p q : Nat}, p < ny → q < ny → (Y p ≤ Y q ↔ p ≤ q) := by
    intro p q hp hq
    constructor
    · intro h
      by_contra hc
      exact absurd (g.incY q p (by omega) hp) (not_lt.mpr h)
    · intro h
      rcases Nat.lt_or_ge p q with hl | hl
      · exact le_of_lt (g.incY p q hl hq)
      · have : p = q := by omega
        rw [this]
  have hkw : kw < nx := by have := hw.1; omega
  have hke : ke < nx := by have := he.1; omega
  have hks : ks < ny := by have := hs.1; omega
  simp only [domeOfSuper, dome, edges, embayment, shelf, sloping, flat, ex, ey, sw, se, ss, cx, cy, hn, and_true, iffX hkw hi, iffX hi hke, iffY hks hj, deg2metre]
  by_cases hj2 : ks ≤ j
  · simp only [hj2, and_true, if_true]
  · have hlt : Y j < Y ks := not_le.mp fun h => hj2 ((iffY hks hj).mp h)
    simp only [hj2, and_false, if_false, hlt, and_true]

/-- With rows at the same distance: the shelf is land, and every other cell has a depth between that of the embayment and that of the bottom. -/
theorem C142_range_partial {o : Dome} {nx ny : Nat} {sx sy : Cells} {X Y : Nat → ℝ} (g : Regular nx ny sx sy X Y) {kw ke ks : Nat} (hw : Before X nx o.west kw)
    (he : Before X nx o.east ke) (hs : Before Y ny o.south ks) {h : ℝ} (hu : ∀ j, j + 1 < ny → Y (j + 1) = Y j + h) (hpos : 0 < o.slope) (hd : o.depth ≤ o.bottom) :
    ∀ i < nx, ∀ j < ny, (ks ≤ j ∧ ¬(kw ≤ i ∧ i ≤ ke) → domeOfSuper o nx ny sx sy i j = 0) ∧
      (¬(ks ≤ j ∧ ¬(kw ≤ i ∧ i ≤ ke)) → o.depth ≤ domeOfSuper o nx ny sx sy i j ∧ domeOfSuper o nx ny sx sy i j ≤ o.bottom) := by
  obtain ⟨foot, f1, f2, f3⟩ := C142_depth g hw he hs
  intro i hi j hj
  rw [f3 i hi j hj]
  have hm : 0 < o.slope * 111324 := by positivity
  set q := (o.bottom - o.depth) / (o.slope * 111324) with hq
  have hq0 : 0 ≤ q := div_nonneg (by linarith) (le_of_lt hm)
  have hqe : o.slope * 111324 * q = o.bottom - o.depth := by
    rw [hq]
    field_simp
  have hks : ks < ny := by have := hs.1; omega
  have hh : 0 < h := by
    have a := hu ks hs.1
    have b := g.incY ks (ks + 1) (by omega) hs.1
    linarith
  have hfoot : Y ks - q - h ≤ foot := by
    rcases le_or_gt (Y ks - q) (Y 0) with hc | hc
    · rw [f2 hc]
      linarith
    · have : ∃ k, Before Y ny (Y ks - q) k := by
        by_contra hno
        have all : ∀ k, k ≤ ks → Y k < Y ks - q := by
          intro k
          induction k with
          | zero => intro _; exact hc
          | succ k ih =>
            intro hk
            by_contra hn
            exact hno ⟨k, by omega, ih (by omega), not_lt.mp hn⟩
        have := all ks (le_refl _)
        linarith
      obtain ⟨k, hk⟩ := this
      rw [f1 k hk]
      have := hu k hk.1
      have := hk.2.2
      linarith
  constructor
  · rintro ⟨h1, h2⟩
    rw [if_pos h1, if_neg h2]
  · intro hns
    by_cases hj2 : ks ≤ j
    · rw [if_pos hj2]
      by_cases hi2 : kw ≤ i ∧ i ≤ ke
      · rw [if_pos hi2]
        exact ⟨le_refl _, hd⟩
      · exact absurd ⟨hj2, hi2⟩ hns
    · rw [if_neg hj2]
      split_ifs with hf
      · have hY : Y j ≤ Y ks - h := by
          have e := hu j (by omega)
          rcases Nat.lt_or_ge (j + 1) ks with hl | hl
          · have := g.incY (j + 1) ks hl hks
            linarith
          · have : j + 1 = ks := by omega
            rw [this] at e
            linarith
        constructor
        · have : Y j - foot ≤ q := by linarith
          have := mul_le_mul_of_nonneg_left this (le_of_lt hm)
          linarith
        · have := mul_nonneg (le_of_lt hm) (sub_nonneg.mpr hf)
          linarith
      · exact ⟨hd, le_refl _⟩

/-! ### Rows at different distances -/

/-- Latitudes 0, 20, 21, 22. -/
noncomputable def domeLat (j : Nat) : ℝ := if j = 0 then 0 else 19 + (j : ℝ)

/-- The default options, with an embayment at longitudes 0.5 to 2.5 and from latitude 21.5 on. -/
noncomputable def domeOpts : Dome := ⟨1 / 100, 3600, 1 / 2, 5 / 2, 43 / 2, 600⟩

private theorem domeGrid : Regular 4 4 (fun a _ => ((a / 2 : Nat) : ℝ)) (fun _ b => domeLat (b / 2)) (fun i => (i : ℝ)) domeLat where
  lon := by
    intro i _ j _
    have : (2 * i + 1) / 2 = i := by omega
    simp only [this]
  lat := by
    intro i _ j _
    have : (2 * j + 1) / 2 = j := by omega
    simp only [this]
  incX := by
    intro i k h _
    exact_mod_cast h
  incY := by
    intro j k h _
    unfold domeLat
    have hk : ¬ k = 0 := by omega
    have : (j : ℝ) < k := by exact_mod_cast h
    split_ifs <;> linarith

/-- The foot of the slope goes to the centre before, which may be far to the south: with rows at 0, 20, 21, 22 and the default options the bottom rises from the first row on and is
above the surface of the sea in the second one. -/
theorem C142_negative_wrong : Regular 4 4 (fun a _ => ((a / 2 : Nat) : ℝ)) (fun _ b => domeLat (b / 2)) (fun i => (i : ℝ)) domeLat ∧
    ∀ i < 4, domeOfSuper domeOpts 4 4 (fun a _ => ((a / 2 : Nat) : ℝ)) (fun _ b => domeLat (b / 2)) i 1 < 0 := by
  refine ⟨domeGrid, ?_⟩
  intro i hi
  obtain ⟨foot, f1, _, f3⟩ := C142_depth (o := domeOpts) domeGrid (kw := 0) (ke := 2) (ks := 2) ⟨by omega, by norm_num [domeOpts], by norm_num [domeOpts]⟩
    ⟨by omega, by norm_num [domeOpts], by norm_num [domeOpts]⟩ ⟨by omega, by norm_num [domeOpts, domeLat], by norm_num [domeOpts, domeLat]⟩
  have h0 : foot = 0 := by
    refine (f1 0 ⟨by omega, by norm_num [domeOpts, domeLat], by norm_num [domeOpts, domeLat]⟩).trans ?_
    norm_num [domeLat]
  rw [f3 i hi 1 (by omega), h0]
  norm_num [domeOpts, domeLat]

/-- Rows and columns at 0, 1, .., 3 and an embayment in the grid. -/
theorem C142_example : Regular 4 4 (fun a _ => ((a / 2 : Nat) : ℝ)) (fun _ b => ((b / 2 : Nat) : ℝ)) (fun i => (i : ℝ)) (fun j => (j : ℝ)) ∧
    Before (fun i : Nat => (i : ℝ)) 4 (1 / 2) 0 ∧ Before (fun i : Nat => (i : ℝ)) 4 (5 / 2) 2 := by
  refine ⟨⟨?_, ?_, ?_, ?_⟩, ⟨by omega, by norm_num, by norm_num⟩, ⟨by omega, by norm_num, by norm_num⟩⟩
  · intro i _ j _
    have : (2 * i + 1) / 2 = i := by omega
    simp only [this]
  · intro i _ j _
    have : (2 * j + 1) / 2 = j := by omega
    simp only [this]
  · intro i k h _
    exact_mod_cast h
  · intro i k h _
    exact_mod_cast h

end Verif
