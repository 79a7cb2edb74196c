import Verif.Model.FregridInput
import Verif.Props.FregridHalo
import Mathlib.Tactic.Linarith
import Mathlib.Tactic.NormNum
/-
C120: the grids of fregrid are the even and odd points of the supergrid, and around each tile the points of the neighbours.
-/
namespace Verif.FregridInput
open Verif.FregridHalo Verif.MosaicContact Verif.Spec Verif.Spec.FregridHalo

/-- A supergrid of `2 nx + 1` points in a row is stored row after row. -/
def Stored {F : Type} (nx : Nat) (g : Nat → Nat → F) (a : Int → F) : Prop := ∀ J I : Nat, I < 2 * nx + 1 → a ((J : Int) * (2 * nx + 1) + I) = g J I

theorem corner_stored {F : Type} {nx : Nat} {g : Nat → Nat → F} {a : Int → F} (h : Stored nx g a) {j i : Nat} (hi : i ≤ nx) :
    a (cornerIndex nx j i) = g (2 * j) (2 * i) := by
  have := h (2 * j) (2 * i) (by omega)
  rw [← this]
  refine congrArg a ?_
  unfold cornerIndex
  push_cast
  ring

theorem centre_stored {F : Type} {nx : Nat} {g : Nat → Nat → F} {a : Int → F} (h : Stored nx g a) {j i : Nat} (hi : i < nx) :
    a (centreIndex nx j i) = g (2 * j + 1) (2 * i + 1) := by
  have := h (2 * j + 1) (2 * i + 1) (by omega)
  rw [← this]
  refine congrArg a ?_
  unfold centreIndex
  push_cast
  ring

/-! ### Copying loops -/

theorem row_copy {F : Type} (c : Nat → Int) (v : Nat → F) (n : Nat) (a : Int → F) (x : Int) (hc : ∀ i < n, ∀ i' < n, c i = c i' → i = i') :
    ((∀ i < n, x ≠ c i) → (List.range n).foldl (fun a (i : Nat) => fun x => if x = c i then v i else a x) a x = a x) ∧
    (∀ i < n, x = c i → (List.range n).foldl (fun a (i : Nat) => fun x => if x = c i then v i else a x) a x = v i) := by
  induction n with
  | zero => exact ⟨fun _ => rfl, fun i hi => absurd hi (by omega)⟩
  | succ n ih =>
    obtain ⟨h1, h2⟩ := ih (fun i hi i' hi' => hc i (by omega) i' (by omega))
    rw [List.range_succ, List.foldl_append, List.foldl_cons, List.foldl_nil]
    constructor
    · intro h
      rw [if_neg (h n (by omega)), h1 (fun i hi => h i (by omega))]
    · intro i hi hx
      by_cases hn : x = c n
      · rw [if_pos hn, hc i hi n (by omega) (by rw [← hx, hn])]
      · have hin : i ≠ n := fun h => hn (by rw [← h]; exact hx)
        rw [if_neg hn, h2 i (by omega) hx]

theorem copy_spec {F : Type} {w halo : Int} {nI nJ : Nat} (src : Int → F) (s : Nat → Nat → Int) (a : Int → F) (h0 : 0 ≤ halo) (hw : (nI : Int) + halo ≤ w) (x : Int) :
    ((∀ j < nJ, ∀ i < nI, x ≠ ((j : Int) + halo) * w + (i : Nat) + halo) → copyPoints w halo nI nJ src s a x = a x) ∧
    (∀ j < nJ, ∀ i < nI, x = ((j : Int) + halo) * w + (i : Nat) + halo → copyPoints w halo nI nJ src s a x = src (s j i)) := by
  unfold copyPoints
  have inj : ∀ j : Nat, ∀ i < nI, ∀ i' < nI, ((j : Int) + halo) * w + (i : Nat) + halo = ((j : Int) + halo) * w + (i' : Nat) + halo → i = i' := by
    intro j i _ i' _ h; omega
  induction nJ with
  | zero => exact ⟨fun _ => rfl, fun j hj => absurd hj (by omega)⟩
  | succ n ih =>
    obtain ⟨h1, h2⟩ := ih
    rw [List.range_succ, List.foldl_append, List.foldl_cons, List.foldl_nil]
    obtain ⟨r1, r2⟩ := row_copy (fun i => ((n : Int) + halo) * w + (i : Nat) + halo) (fun i => src (s n i)) nI
      ((List.range n).foldl (fun a (j : Nat) => (List.range nI).foldl (fun a (i : Nat) => fun x => if x = ((j : Int) + halo) * w + i + halo then src (s j i) else a x) a) a) x (inj n)
    constructor
    · intro h
      rw [r1 (fun i hi => h n (by omega) i hi), h1 (fun j hj i hi => h j (by omega) i hi)]
    · intro j hj i hi hx
      by_cases hjn : j = n
      · subst hjn
        exact r2 i hi hx
      · rw [r1, h2 j (by omega) i hi hx]
        intro i' hi' hx'
        have e : ((j : Int) + halo) * w + ((i : Int) + halo) = ((n : Int) + halo) * w + ((i' : Int) + halo) := by
          have := hx.symm.trans hx'; linarith
        obtain ⟨e1, _⟩ := div_unique (by omega) (by omega) (by omega) (by omega) e
        omega

/-! ### The input grid -/

/-- The program goes on exactly if both sizes of the supergrid are even. -/
theorem C120_even (nxs nys : Nat) : (∃ p, sizes nxs nys = some p) ↔ Even nxs ∧ Even nys := by
  unfold sizes
  rw [Nat.even_iff, Nat.even_iff]
  by_cases h1 : nxs % 2 = 0 <;> by_cases h2 : nys % 2 = 0 <;> simp [h1, h2]

/-- Sizes: the supergrid has two cells for each cell, both ways. -/
theorem C120_sizes {nxs nys nx ny : Nat} (h : sizes nxs nys = some (nx, ny)) : nxs = 2 * nx ∧ nys = 2 * ny := by
  unfold sizes at h
  by_cases h1 : nxs % 2 = 0 <;> by_cases h2 : nys % 2 = 0 <;> simp [h1, h2] at h
  omega

theorem init_in {F : Type} [Zero F] (nx ny : Nat) (a : Int → F) {j i : Nat} (hj : j < ny) (hi : i < nx) :
    initHalo nx ny 1 a (((j : Int) + 1) * ((nx : Int) + 2) + i + 1) = a (((j : Int) + 1) * ((nx : Int) + 2) + i + 1) := by
  have h := C118_init nx ny 1 (fun _ => a) 0 0 i j (by omega) (by omega)
  rw [if_neg (by omega)] at h
  unfold value at h
  simp only [Nat.cast_zero, zero_mul, zero_add, add_zero] at h
  rw [show ((j : Int) + 1) * ((nx : Int) + 2) + i + 1 = ((j : Int) + 1) * ((nx : Int) + 2) + ((i : Int) + 1) by ring]
  exact h

theorem centres_at {F : Type} [Zero F] {nx ny : Nat} {g : Nat → Nat → F} {sg : Int → F} (h : Stored nx g sg) (old : Int → F) {j i : Nat} (hj : j < ny) (hi : i < nx) :
    centres nx ny sg old (((j : Int) + 1) * ((nx : Int) + 2) + i + 1) = g (2 * j + 1) (2 * i + 1) := by
  unfold centres
  rw [init_in nx ny _ hj hi]
  rw [(copy_spec (halo := 1) (w := (nx : Int) + 2) (nI := nx) (nJ := ny) sg (centreIndex nx) old (by omega) (by omega) _).2 j hj i hi rfl]
  exact centre_stored h hi

theorem corners_at {F : Type} [Zero F] {halo nx ny : Nat} {g : Nat → Nat → F} {sg : Int → F} (h : Stored nx g sg) (old : Int → F) {j i : Nat} (hj : j ≤ ny) (hi : i ≤ nx) :
    corners halo nx ny sg old (((j : Int) + halo) * ((nx : Int) + 1 + 2 * halo) + i + halo) = g (2 * j) (2 * i) := by
  unfold corners
  rw [(copy_spec (halo := halo) (w := (nx : Int) + 1 + 2 * halo) (nI := nx + 1) (nJ := ny + 1) sg (cornerIndex nx) _ (by omega) (by push_cast; omega) _).2 j (by omega) i (by omega) rfl]
  exact corner_stored h hi

/-- **C120, points of a tile.** For every supergrid of every size: cell `(j, i)` has as its centre the supergrid point `(2j+1, 2i+1)` and as its corners the
points `(2j, 2i)` to `(2j+2, 2i+2)`, with or without halo; the axes hold the centres of the first row and the first column. -/
theorem C120_points {F : Type} [Zero F] {nx ny halo : Nat} {g : Nat → Nat → F} {sg : Int → F} (h : Stored nx g sg) (old : Int → F) :
    (∀ j < ny, ∀ i < nx, centres nx ny sg old (((j : Int) + 1) * ((nx : Int) + 2) + (i : Nat) + 1) = g (2 * j + 1) (2 * i + 1)) ∧
    (∀ j ≤ ny, ∀ i ≤ nx, corners halo nx ny sg old (((j : Int) + halo) * ((nx : Int) + 1 + 2 * halo) + (i : Nat) + halo) = g (2 * j) (2 * i)) ∧
    (∀ i < nx, lonAxis nx sg i = g 1 (2 * i + 1)) ∧ (0 < nx → ∀ j < ny, latAxisIn nx sg j = g (2 * j + 1) 1) := by
  refine ⟨fun j hj i hi => centres_at h old hj hi, fun j hj i hi => corners_at h old hj hi, ?_, ?_⟩
  · intro i hi
    rw [← h 1 (2 * i + 1) (by omega)]
    unfold lonAxis
    congr 1
    push_cast
    ring
  · intro hx j _
    rw [← h (2 * j + 1) 1 (by omega)]
    unfold latAxisIn
    exact congrArg sg (by push_cast; ring)

/-- **C120, a cubed sphere with its halo.** For every size and every six supergrids: the program goes on; in each tile the value of a cell is that of its centre, and next to
each side outside the tile it is that of the centre of the cell of the neighbour across that side. -/
theorem C120_cube {F : Type} [Zero F] {n : Nat} (hn : 2 ≤ n) {g : Nat → Nat → Nat → F} {sg : Nat → Int → F} (h : ∀ t, Stored n (g t) (sg t)) (old : Nat → Int → F) :
    ∃ m, centreGrid ((cube n).map (Glue.contact (fun _ => n) (fun _ => n))) (fun _ => n) (fun _ => n) 6 sg old = .ok m ∧
      (∀ t, ∀ j < n, ∀ i < n, value (fun _ => n) (fun _ => n) 0 m t 0 ((i : Nat), (j : Nat)) = g t (2 * j + 1) (2 * i + 1)) ∧
      (∀ e ∈ both (cube n), ∀ p < n, ∃ j i : Nat, e.inn (fun _ => n) (fun _ => n) 0 p = ((i : Int), (j : Int)) ∧ j < n ∧ i < n ∧
        value (fun _ => n) (fun _ => n) 0 m e.t1 0 (e.out (fun _ => n) (fun _ => n) 0 p) = g e.t2 (2 * j + 1) (2 * i + 1)) := by
  obtain ⟨m, h1, h2, h3, _⟩ := C118_cube (shift := 0) (nz := 1) hn (fun t => centres n n (sg t) (old t))
  have hin : ∀ t, ∀ j < n, ∀ i < n, value (fun _ => n) (fun _ => n) 0 (fun t => centres n n (sg t) (old t)) t 0 ((i : Nat), (j : Nat)) = g t (2 * j + 1) (2 * i + 1) := by
    intro t j hj i hi
    rw [← centres_at (h t) (old t) hj hi]
    unfold value
    simp only [Nat.cast_zero, zero_mul, zero_add, add_zero]
    congr 1
  refine ⟨m, h1, ?_, ?_⟩
  · intro t j hj i hi
    rw [h3 t 0 i j (by omega) (by simpa using hi) (by omega) (by simpa using hj)]
    exact hin t j hj i hi
  · intro e he p hp
    obtain ⟨_, b2, b3, b4, _⟩ := cube_supported hn e.flip (flip_mem he)
    have hc : ∀ g ∈ both (cube n), g.e2.count 0 = n := by
      simp [both, cube, Glue.flip, Edge.count]
      omega
    obtain ⟨w1, w2, w3, w4⟩ := inn_within (nx := fun _ => n) (ny := fun _ => n) (shift := 0) (g := e) (m := p) b2 b3 b4 (by rw [hc e he]; exact hp)
    have hv := h2 e he p (by simpa using hp) 0 (by omega)
    generalize e.inn (fun _ => n) (fun _ => n) 0 p = q at *
    obtain ⟨x, y⟩ := q
    simp only at w1 w2 w3 w4
    refine ⟨y.toNat, x.toNat, by rw [Int.toNat_of_nonneg w1, Int.toNat_of_nonneg w3], by omega, by omega, ?_⟩
    rw [hv, ← hin e.t2 y.toNat (by omega) x.toNat (by omega), Int.toNat_of_nonneg w1, Int.toNat_of_nonneg w3]

/-- **C120, corners of a cubed sphere with their halo** (bilinear interpolation). For every size and every six supergrids: the program goes on; in each tile corner
`(j, i)` is the supergrid point `(2j, 2i)`, and outside each side are the corners of the neighbour one step from the common edge. -/
theorem C120_cube_corners {F : Type} [Zero F] {n : Nat} (hn : 2 ≤ n) {g : Nat → Nat → Nat → F} {sg : Nat → Int → F} (h : ∀ t, Stored n (g t) (sg t)) (old : Nat → Int → F) :
    ∃ m, cornerGrid ((cube n).map (Glue.contact (fun _ => n) (fun _ => n))) (fun _ => n) (fun _ => n) 6 sg old = .ok m ∧
      (∀ t, ∀ j ≤ n, ∀ i ≤ n, value (fun _ => n) (fun _ => n) 1 m t 0 ((i : Nat), (j : Nat)) = g t (2 * j) (2 * i)) ∧
      (∀ e ∈ both (cube n), ∀ p ≤ n, ∃ j i : Nat, e.inn (fun _ => n) (fun _ => n) 1 p = ((i : Int), (j : Int)) ∧ j ≤ n ∧ i ≤ n ∧
        value (fun _ => n) (fun _ => n) 1 m e.t1 0 (e.out (fun _ => n) (fun _ => n) 1 p) = g e.t2 (2 * j) (2 * i)) := by
  obtain ⟨m, h1, h2, h3, _⟩ := C118_cube (shift := 1) (nz := 1) hn (fun t => corners 1 n n (sg t) (old t))
  have hin : ∀ t, ∀ j ≤ n, ∀ i ≤ n, value (fun _ => n) (fun _ => n) 1 (fun t => corners 1 n n (sg t) (old t)) t 0 ((i : Nat), (j : Nat)) = g t (2 * j) (2 * i) := by
    intro t j hj i hi
    rw [← corners_at (halo := 1) (h t) (old t) hj hi]
    unfold value
    simp only [Nat.cast_zero, zero_mul, zero_add, Nat.cast_one]
    congr 1
  refine ⟨m, h1, ?_, ?_⟩
  · intro t j hj i hi
    rw [h3 t 0 i j (by omega) (by push_cast; omega) (by omega) (by push_cast; omega)]
    exact hin t j hj i hi
  · intro e he p hp
    obtain ⟨_, b2, b3, b4, _⟩ := cube_supported hn e.flip (flip_mem he)
    have hc : ∀ g ∈ both (cube n), g.e2.count 1 = n + 1 := by
      simp [both, cube, Glue.flip, Edge.count]
      omega
    obtain ⟨w1, w2, w3, w4⟩ := inn_within (nx := fun _ => n) (ny := fun _ => n) (shift := 1) (g := e) (m := p) b2 b3 b4 (by rw [hc e he]; omega)
    have hv := h2 e he p (by omega) 0 (by omega)
    generalize e.inn (fun _ => n) (fun _ => n) 1 p = q at *
    obtain ⟨x, y⟩ := q
    simp only at w1 w2 w3 w4
    refine ⟨y.toNat, x.toNat, by rw [Int.toNat_of_nonneg w1, Int.toNat_of_nonneg w3], by omega, by omega, ?_⟩
    rw [hv, ← hin e.t2 y.toNat (by omega) x.toNat (by omega), Int.toNat_of_nonneg w1, Int.toNat_of_nonneg w3]

/-! ### The output grid -/

/-- **C120, corners of the output grid.** Each process holds for its rows and columns the corners of its cells. -/
theorem C120_output {F : Type} {nx isc jsc nxc nyc : Nat} {g : Nat → Nat → F} {sg : Int → F} (h : Stored nx g sg) (old : Int → F) (hx : isc + nxc ≤ nx)
    {j i : Nat} (hj : j ≤ nyc) (hi : i ≤ nxc) :
    cornersOut nx isc jsc nxc nyc sg old ((j : Int) * ((nxc : Int) + 1) + i) = g (2 * (j + jsc)) (2 * (i + isc)) := by
  unfold cornersOut
  rw [(copy_spec (halo := 0) (w := (nxc : Int) + 1) (nI := nxc + 1) (nJ := nyc + 1) sg _ old (by omega) (by push_cast; omega) _).2 j (by omega) i (by omega) (by ring)]
  exact corner_stored h (by omega)

/-- **C120, axes of the output grid.** The axes of centres and edges are those of a grid whose longitude depends on the column and whose latitude depends on the row. -/
theorem C120_axes {F : Type} {nx : Nat} (hx : 0 < nx) {lon lat : Nat → F} {xs ys : Int → F} (h1 : Stored nx (fun _ I => lon I) xs) (h2 : Stored nx (fun J _ => lat J) ys)
    (tripolar : Bool) :
    (∀ i ≤ nx, lonEdges xs i = lon (2 * i)) ∧ (∀ i < nx, lonAxis nx xs i = lon (2 * i + 1)) ∧
    (∀ j, latEdges tripolar nx ys j = lat (2 * j)) ∧ (∀ j, latAxisOut tripolar nx ys j = lat (2 * j + 1)) := by
  have hcol : ∃ a b : Nat, latColumn tripolar nx = ((a : Int), (b : Int)) ∧ a < 2 * nx + 1 ∧ b < 2 * nx + 1 := by
    unfold latColumn
    cases tripolar with
    | true =>
      refine ⟨2 * (nx / 4), 2 * (nx / 4), by simp, ?_, ?_⟩ <;> omega
    | false => exact ⟨0, 2, by simp, by omega, by omega⟩
  obtain ⟨a, b, hab, ha, hb⟩ := hcol
  refine ⟨?_, ?_, ?_, ?_⟩
  · intro i hi
    have := h1 0 (2 * i) (by omega)
    simp only at this
    rw [← this]
    unfold lonEdges
    congr 1
    push_cast
    ring
  · intro i hi
    have := h1 1 (2 * i + 1) (by omega)
    simp only at this
    rw [← this]
    unfold lonAxis
    congr 1
    push_cast
    ring
  · intro j
    have := h2 (2 * j) a ha
    simp only at this
    rw [← this]
    unfold latEdges
    rw [hab]
    exact congrArg ys (by push_cast; ring)
  · intro j
    have := h2 (2 * j + 1) b hb
    simp only at this
    rw [← this]
    unfold latAxisOut
    rw [hab]
    exact congrArg ys (by push_cast; ring)

/-! ### Angles -/

/-- **C120 fails for the angles of the input grid.** For every size of the grid: the index of the angle of the last cell lies beyond the array of
`(2 nx + 1) (2 ny + 1)` angles, and the angle of the first cell is not taken from its centre, the point (1, 1), but from the point (2, 4) (of row 2 and column 4). -/
theorem C120_angle_wrong {nx ny : Nat} (hx : 1 ≤ nx) (hy : 1 ≤ ny) :
    ((2 * nx + 1) * (2 * ny + 1) : Int) ≤ angleIndexIn nx (ny - 1) (nx - 1) ∧
    angleIndexIn nx 0 0 = 2 * (2 * nx + 1) + 4 ∧ angleIndexIn nx 0 0 ≠ centreIndex nx 0 0 := by
  unfold angleIndexIn centreIndex
  refine ⟨?_, ?_, ?_⟩
  · have e1 : ((nx - 1 : Nat) : Int) = nx - 1 := by omega
    have e2 : ((ny - 1 : Nat) : Int) = ny - 1 := by omega
    rw [e1, e2]
    nlinarith
  · push_cast; ring
  · push_cast; omega

/-- **C120 fails for the angles of the output grid.** The angle of a cell is that of its lower left corner, not that of its centre; with an angle that changes from point to point this is
another number. -/
theorem C120_angle_out_wrong (nx isc jsc j i : Nat) :
    angleIndexOut nx isc jsc j i = cornerIndex nx (j + jsc) (i + isc) ∧ angleIndexOut nx isc jsc j i ≠ centreIndex nx (j + jsc) (i + isc) := by
  unfold angleIndexOut cornerIndex centreIndex
  constructor
  · push_cast; ring
  · push_cast
    intro h
    have : (2 * (nx : Int) + 1) + 1 = 0 := by linarith
    omega

/-- **C120 fails for the latitudes of a tripolar output grid.** The latitudes of centres are taken from an even column, that is, from edges of cells: with latitudes that
depend on the column they are not those of any centre. -/
theorem C120_tripolar_column_wrong : ∃ (g : Nat → Nat → Int) (a : Int → Int), Stored 4 g a ∧ ∀ i < 4, latAxisOut true 4 a 0 ≠ g 1 (2 * i + 1) := by
  refine ⟨fun J I => J * 9 + I, fun x => x, ?_, ?_⟩
  · intro J I _; rfl
  · intro i hi
    simp only [latAxisOut, latColumn]
    push_cast
    omega

/-! ### Cases -/

/-- A supergrid of 4 by 4 cells with the value 10 row + column: the grid has 2 by 2 cells. -/
def fiGrid : Int → Int := fun x => 10 * (x / 5) + x % 5

example : Stored 2 (fun J I => 10 * (J : Int) + I) fiGrid := by
  intro J I hI
  unfold fiGrid
  push_cast
  omega

theorem C120_case : sizes 4 4 = some (2, 2) ∧ (List.range 16).map (fun n => centres 2 2 fiGrid (fun _ => 7) n) = [0, 0, 0, 0, 0, 11, 13, 0, 0, 31, 33, 0, 0, 0, 0, 0] ∧
    (List.range 9).map (fun n => corners 0 2 2 fiGrid (fun _ => 7) n) = [0, 2, 4, 20, 22, 24, 40, 42, 44] ∧ angleIndexIn 2 1 1 = 28 := by
  refine ⟨by decide, by decide +kernel, by decide +kernel, by decide⟩

end Verif.FregridInput
