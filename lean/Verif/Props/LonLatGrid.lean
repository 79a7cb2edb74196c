import Verif.Model.LonLatGrid
import Verif.Spec.LonLatGrid
import Verif.Spec.Tripolar
import Verif.Props.Tripolar
import Verif.Props.PolyArea
import Verif.Props.CubicSpline
/-
C94: the regular latitude-longitude grid, the f-plane grid and the simple Cartesian grid of make_hgrid.
-/
namespace Verif.LonLatGrid

open Verif.Spec
open Verif.Tripolar (d2r r2d sphericalDist d2r_pos r2d_pos r2d_d2r d2r_r2d r2d_pi d2r_180 distant)
open Verif.Spec.Tripolar (radians)

/-! ### Lemmas -/

theorem loop_length (j0 nj i0 ni : Nat) : (loop j0 nj i0 ni).length = nj * ni := by
  unfold loop
  simp

theorem loop_get (j0 nj i0 ni : Nat) {a b : Nat} (ha : a < nj) (hb : b < ni) :
    (loop j0 nj i0 ni)[a * ni + b]? = some (j0 + a, i0 + b) := by
  induction nj generalizing a with
  | zero => omega
  | succ n ih =>
    have e : loop j0 (n + 1) i0 ni = loop j0 n i0 ni ++ (List.range ni).map fun b => (j0 + n, i0 + b) := by
      unfold loop
      rw [List.range_succ, List.flatMap_append]
      simp
    rw [e]
    rcases Nat.lt_or_ge a n with h | h
    · have hl : a * ni + b < n * ni := by
        have : (a + 1) * ni ≤ n * ni := Nat.mul_le_mul_right _ h
        rw [Nat.add_mul] at this
        omega
      rw [List.getElem?_append_left (by rw [loop_length]; exact hl)]
      exact ih h
    · have : a = n := by omega
      subst this
      rw [List.getElem?_append_right (by rw [loop_length]; omega), loop_length]
      simp [hb]

theorem mapM_some {α : Type} {f : α → Option ℝ} {g : α → ℝ} : ∀ (l : List α), (∀ c ∈ l, f c = some (g c)) →
    l.mapM f = some (l.map g)
  | [], _ => rfl
  | c :: l, h => by
    rw [List.mapM_cons, h c (by simp), mapM_some l fun d hd => h d (by simp [hd])]
    rfl

theorem loop_mem {j0 nj i0 ni : Nat} {c : Nat × Nat} (h : c ∈ loop j0 nj i0 ni) :
    j0 ≤ c.1 ∧ c.1 < j0 + nj ∧ i0 ≤ c.2 ∧ c.2 < i0 + ni := by
  unfold loop at h
  simp only [List.mem_flatMap, List.mem_map, List.mem_range] at h
  obtain ⟨a, ha, b, hb, rfl⟩ := h
  dsimp only
  omega

theorem loop_rowMajor (j0 nj i0 ni : Nat) (f : Nat → Nat → ℝ) :
    RowMajor ((loop j0 nj i0 ni).map fun c => f c.1 c.2) nj ni fun a b => f (j0 + a) (i0 + b) := by
  refine ⟨by rw [List.length_map, loop_length], fun a b ha hb => ?_⟩
  rw [List.getElem?_map, loop_get _ _ _ _ ha hb]
  rfl

theorem gx_eq {nxp : Nat} (xb : Nat → ℝ) (j : Nat) {i : Nat} (h : i < nxp) : gx nxp xb (j * nxp + i) = xb i := by
  unfold gx
  rw [Nat.mul_comm, Nat.mul_add_mod, Nat.mod_eq_of_lt h]

theorem gy_eq {nxp : Nat} (yb : Nat → ℝ) (j : Nat) {i : Nat} (h : i < nxp) : gy nxp yb (j * nxp + i) = yb j := by
  unfold gy
  rw [Nat.mul_comm, Nat.mul_add_div (by omega), Nat.div_eq_of_lt h, Nat.add_zero]

/-- The loops, for a length which is known between points on one line -/
theorem setGrid_eq {len : ℝ → ℝ → ℝ → ℝ → Option ℝ} {box : ℝ → ℝ → ℝ → ℝ → ℝ} {lx : ℝ → ℝ → ℝ → ℝ} {ly : ℝ → ℝ → ℝ}
    (hx : ∀ x x' y, len x y x' y = some (lx x x' y)) (hy : ∀ x y y', len x y x y' = some (ly y y'))
    {nxp isc iec jsc jec : Nat} (hi : iec + 1 < nxp) (hs : isc ≤ iec + 1) (hjs : jsc ≤ jec + 1) (xb yb : Nat → ℝ) :
    ∃ g, setGrid len box nxp isc iec jsc jec xb yb = some g ∧
      RowMajor g.dx (jec + 2 - jsc) (iec + 1 - isc)
        (fun a b => lx (xb (isc + b)) (xb (isc + b + 1)) (yb (jsc + a))) ∧
      RowMajor g.dy (jec + 1 - jsc) (iec + 2 - isc) (fun a _ => ly (yb (jsc + a)) (yb (jsc + a + 1))) ∧
      RowMajor g.area (jec + 1 - jsc) (iec + 1 - isc) (fun a b =>
        box (xb (isc + b)) (yb (jsc + a)) (xb (isc + b + 1)) (yb (jsc + a + 1))) ∧
      RowMajor g.angle (jec + 2 - jsc) (iec + 2 - isc) (fun _ _ => 0) := by
  have e1 : (loop jsc (jec + 2 - jsc) isc (iec + 1 - isc)).mapM (fun c =>
      len (gx nxp xb (c.1 * nxp + c.2)) (gy nxp yb (c.1 * nxp + c.2)) (gx nxp xb (c.1 * nxp + c.2 + 1))
        (gy nxp yb (c.1 * nxp + c.2 + 1)))
      = some ((loop jsc (jec + 2 - jsc) isc (iec + 1 - isc)).map fun c => lx (xb c.2) (xb (c.2 + 1)) (yb c.1)) := by
    apply mapM_some
    intro c hc
    obtain ⟨-, -, h3, h4⟩ := loop_mem hc
    rw [gx_eq _ _ (by omega), gy_eq _ _ (by omega), Nat.add_assoc, gx_eq _ _ (by omega), gy_eq _ _ (by omega), hx]
  have e2 : (loop jsc (jec + 1 - jsc) isc (iec + 2 - isc)).mapM (fun c =>
      len (gx nxp xb (c.1 * nxp + c.2)) (gy nxp yb (c.1 * nxp + c.2)) (gx nxp xb ((c.1 + 1) * nxp + c.2))
        (gy nxp yb ((c.1 + 1) * nxp + c.2)))
      = some ((loop jsc (jec + 1 - jsc) isc (iec + 2 - isc)).map fun c => ly (yb c.1) (yb (c.1 + 1))) := by
    apply mapM_some
    intro c hc
    obtain ⟨-, -, h3, h4⟩ := loop_mem hc
    rw [gx_eq _ _ (by omega), gy_eq _ _ (by omega), gx_eq _ _ (by omega), gy_eq _ _ (by omega), hy]
  have e3 : ((loop jsc (jec + 1 - jsc) isc (iec + 1 - isc)).map fun c =>
      box (gx nxp xb (c.1 * nxp + c.2)) (gy nxp yb (c.1 * nxp + c.2)) (gx nxp xb ((c.1 + 1) * nxp + c.2 + 1))
        (gy nxp yb ((c.1 + 1) * nxp + c.2 + 1)))
      = (loop jsc (jec + 1 - jsc) isc (iec + 1 - isc)).map fun c =>
        box (xb c.2) (yb c.1) (xb (c.2 + 1)) (yb (c.1 + 1)) := by
    apply List.map_congr_left
    intro c hc
    obtain ⟨-, -, h3, h4⟩ := loop_mem hc
    rw [gx_eq _ _ (by omega), gy_eq _ _ (by omega), Nat.add_assoc, gx_eq _ _ (by omega), gy_eq _ _ (by omega)]
  refine ⟨⟨_, _, _, _⟩, ?_, loop_rowMajor _ _ _ _ fun j i => lx (xb i) (xb (i + 1)) (yb j),
    loop_rowMajor jsc _ isc _ fun j _ => ly (yb j) (yb (j + 1)),
    loop_rowMajor _ _ _ _ fun j i => box (xb i) (yb j) (xb (i + 1)) (yb (j + 1)),
    loop_rowMajor jsc _ isc _ fun _ _ => 0⟩
  unfold setGrid
  dsimp only
  rw [e1, e2, e3]
  rfl

/-! ### Regular latitude-longitude grid -/

/-- `set_regular_lonlat_grid` on any part of the grid never stops the program. The lengths are those of the arcs of the
parallels and of the meridians; if columns are at most half a turn wide, the areas are those between two parallels and two
meridians; the rotation angle is zero. -/
theorem C94_lonlat (radius : ℝ) {nxp isc iec jsc jec : Nat} (hi : iec + 1 < nxp) (hs : isc ≤ iec + 1) (hjs : jsc ≤ jec + 1)
    (xb yb : Nat → ℝ) (hx : ∀ i, i + 1 < nxp → |xb (i + 1) - xb i| ≤ 180) :
    ∃ g, regular radius nxp isc iec jsc jec xb yb = some g ∧
      RowMajor g.dx (jec + 2 - jsc) (iec + 1 - isc) (fun a b =>
        radius * Real.cos (radians (yb (jsc + a))) * |radians (xb (isc + b + 1) - xb (isc + b))|) ∧
      RowMajor g.dy (jec + 1 - jsc) (iec + 2 - isc) (fun a _ => radius * |radians (yb (jsc + a + 1) - yb (jsc + a))|) ∧
      RowMajor g.area (jec + 1 - jsc) (iec + 1 - isc) (fun a b => radius ^ 2 * radians (xb (isc + b + 1) - xb (isc + b))
        * (Real.sin (radians (yb (jsc + a + 1))) - Real.sin (radians (yb (jsc + a))))) ∧
      RowMajor g.angle (jec + 2 - jsc) (iec + 2 - isc) (fun _ _ => 0) := by
  have hd := d2r_pos
  have r : ∀ q : ℝ, radians q = q * d2r := fun _ => rfl
  obtain ⟨g, e, g1, g2, g3, g4⟩ := setGrid_eq (len := sphericalDist radius)
    (box := fun x1 y1 x2 y2 => PolyArea.boxArea Real.sin Real.pi radius (x1 * d2r, y1 * d2r) (x2 * d2r, y2 * d2r))
    (lx := fun x x' y => radius * Real.cos (radians y) * |radians (x' - x)|)
    (ly := fun y y' => radius * |radians (y' - y)|)
    (by
      intro x x' y
      unfold sphericalDist
      by_cases h : x = x'
      · rw [if_pos h, h]; simp [distant, radians]
      · rw [if_neg h, if_pos rfl]
        unfold distant
        rw [r, r, abs_mul, abs_of_pos hd, abs_sub_comm]
        congr 1
        ring)
    (by
      intro x y y'
      unfold sphericalDist
      rw [if_pos rfl]
      unfold distant
      rw [r, abs_mul, abs_of_pos hd, abs_sub_comm]
      congr 1
      ring) hi hs hjs xb yb
  refine ⟨g, e, g1, g2, ⟨g3.1, fun a b ha hb => ?_⟩, g4⟩
  rw [g3.2 a b ha hb]
  have hw := hx (isc + b) (by omega)
  have hpi := d2r_180
  obtain ⟨w1, w2⟩ := abs_le.1 hw
  unfold PolyArea.boxArea PolyArea.wrap
  dsimp only
  have n1 : ¬ (xb (isc + b + 1) - xb (isc + b)) * d2r > Real.pi := by nlinarith
  have n2 : ¬ (xb (isc + b + 1) - xb (isc + b)) * d2r < -Real.pi := by nlinarith
  rw [← sub_mul, if_neg n1, if_neg n2, r, r, r]
  congr 1
  ring

/-- A full turn and both poles: along every row the lengths add up to the circumference of the parallel, along every column to half
a meridian circle, and the areas to the whole sphere. -/
theorem C94_globe (radius : ℝ) {nx ny : Nat} (hnx : 1 ≤ nx) (hny : 1 ≤ ny) (xb yb : Nat → ℝ)
    (hx : ∀ i, i < nx → xb i ≤ xb (i + 1) ∧ xb (i + 1) ≤ xb i + 180) (hturn : xb nx = xb 0 + 360)
    (hy : ∀ j, j < ny → yb j ≤ yb (j + 1)) (hs : yb 0 = -90) (hn : yb ny = 90) :
    ∃ g, regular radius (nx + 1) 0 (nx - 1) 0 (ny - 1) xb yb = some g ∧
      (∀ j, j ≤ ny → ((List.range nx).map fun i => (g.dx[j * nx + i]?).getD 0).sum
        = 2 * Real.pi * radius * Real.cos (radians (yb j))) ∧
      (∀ i, i ≤ nx → ((List.range ny).map fun j => (g.dy[j * (nx + 1) + i]?).getD 0).sum = Real.pi * radius) ∧
      g.area.sum = 4 * Real.pi * radius ^ 2 := by
  have hd := d2r_pos
  have hpi := d2r_180
  have r : ∀ q : ℝ, radians q = q * d2r := fun _ => rfl
  obtain ⟨g, e, g1, g2, g3, -⟩ := C94_lonlat radius (nxp := nx + 1) (isc := 0) (iec := nx - 1) (jsc := 0) (jec := ny - 1)
    (by omega) (by omega) (by omega) xb yb (by
      intro i hi
      rw [abs_of_nonneg (by linarith [(hx i (by omega)).1])]
      linarith [(hx i (by omega)).2])
  have tele : ∀ (f : Nat → ℝ) (n : Nat), ((List.range n).map fun i => f (i + 1) - f i).sum = f n - f 0 := by
    intro f n
    induction n with
    | zero => simp
    | succ n ih => rw [List.range_succ, List.map_append, List.sum_append, ih]; simp
  rw [show ny - 1 + 2 - 0 = ny + 1 by omega, show nx - 1 + 1 - 0 = nx by omega] at g1
  rw [show ny - 1 + 1 - 0 = ny by omega, show nx - 1 + 2 - 0 = nx + 1 by omega] at g2
  rw [show ny - 1 + 1 - 0 = ny by omega, show nx - 1 + 1 - 0 = nx by omega] at g3
  refine ⟨g, e, fun j hj => ?_, fun i hi => ?_, ?_⟩
  · have : ((List.range nx).map fun i => (g.dx[j * nx + i]?).getD 0)
        = (List.range nx).map fun i => (fun k => radius * Real.cos (radians (yb j)) * radians (xb k)) (i + 1)
          - (fun k => radius * Real.cos (radians (yb j)) * radians (xb k)) i := by
      apply List.map_congr_left
      intro i hi
      have hi := List.mem_range.1 hi
      rw [g1.2 j i (by omega) hi]
      simp only [Option.getD_some, Nat.zero_add]
      rw [abs_of_nonneg (by rw [r]; exact mul_nonneg (by linarith [(hx i hi).1]) hd.le)]
      unfold radians
      ring
    rw [this, tele (fun k => radius * Real.cos (radians (yb j)) * radians (xb k)), hturn]
    rw [r, r, r, ← hpi]
    ring
  · have : ((List.range ny).map fun j => (g.dy[j * (nx + 1) + i]?).getD 0)
        = (List.range ny).map fun j => (fun k => radius * radians (yb k)) (j + 1) - (fun k => radius * radians (yb k)) j := by
      apply List.map_congr_left
      intro j hj
      have hj := List.mem_range.1 hj
      rw [g2.2 j i hj (by omega)]
      simp only [Option.getD_some, Nat.zero_add]
      rw [abs_of_nonneg (by rw [r]; exact mul_nonneg (by linarith [hy j hj]) hd.le)]
      unfold radians
      ring
    rw [this, tele (fun k => radius * radians (yb k)), hs, hn, r, r, ← hpi]
    ring
  · have hl : g.area = (loop 0 ny 0 nx).map fun c =>
        radius ^ 2 * radians (xb (c.2 + 1) - xb c.2) * (Real.sin (radians (yb (c.1 + 1))) - Real.sin (radians (yb c.1))) := by
      apply List.ext_getElem?
      intro k
      rcases Nat.lt_or_ge k (ny * nx) with hk | hk
      · have hb : k % nx < nx := Nat.mod_lt _ (by omega)
        have ha : k / nx < ny := Nat.div_lt_of_lt_mul (by rw [Nat.mul_comm]; exact hk)
        have hk' : k = k / nx * nx + k % nx := by rw [Nat.mul_comm]; exact (Nat.div_add_mod k nx).symm
        rw [hk', g3.2 _ _ ha hb, List.getElem?_map, loop_get _ _ _ _ ha hb]
        simp
      · rw [List.getElem?_eq_none (by rw [g3.1]; exact hk),
          List.getElem?_eq_none (by rw [List.length_map, loop_length]; exact hk)]
    have hsum : ∀ (f : Nat → Nat → ℝ) (n m : Nat), ((loop 0 n 0 m).map fun c => f c.1 c.2).sum
        = ((List.range n).map fun j => ((List.range m).map fun i => f j i).sum).sum := by
      intro f n m
      unfold loop
      induction n with
      | zero => simp
      | succ n ih =>
        rw [List.range_succ, List.flatMap_append, List.map_append, List.sum_append, ih, List.map_append, List.sum_append]
        simp [List.map_map, Function.comp_def]
    rw [hl, hsum (fun j i => radius ^ 2 * radians (xb (i + 1) - xb i)
      * (Real.sin (radians (yb (j + 1))) - Real.sin (radians (yb j))))]
    have row : ∀ j, ((List.range nx).map fun i => radius ^ 2 * radians (xb (i + 1) - xb i)
        * (Real.sin (radians (yb (j + 1))) - Real.sin (radians (yb j)))).sum
        = (fun k => 2 * Real.pi * radius ^ 2 * Real.sin (radians (yb k))) (j + 1)
          - (fun k => 2 * Real.pi * radius ^ 2 * Real.sin (radians (yb k))) j := by
      intro j
      have := tele (fun k => radius ^ 2 * radians (xb k) * (Real.sin (radians (yb (j + 1))) - Real.sin (radians (yb j)))) nx
      rw [hturn] at this
      rw [← show (((List.range nx).map fun i => (fun k => radius ^ 2 * radians (xb k)
        * (Real.sin (radians (yb (j + 1))) - Real.sin (radians (yb j)))) (i + 1) - (fun k => radius ^ 2 * radians (xb k)
        * (Real.sin (radians (yb (j + 1))) - Real.sin (radians (yb j)))) i).sum)
        = ((List.range nx).map fun i => radius ^ 2 * radians (xb (i + 1) - xb i)
          * (Real.sin (radians (yb (j + 1))) - Real.sin (radians (yb j)))).sum from by
          congr 1
          apply List.map_congr_left
          intro i _
          unfold radians
          ring, this]
      rw [show radians (xb 0 + 360) = radians (xb 0) + 2 * Real.pi by unfold radians; ring]
      ring
    rw [show ((List.range ny).map fun j => ((List.range nx).map fun i => radius ^ 2 * radians (xb (i + 1) - xb i)
        * (Real.sin (radians (yb (j + 1))) - Real.sin (radians (yb j)))).sum)
        = (List.range ny).map fun j => (fun k => 2 * Real.pi * radius ^ 2 * Real.sin (radians (yb k))) (j + 1)
          - (fun k => 2 * Real.pi * radius ^ 2 * Real.sin (radians (yb k))) j from List.map_congr_left fun j _ => row j,
      tele (fun k => 2 * Real.pi * radius ^ 2 * Real.sin (radians (yb k))), hs, hn, show radians 90 = Real.pi / 2 by unfold radians; ring,
      show radians (-90) = -(Real.pi / 2) by unfold radians; ring, Real.sin_neg, Real.sin_pi_div_two]
    ring

/-! ### f-plane -/

/-- `set_f_plane_grid` never stops the program; all rows have the lengths of the latitude of the plane; for lines to the north and
east the area of every cell is the product of the lengths of its sides. -/
theorem C94_fplane (radius flat : ℝ) {nxp isc iec jsc jec : Nat} (hi : iec + 1 < nxp) (hs : isc ≤ iec + 1)
    (hjs : jsc ≤ jec + 1) (xb yb : Nat → ℝ) :
    ∃ g, fPlane radius flat nxp isc iec jsc jec xb yb = some g ∧
      RowMajor g.dx (jec + 2 - jsc) (iec + 1 - isc) (fun _ b =>
        radius * Real.cos (radians flat) * |radians (xb (isc + b + 1) - xb (isc + b))|) ∧
      RowMajor g.dy (jec + 1 - jsc) (iec + 2 - isc) (fun a _ => radius * |radians (yb (jsc + a + 1) - yb (jsc + a))|) ∧
      RowMajor g.angle (jec + 2 - jsc) (iec + 2 - isc) (fun _ _ => 0) ∧
      g.area.length = (jec + 1 - jsc) * (iec + 1 - isc) ∧
      ∀ a b, a < jec + 1 - jsc → b < iec + 1 - isc →
        xb (isc + b) ≤ xb (isc + b + 1) → yb (jsc + a) ≤ yb (jsc + a + 1) →
        ∃ w h, g.dx[a * (iec + 1 - isc) + b]? = some w ∧ g.dy[a * (iec + 2 - isc) + b]? = some h ∧
          g.area[a * (iec + 1 - isc) + b]? = some (w * h) := by
  have hd := d2r_pos
  have r : ∀ q : ℝ, radians q = q * d2r := fun _ => rfl
  obtain ⟨g, e, g1, g2, g3, g4⟩ := setGrid_eq (len := cartesianDist radius flat) (box := cartesianBoxArea radius flat)
    (lx := fun x x' _ => radius * Real.cos (radians flat) * |radians (x' - x)|)
    (ly := fun y y' => radius * |radians (y' - y)|)
    (by
      intro x x' y
      unfold cartesianDist
      by_cases h : x = x'
      · rw [if_pos h, h]; simp [radians]
      · rw [if_neg h, if_pos rfl, r, r, abs_mul, abs_of_pos hd]
        congr 1
        ring)
    (by
      intro x y y'
      unfold cartesianDist
      rw [if_pos rfl, r, abs_mul, abs_of_pos hd]
      congr 1
      ring) hi hs hjs xb yb
  refine ⟨g, e, g1, g2, g4, g3.1, fun a b ha hb hx hy => ⟨_, _, g1.2 a b (by omega) hb, g2.2 a b ha (by omega), ?_⟩⟩
  rw [g3.2 a b ha hb]
  unfold cartesianBoxArea
  dsimp only
  rw [r, r, r, abs_of_nonneg (mul_nonneg (by linarith) hd.le), abs_of_nonneg (mul_nonneg (by linarith) hd.le)]
  congr 1
  ring

/-! ### Simple Cartesian grid -/

/-- The grid lines are equally spaced between the bounds, the lengths are those given, and the area is their product. -/
theorem C94_cartesian {n : Nat} (hn : 1 ≤ n) (bnds : Nat → ℝ) (sdx sdy : ℝ) (nxc nyc : Nat) :
    cartesianLines n bnds = .ok ((List.range (n + 1)).map fun i : Nat => bnds 0 + (bnds 1 - bnds 0) * ((i : ℝ) / n)) ∧
    RowMajor (cartesian sdx sdy nxc nyc).dx (nyc + 1) nxc (fun _ _ => sdx) ∧
    RowMajor (cartesian sdx sdy nxc nyc).dy nyc (nxc + 1) (fun _ _ => sdy) ∧
    RowMajor (cartesian sdx sdy nxc nyc).area nyc nxc (fun _ _ => sdx * sdy) ∧
    RowMajor (cartesian sdx sdy nxc nyc).angle (nyc + 1) (nxc + 1) (fun _ _ => 0) := by
  have hn' : (0 : ℝ) < n := by exact_mod_cast hn
  have rep : ∀ (k m nj ni : Nat) (v : ℝ), k = nj * ni → RowMajor (List.replicate k v) nj ni fun _ _ => v := by
    intro k m nj ni v hk
    refine ⟨by rw [List.length_replicate, hk], fun a b ha hb => ?_⟩
    rw [List.getElem?_replicate, if_pos]
    rw [hk]
    have : (a + 1) * ni ≤ nj * ni := Nat.mul_le_mul_right _ ha
    rw [Nat.add_mul] at this
    omega
  refine ⟨?_, rep _ 0 _ _ _ (Nat.mul_comm _ _), rep _ 0 _ _ _ (Nat.mul_comm _ _), rep _ 0 _ _ _ (Nat.mul_comm _ _),
    rep _ 0 _ _ _ (Nat.mul_comm _ _)⟩
  unfold cartesianLines
  rw [C26_two_nodes]
  · congr 1
    apply List.map_congr_left
    intro i _
    simp only [lineAt, if_true, if_neg (show (1 : Nat) ≠ 0 by decide)]
    rw [show (i : ℝ) + 1 - 1 = i by ring, show (n : ℝ) + 1 - 1 = n by ring]
    ring
  · intro i j hij hj
    have h0 : i = 0 := by omega
    have h1 : j = 1 := by omega
    subst h0 h1
    simp only [if_true, if_neg (show (1 : Nat) ≠ 0 by decide)]
    linarith
  · intro k hk
    have : (k : ℝ) ≤ n := by exact_mod_cast (show k ≤ n by omega)
    have : (0 : ℝ) ≤ k := Nat.cast_nonneg k
    simp only [if_true, if_neg (show (2 - 1 : Nat) ≠ 0 by decide)]
    constructor <;> linarith

/-- Case: four columns, two rows -/
example : (∀ i, i + 1 < 5 → |(fun i : Nat => (90 : ℝ) * i) (i + 1) - (fun i : Nat => (90 : ℝ) * i) i| ≤ 180) ∧
    (∀ i, i < 4 → (90 : ℝ) * i ≤ 90 * ((i + 1 : Nat) : ℝ) ∧ 90 * ((i + 1 : Nat) : ℝ) ≤ (90 : ℝ) * i + 180) ∧
    (90 : ℝ) * (4 : Nat) = 90 * (0 : Nat) + 360 := by
  refine ⟨fun i _ => ?_, fun i _ => ?_, by norm_num⟩
  · dsimp only; push_cast
    rw [show (90 : ℝ) * ((i : ℝ) + 1) - 90 * i = 90 by ring]
    norm_num
  · push_cast
    constructor <;> linarith

end Verif.LonLatGrid
