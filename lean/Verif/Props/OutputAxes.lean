import Verif.Model.OutputAxes
import Verif.Spec.OutputAxes
import Verif.Props.Decomposition
import Mathlib.Algebra.Order.Field.Basic
import Mathlib.Algebra.Order.Ring.Rat
import Mathlib.Algebra.Field.Rat
import Mathlib.Tactic.FieldSimp
import Mathlib.Tactic.Ring
import Mathlib.Tactic.Linarith
import Mathlib.Tactic.NormNum
import Mathlib.Tactic.Positivity
import Mathlib.Data.List.GetD
/-
Property C135: output grids given by their size, levels, and the axes written for them.
-/
namespace Verif.OutputAxes
open Verif.Spec.OutputAxes

section
variable {K : Type} [Field K] [LinearOrder K] [IsStrictOrderedRing K]

theorem bySize_ok {d2r : K} {q : Req K} {a : Arrays K} (h : bySize d2r q = .ok a) : (q.finer = 0 ∨ q.bilinear = true) ∧ (q.centerY = true ∨ q.nlat ≠ 1) := by
  unfold bySize at h
  by_cases h1 : (q.finer ≠ 0 && !q.bilinear) = true
  · rw [if_pos h1] at h; exact absurd h (by simp)
  · rw [if_neg h1] at h
    by_cases h2 : (!q.centerY && q.nlat == 1) = true
    · rw [if_pos h2] at h; exact absurd h (by simp)
    · simp at h1 h2
      refine ⟨?_, ?_⟩
      · by_cases hf : q.finer = 0
        · exact Or.inl hf
        · exact Or.inr (h1 hf)
      · by_cases hc : q.centerY = true
        · exact Or.inl hc
        · exact Or.inr (h2 (by simpa using hc))

theorem bySize_eq {d2r : K} {q : Req K} {a : Arrays K} (h : bySize d2r q = .ok a) :
    a.nx = q.nlon ∧ a.ny = q.nlat ∧ a.nxFine = 2 ^ q.finer * q.nlon ∧ a.nyFine = 2 ^ q.finer * (q.nlat - 1) + 1 ∧
    (∀ i : Nat, a.lont1D i = (q.lonBegin + (i + 1 / 2) * ((q.lonEnd - q.lonBegin) / q.nlon)) * d2r) ∧
    (∀ i : Nat, a.lonc1D i = (q.lonBegin + i * ((q.lonEnd - q.lonBegin) / q.nlon)) * d2r) ∧
    (q.centerY = true → ∀ j : Nat, a.latt1D j = (q.latBegin + (j + 1 / 2) * ((q.latEnd - q.latBegin) / q.nlat)) * d2r ∧
      a.latc1D j = (q.latBegin + j * ((q.latEnd - q.latBegin) / q.nlat)) * d2r ∧
      a.latFine j = (q.latBegin + (j + 1 / 2) * ((q.latEnd - q.latBegin) / ((2 ^ q.finer * (q.nlat - 1) + 1 : Nat) : K))) * d2r) ∧
    (q.centerY = false → ∀ j : Nat, a.latt1D j = (q.latBegin + j * ((q.latEnd - q.latBegin) / ((q.nlat - 1 : Nat) : K))) * d2r ∧
      a.latc1D j = (q.latBegin + (j - 1 / 2) * ((q.latEnd - q.latBegin) / ((q.nlat - 1 : Nat) : K))) * d2r ∧
      a.latFine j = (q.latBegin + j * ((q.latEnd - q.latBegin) / ((2 ^ q.finer * (q.nlat - 1) : Nat) : K))) * d2r) ∧
    (∀ i : Nat, a.lonFine i = (q.lonBegin + (i + 1 / 2) * ((q.lonEnd - q.lonBegin) / ((2 ^ q.finer * q.nlon : Nat) : K))) * d2r) := by
  have hk := bySize_ok h
  unfold bySize at h
  rw [if_neg (by rcases hk.1 with e | e <;> simp [e]), if_neg (by rcases hk.2 with e | e <;> simp [e])] at h
  injection h with h
  subst h
  refine ⟨rfl, rfl, rfl, rfl, fun i => rfl, fun i => rfl, fun hc j => ?_, fun hc j => ?_, fun i => rfl⟩
  · simp [hc]
  · simp [hc]

theorem even_of {a b d2r : K} (hd : d2r ≠ 0) {n : Nat} (hn : n ≠ 0) {mid edge : Nat → K} (hm : ∀ i : Nat, mid i = (a + (i + 1 / 2) * ((b - a) / n)) * d2r)
    (he : ∀ i : Nat, edge i = (a + i * ((b - a) / n)) * d2r) : Even a b n (fun l => mid l * (1 / d2r)) fun l => edge l * (1 / d2r) := by
  have hn' : (n : K) ≠ 0 := Nat.cast_ne_zero.2 hn
  refine ⟨?_, ?_, fun i _ => ⟨?_, ?_⟩⟩
  · simp only [he]; field_simp; simp
  · simp only [he]; field_simp; ring
  · simp only [he]; push_cast; field_simp; ring
  · simp only [he, hm]; push_cast; field_simp; ring

theorem holds (bndtype n : Nat) (edge : Nat → K) : HoldsEdges bndtype n (layoutBnd bndtype edge) edge := by
  refine ⟨fun h i _ => ?_, fun h i _ => ?_⟩
  · unfold layoutBnd; rw [if_pos h]
  · unfold layoutBnd
    rw [if_neg (by omega)]
    unfold pairs
    refine ⟨congrArg edge (by omega), congrArg edge (by omega)⟩

/-- C135: along longitude the file shows cells of equal width from `lonBegin` to `lonEnd`, the points in their middles and the bounds at their edges, in degrees. -/
theorem C135_longitude {d2r : K} (hd : d2r ≠ 0) {q : Req K} (hn : q.nlon ≠ 0) {a : Arrays K} (h : bySize d2r q = .ok a) (std ll : Bool) (levels : Option (List K × List K)) (x : Axis K)
    (hx : x.cart = .X) : ∃ edge, (outAxis d2r std ll a levels x).size = q.nlon ∧ Even q.lonBegin q.lonEnd q.nlon (outAxis d2r std ll a levels x).data edge ∧
      HoldsEdges (outAxis d2r std ll a levels x).bndtype q.nlon (outAxis d2r std ll a levels x).bnddata edge := by
  obtain ⟨h1, _, _, _, h5, h6, _⟩ := bySize_eq h
  refine ⟨fun l => a.lonc1D l * (1 / d2r), ?_⟩
  unfold outAxis
  simp only [hx]
  exact ⟨h1, even_of hd hn h5 h6, holds _ _ _⟩

/-- C135: so it is along latitude for conservative methods and with `--center_y`. -/
theorem C135_latitude {d2r : K} (hd : d2r ≠ 0) {q : Req K} (hn : q.nlat ≠ 0) (hc : q.centerY = true) {a : Arrays K} (h : bySize d2r q = .ok a) (std ll : Bool)
    (levels : Option (List K × List K)) (x : Axis K) (hx : x.cart = .Y) :
    ∃ edge, (outAxis d2r std ll a levels x).size = q.nlat ∧ Even q.latBegin q.latEnd q.nlat (outAxis d2r std ll a levels x).data edge ∧
      HoldsEdges (outAxis d2r std ll a levels x).bndtype q.nlat (outAxis d2r std ll a levels x).bnddata edge := by
  obtain ⟨_, h2, _, _, _, _, h7, _⟩ := bySize_eq h
  refine ⟨fun l => a.latc1D l * (1 / d2r), ?_⟩
  unfold outAxis
  simp only [hx]
  exact ⟨h2, even_of hd hn (fun i => (h7 hc i).1) (fun i => (h7 hc i).2.1), holds _ _ _⟩

/-- C135: without `--center_y` the first and the last row lie at the ends, the rows are evenly spaced, the bounds in the middle between them. -/
theorem C135_rows {d2r : K} (hd : d2r ≠ 0) {q : Req K} (hn : 2 ≤ q.nlat) (hc : q.centerY = false) {a : Arrays K} (h : bySize d2r q = .ok a) (std ll : Bool)
    (levels : Option (List K × List K)) (x : Axis K) (hx : x.cart = .Y) :
    let y := outAxis d2r std ll a levels x
    ∃ edge, y.size = q.nlat ∧ y.data 0 = q.latBegin ∧ y.data (q.nlat - 1) = q.latEnd ∧
      (∀ i, y.data (i + 1) - y.data i = (q.latEnd - q.latBegin) / ((q.nlat : K) - 1) ∧ edge (i + 1) = (y.data i + y.data (i + 1)) / 2) ∧
      HoldsEdges y.bndtype q.nlat y.bnddata edge := by
  obtain ⟨_, h2, _, _, _, _, _, h8, _⟩ := bySize_eq h
  have h8 := h8 hc
  have e1 : ((q.nlat - 1 : Nat) : K) = (q.nlat : K) - 1 := by rw [Nat.cast_sub (by omega), Nat.cast_one]
  have e2 : (q.nlat : K) - 1 ≠ 0 := by
    rw [← e1]; exact Nat.cast_ne_zero.2 (by omega)
  refine ⟨fun l => a.latc1D l * (1 / d2r), ?_⟩
  unfold outAxis
  simp only [hx]
  refine ⟨h2, ?_, ?_, fun i => ⟨?_, ?_⟩, holds _ _ _⟩
  · rw [(h8 0).1]; field_simp; simp
  · rw [(h8 _).1, e1]; field_simp; ring
  · rw [(h8 _).1, (h8 _).1, e1]; push_cast; field_simp; ring
  · rw [(h8 _).1, (h8 _).1, (h8 _).2.1, e1]; push_cast; field_simp; ring

/-- C135: the bounds then reach beyond the poles on a global grid. -/
theorem C135_poles_wrong {d2r : K} (hd : d2r ≠ 0) {q : Req K} (hn : 2 ≤ q.nlat) (hc : q.centerY = false) (hb : q.latBegin = -90) (he : q.latEnd = 90) {a : Arrays K}
    (h : bySize d2r q = .ok a) (std ll : Bool) (levels : Option (List K × List K)) (x : Axis K) (hx : x.cart = .Y) (ht : (outAxis d2r std ll a levels x).bndtype = 3) :
    (outAxis d2r std ll a levels x).bnddata 0 < -90 ∧ 90 < (outAxis d2r std ll a levels x).bnddata (2 * (q.nlat - 1) + 1) := by
  obtain ⟨_, _, _, _, _, _, _, h8, _⟩ := bySize_eq h
  have h8 := h8 hc
  have e1 : ((q.nlat - 1 : Nat) : K) = (q.nlat : K) - 1 := by rw [Nat.cast_sub (by omega), Nat.cast_one]
  have hn' : (2 : K) ≤ q.nlat := by exact_mod_cast hn
  have e3 : (0 : K) < (q.nlat : K) - 1 := by linarith
  have hbnd : ∀ l, (outAxis d2r std ll a levels x).bnddata l = pairs (fun l => a.latc1D l * (1 / d2r)) l := by
    intro l
    have ht' := ht
    unfold outAxis at ht' ⊢
    simp only [hx] at ht' ⊢
    rw [ht']
    rfl
  have hp : (0 : K) < (90 - -90) / ((q.nlat : K) - 1) := div_pos (by norm_num) e3
  have hv : ∀ l : Nat, a.latc1D l * (1 / d2r) = -90 + ((l : K) - 1 / 2) * ((90 - -90) / ((q.nlat : K) - 1)) := by
    intro l
    rw [(h8 l).2.1, hb, he, e1, mul_assoc, mul_one_div_cancel hd, mul_one]
  have hfull : ((q.nlat : K) - 1) * ((90 - -90) / ((q.nlat : K) - 1)) = 180 := by field_simp; norm_num
  refine ⟨?_, ?_⟩
  · rw [hbnd]
    unfold pairs
    simp only [hv]
    norm_num at hp ⊢
    linarith
  · rw [hbnd]
    unfold pairs
    rw [show (2 * (q.nlat - 1) + 1) / 2 + (2 * (q.nlat - 1) + 1) % 2 = q.nlat by omega]
    simp only [hv]
    nlinarith

/-- C135: with one row of latitudes and without `--center_y` no numbers come out. -/
theorem C135_one_row_wrong (d2r : K) {q : Req K} (hn : q.nlat = 1) (hc : q.centerY = false) (hb : q.bilinear = true) : bySize d2r q = .error .notNumbers := by
  unfold bySize
  rw [if_neg (by simp [hb]), if_pos (by simp [hn, hc])]

/-- C135: longitude and latitude get bounds in pairs if the standard dimensions are asked for, or if the output grid is a grid of latitudes and longitudes and the input has
none; otherwise they have bounds as in the input. The other axes keep theirs. -/
theorem C135_bndtype (d2r : K) (std ll : Bool) (a : Arrays K) (levels : Option (List K × List K)) (x : Axis K) :
    (outAxis d2r std ll a levels x).cart = x.cart ∧ (outAxis d2r std ll a levels x).bndtype =
      if (x.cart = .X ∨ x.cart = .Y) ∧ (std = true ∨ x.bndtype = 0 ∧ ll = true) then 3 else x.bndtype := by
  obtain ⟨c, n, b, d, bd⟩ := x
  cases c with
  | X => simp [outAxis]
  | Y => simp [outAxis]
  | Z => cases levels <;> simp [outAxis]
  | other => simp [outAxis]

/-- C135: finer grids: every `2^finer`-th row of the fine grid is a row of the grid, from the first to the last. -/
theorem C135_fine {d2r : K} {q : Req K} (hn : 2 ≤ q.nlat) (hc : q.centerY = false) {a : Arrays K} (h : bySize d2r q = .ok a) (j : Nat) :
    a.latFine (2 ^ q.finer * j) = a.latt1D j ∧ a.nyFine - 1 = 2 ^ q.finer * (a.ny - 1) := by
  obtain ⟨_, h2, _, h4, _, _, _, h8, _⟩ := bySize_eq h
  have h8 := h8 hc
  have e1 : ((q.nlat - 1 : Nat) : K) ≠ 0 := Nat.cast_ne_zero.2 (by omega)
  have e2 : (2 : K) ^ q.finer ≠ 0 := by positivity
  refine ⟨?_, by rw [h4, h2]; omega⟩
  rw [(h8 _).2.2, (h8 _).1]
  push_cast
  field_simp

/-- C135: with `--center_y` they are not: the first row of the fine grid that becomes the first row of the grid lies elsewhere. -/
theorem C135_fine_center_wrong {d2r : K} (hd : d2r ≠ 0) {q : Req K} (hn : 2 ≤ q.nlat) (hf : q.finer ≠ 0) (hc : q.centerY = true) (hr : q.latBegin ≠ q.latEnd) {a : Arrays K}
    (h : bySize d2r q = .ok a) : a.latFine 0 ≠ a.latt1D 0 := by
  obtain ⟨_, _, _, _, _, _, h7, _⟩ := bySize_eq h
  have h7 := h7 hc 0
  rw [h7.1, h7.2.2]
  intro e
  have e1 := mul_right_cancel₀ hd e
  have e2 : q.latEnd - q.latBegin ≠ 0 := sub_ne_zero.2 (Ne.symm hr)
  have hlt : q.nlat < 2 ^ q.finer * (q.nlat - 1) + 1 := by
    have : 2 ≤ 2 ^ q.finer := Nat.le_self_pow (n := q.finer) hf 2
    have := Nat.mul_le_mul_right (q.nlat - 1) this
    omega
  have hx : ((2 ^ q.finer * (q.nlat - 1) + 1 : Nat) : K) ≠ 0 := Nat.cast_ne_zero.2 (by omega)
  have hy : (q.nlat : K) ≠ 0 := Nat.cast_ne_zero.2 (by omega)
  generalize hz : ((2 ^ q.finer * (q.nlat - 1) + 1 : Nat) : K) = z at *
  have e3 : (q.latEnd - q.latBegin) / z = (q.latEnd - q.latBegin) / (q.nlat : K) := by
    simp only [Nat.cast_zero, zero_add] at e1
    have := add_left_cancel e1
    exact mul_left_cancel₀ (by norm_num : (1 / 2 : K) ≠ 0) this
  rw [div_eq_div_iff hx hy] at e3
  have e4 := mul_left_cancel₀ e2 e3
  rw [← hz] at e4
  have := Nat.cast_injective (R := K) e4
  omega

/-- C135: the rows are divided among the processes: each row belongs to one process, which has its corners. -/
theorem C135_parts {d2r : K} {q : Req K} {a : Arrays K} (h : bySize d2r q = .ok a) (npes : Nat) (h1 : 1 ≤ npes) (h2 : npes ≤ q.nlat) :
    ∃ ext, mppComputeExtent a.ny npes = .ok ext ∧ ext.length = npes ∧ ∀ j : Nat, j < q.nlat →
      ∃! k : Nat, ∃ x : Int × Int, ext[k]? = some x ∧ ∃ r : Nat, (r : Int) < x.2 - x.1 + 1 ∧ (r : Int) + x.1 = j ∧
        ∀ i, partLat a x.1 r i = a.latc1D j ∧ partLat a x.1 (r + 1) i = a.latc1D (j + 1) ∧ partLon a 0 r i = a.lonc1D i := by
  have hy : a.ny = q.nlat := (bySize_eq h).2.1
  rw [hy]
  obtain ⟨ext, he, hl, hp⟩ := C01_every_point_once q.nlat npes h1 h2
  refine ⟨ext, he, hl, fun j hj => ?_⟩
  obtain ⟨k, x, hk, hx1, hx2, hu⟩ := hp j (by omega) (by omega)
  refine ⟨k, ⟨x, hk, (j - x.1).toNat, by omega, by omega, fun i => ⟨?_, ?_, ?_⟩⟩, ?_⟩
  · unfold partLat; exact congrArg a.latc1D (by omega)
  · unfold partLat; exact congrArg a.latc1D (by omega)
  · unfold partLon; exact congrArg a.lonc1D (by omega)
  · rintro k' ⟨x', hk', r, hr1, hr2, _⟩
    exact hu k' x' hk' (by omega) (by omega)

/-- C135: the levels of `--dst_vgrid` with their bounds: if `zeta` increases, each level lies between its bounds, which are those of the neighbours. A file with an even
number of values is refused. -/
theorem C135_levels {d2r : K} (zeta : List K) (n : Nat) (hz : zeta.length = 2 * n + 1) (hi : zeta.Pairwise (· < ·)) (std ll : Bool) (a : Arrays K) (x : Axis K) (hx : x.cart = .Z) :
    ∃ lv, outLevels zeta = .ok lv ∧ (outAxis d2r std ll a (some lv) x).size = n ∧ ∃ edge, zeta.head? = some (edge 0) ∧
      HoldsEdges (outAxis d2r std ll a (some lv) x).bndtype n (outAxis d2r std ll a (some lv) x).bnddata edge ∧
      ∀ k < n, edge k < (outAxis d2r std ll a (some lv) x).data k ∧ (outAxis d2r std ll a (some lv) x).data k < edge (k + 1) ∧
        zeta[2 * k + 1]? = some ((outAxis d2r std ll a (some lv) x).data k) := by
  refine ⟨((List.range n).map fun k => zeta.getD (2 * k + 1) 0, (List.range (n + 1)).map fun k => zeta.getD (2 * k) 0), ?_, ?_, ?_⟩
  · unfold outLevels
    rw [if_neg (by omega), show (zeta.length - 1) / 2 = n by omega]
  · unfold outAxis; simp only [hx]; simp
  · refine ⟨fun l => ((List.range (n + 1)).map fun k => zeta.getD (2 * k) 0).getD l 0, ?_, ?_, ?_⟩
    · match zeta, hz with
      | z :: t, _ => simp
    · unfold outAxis; simp only [hx]; exact holds _ _ _
    · intro k hk
      have hlt : ∀ i j (hi' : i < zeta.length) (hj : j < zeta.length), i < j → zeta[i] < zeta[j] := fun i j hi' hj hij => List.pairwise_iff_getElem.1 hi i j hi' hj hij
      have ed : ∀ l ≤ n, ((List.range (n + 1)).map fun k => zeta.getD (2 * k) 0).getD l 0 = zeta.getD (2 * l) 0 := by
        intro l hl
        rw [List.getD_eq_getElem _ _ (by simp; omega)]
        simp
      have dt : (outAxis d2r std ll a (some ((List.range n).map fun k => zeta.getD (2 * k + 1) 0, (List.range (n + 1)).map fun k => zeta.getD (2 * k) 0)) x).data k = zeta.getD (2 * k + 1) 0 := by
        unfold outAxis
        simp only [hx]
        rw [List.getD_eq_getElem _ _ (by simpa using hk)]
        simp
      simp only [dt]
      rw [ed k (by omega), ed (k + 1) (by omega), List.getD_eq_getElem _ _ (by omega : 2 * k < zeta.length), List.getD_eq_getElem _ _ (by omega : 2 * k + 1 < zeta.length),
        List.getD_eq_getElem _ _ (by omega : 2 * (k + 1) < zeta.length)]
      exact ⟨hlt _ _ _ _ (by omega), hlt _ _ _ _ (by omega), List.getElem?_eq_getElem _⟩

theorem C135_even_refused (zeta : List K) (n : Nat) (h : zeta.length = 2 * n + 2) : outLevels zeta = .error .refused := by
  unfold outLevels
  rw [if_pos (by omega)]

/-- C135: other axes are copied with their bounds. -/
theorem C135_copied (d2r : K) (std ll : Bool) (a : Arrays K) (x : Axis K) : (x.cart = .other → ∀ lv, outAxis d2r std ll a lv x = x) ∧ (x.cart = .Z → outAxis d2r std ll a none x = x) := by
  obtain ⟨c, s, b, d, e⟩ := x
  refine ⟨fun h lv => ?_, fun h => ?_⟩ <;> simp only [] at h <;> subst h <;> simp [outAxis]

/-- C135: on a lon-lat grid the horizontal axes have bounds, also if those of the input have none. -/
theorem C135_bounds (d2r : K) (std : Bool) (a : Arrays K) (lv : Option (List K × List K)) (x : Axis K) (hx : x.cart = .X ∨ x.cart = .Y) (hb : x.bndtype ≤ 2) :
    (outAxis d2r std true a lv x).bndtype ≠ 0 := by
  unfold outAxis
  rcases hx with h | h <;> simp only [h] <;> cases std <;> simp <;> by_cases h0 : x.bndtype = 0 <;> simp [h0]

end

/-- A global grid of 2 degrees by 3 degrees. -/
def sizeEx : Req ℚ := ⟨0, 360, -90, 90, 180, 60, 0, true, false⟩

example : ∃ a, bySize (1 / 57) sizeEx = .ok a ∧ a.latc1D 0 * 57 = -90 ∧ a.latt1D 0 * 57 = -177 / 2 := ⟨_, rfl, by norm_num [sizeEx], by norm_num [sizeEx]⟩

/-- The grid of the bilinear method by default. -/
def sizeEx2 : Req ℚ := ⟨0, 360, -90, 90, 144, 91, 1, false, true⟩

example : ∃ a, bySize (1 / 57) sizeEx2 = .ok a ∧ a.nyFine = 181 ∧ a.latFine 4 = a.latt1D 2 :=
  ⟨_, rfl, by rfl, (C135_fine (q := sizeEx2) (d2r := 1 / 57) (by decide) rfl rfl 2).1⟩

end Verif.OutputAxes
