import Verif.Lemmas.TransferMosaicProduct
import Verif.Props.TransferMosaic
import Mathlib.Algebra.Field.Rat
import Mathlib.Algebra.BigOperators.Group.List.Basic
import Mathlib.Algebra.BigOperators.Ring.List
/-
C112 to C114: contacts, grids of atmosphere and land, vertical grid and exchange grids of `transfer_to_mosaic_grid`.
-/
namespace Verif.TransferMosaic
open Verif.Spec.TransferMosaic Verif.Spec Verif.MosaicContact

/-! ### C112 -/

/-- C112: a contact is written exactly for the two kinds of boundary; it is the right one exactly if the ocean grid has 180 by
90 cells. -/
theorem C112_ocean_partial (xb yb : String) (nx ny h : Nat) (hx : 0 < nx) (hy : 0 < ny) (hh : 0 < h) :
    (oceanContacts xb yb).length = (if xb = "cyclic" then 1 else 0) + (if yb = "fold_north_edge" then 1 else 0) ∧
    (cyclicX nx ny ∈ oceanContacts xb yb ↔ xb = "cyclic" ∧ nx = 180 ∧ ny = 90) ∧
    (foldNorth h ny ∈ oceanContacts xb yb ↔ yb = "fold_north_edge" ∧ h = 90 ∧ ny = 90) := by
  have ex : cyclicX nx ny = ⟨2 * nx, 2 * nx, 1, 2 * ny, 1, 1, 1, 2 * ny⟩ := by
    simp only [cyclicX, superIx, AxisPart.super]
    congr 1 <;> omega
  have ef : foldNorth h ny = ⟨1, 2 * h, 2 * ny, 2 * ny, 4 * h, 2 * h + 1, 2 * ny, 2 * ny⟩ := by
    simp only [foldNorth, superIx, AxisPart.super]
    congr 1 <;> omega
  rw [ex, ef]
  unfold oceanContacts
  refine ⟨?_, ?_, ?_⟩
  · by_cases h1 : xb = "cyclic" <;> by_cases h2 : yb = "fold_north_edge" <;> simp [h1, h2]
  · by_cases h1 : xb = "cyclic" <;> by_cases h2 : yb = "fold_north_edge" <;> simp [h1, h2] <;> omega
  · by_cases h1 : xb = "cyclic" <;> by_cases h2 : yb = "fold_north_edge" <;> simp [h1, h2] <;> omega

/-- C112, what goes wrong: the numbers 360 and 180 are fixed in the program. The ocean grid with 360 by 200 cells, cyclic and
folded, gets contacts that are not its own. -/
theorem C112_ocean_wrong :
    cyclicX 360 200 ∉ oceanContacts "cyclic" "fold_north_edge" ∧ foldNorth 180 200 ∉ oceanContacts "cyclic" "fold_north_edge" := by
  constructor
  · intro h
    have := ((C112_ocean_partial "cyclic" "fold_north_edge" 360 200 1 (by omega) (by omega) (by omega)).2.1).1 h
    omega
  · intro h
    have := ((C112_ocean_partial "cyclic" "fold_north_edge" 1 200 180 (by omega) (by omega) (by omega)).2.2).1 h
    omega

/-- C112, what goes wrong: the contact of the land grid is given in cells of the model, not of the supergrid; it is wrong for
every land grid. If the number of rows is odd and more than one, `read_mosaic_contact` refuses it. -/
theorem C112_land_wrong (nx ny : Nat) (hx : 0 < nx) (hy : 0 < ny) :
    cyclicX nx ny ∉ landContacts (nx + 1) (ny + 1) ∧
    (∀ c ∈ landContacts (nx + 1) (ny + 1), ny % 2 = 1 → 1 < ny → transfer c.js1 c.je1 = .error .refine) := by
  constructor
  · simp only [landContacts, List.mem_singleton, cyclicX, superIx, AxisPart.super, Ix.mk.injEq]
    omega
  · intro c hc hodd h1
    simp only [landContacts, List.mem_singleton] at hc
    subst hc
    unfold transfer
    have e : ((ny + 1 : Nat) : Int) - 1 = ny := by push_cast; ring
    simp only [e]
    rw [if_neg (by omega), if_pos (show (ny : Int) > 1 by omega)]
    rw [if_pos]
    right
    show ((ny : Int) - 2).tmod 2 ≠ 0
    rw [Int.tmod_eq_emod_of_nonneg (by omega)]
    omega

/-- C112, what goes wrong: the atmosphere gets no contact, whatever the grid, so an atmosphere around the globe is not cyclic. -/
theorem C112_atmos_wrong : ∀ nx ny : Nat, cyclicX nx ny ∉ atmosContacts := by
  intro nx ny
  unfold atmosContacts
  simp

/-- A land grid of the size used with a 1 degree model. -/
example : landContacts 145 91 = [⟨144, 144, 1, 90, 1, 1, 1, 90⟩] ∧ cyclicX 144 90 = ⟨288, 288, 1, 180, 1, 1, 1, 180⟩ := by decide

/-! ### C113 -/

/-- C113: the grid of atmosphere or land. With one more boundary than cell centres along each axis, every point of the
supergrid has the boundary (even places) or centre (odd places) of its column and row. -/
theorem C113_product {α : Type} (xb xt yb yt : List α) (hx : xb.length = xt.length + 1) (hy : yb.length = yt.length + 1)
    (r c : Nat) (hr : r < yb.length + yt.length) (hc : c < xb.length + xt.length) :
    val (xb.length + xt.length) (product xb xt yb yt).1 r c = (if c % 2 = 0 then xb[c / 2]? else xt[c / 2]?) ∧
    val (xb.length + xt.length) (product xb xt yb yt).2 r c = (if r % 2 = 0 then yb[r / 2]? else yt[r / 2]?) ∧
    (val (xb.length + xt.length) (product xb xt yb yt).1 r c).isSome ∧
    (val (xb.length + xt.length) (product xb xt yb yt).2 r c).isSome := by
  have h1 : val (xb.length + xt.length) (product xb xt yb yt).1 r c = (if c % 2 = 0 then xb[c / 2]? else xt[c / 2]?) := by
    unfold val product
    dsimp only
    rw [rows_copy _ _ _ r c hr hc]
    by_cases h : c % 2 = 0
    · rw [if_pos h, ← interleave_even 1 (by omega) xb xt (fun _ => none) (c / 2) (by omega)]
      congr 1; omega
    · rw [if_neg h, ← interleave_odd 1 (by omega) xb xt (fun _ => none) (c / 2) (by omega)]
      congr 1; omega
  have h2 : val (xb.length + xt.length) (product xb xt yb yt).2 r c = (if r % 2 = 0 then yb[r / 2]? else yt[r / 2]?) := by
    unfold val product
    dsimp only
    rw [cols_copy _ _ _ r c hr hc]
    by_cases h : r % 2 = 0
    · rw [if_pos h, ← interleave_even (xb.length + xt.length) (by omega) yb yt (fun _ => none) (r / 2) (by omega)]
      congr 2; omega
    · rw [if_neg h, ← interleave_odd (xb.length + xt.length) (by omega) yb yt (fun _ => none) (r / 2) (by omega)]
      congr 2; omega
  refine ⟨h1, h2, ?_, ?_⟩
  · rw [h1]
    by_cases h : c % 2 = 0
    · rw [if_pos h, List.getElem?_eq_getElem (by omega)]; rfl
    · rw [if_neg h, List.getElem?_eq_getElem (by omega)]; rfl
  · rw [h2]
    by_cases h : r % 2 = 0
    · rw [if_pos h, List.getElem?_eq_getElem (by omega)]; rfl
    · rw [if_neg h, List.getElem?_eq_getElem (by omega)]; rfl

theorem vgrid_at {F : Type} [Field F] (zb zt : List F) :
    (vgrid zb zt).2 0 = some 0 ∧
    (∀ k, k < zt.length → (vgrid zb zt).2 (2 * k + 1) = zt[k]? ∧ (vgrid zb zt).2 (2 * k + 2) = zb[k]?) ∧
    (∀ m, 2 * zt.length < m → (vgrid zb zt).2 m = none) := by
  unfold vgrid
  dsimp only
  refine ⟨?_, fun k hk => ⟨?_, ?_⟩, fun m hm => ?_⟩
  · rw [fold_miss (fun z : Mem F => z 0)]
    · exact put_same _ _ _
    · intro s i _
      rw [put_ne _ _ _ _ (by omega), put_ne _ _ _ _ (by omega)]
  · refine fold_hit (fun z : Mem F => z (2 * k + 1)) (fun _ => True) _ _ k hk _ (fun _ _ _ _ => trivial) (fun s _ => ?_)
      (fun s i _ hne => ?_) _ trivial
    · rw [put_ne _ _ _ _ (by omega), put_same]; rfl
    · rw [put_ne _ _ _ _ (by omega), put_ne _ _ _ _ (by omega)]
  · refine fold_hit (fun z : Mem F => z (2 * k + 2)) (fun _ => True) _ _ k hk _ (fun _ _ _ _ => trivial) (fun s _ => ?_)
      (fun s i _ hne => ?_) _ trivial
    · rw [put_same]; rfl
    · rw [put_ne _ _ _ _ (by omega), put_ne _ _ _ _ (by omega)]
  · rw [fold_miss (fun z : Mem F => z m)]
    · exact put_ne _ _ _ _ (by omega)
    · intro s i hi
      have := List.mem_range.1 hi
      rw [put_ne _ _ _ _ (by omega), put_ne _ _ _ _ (by omega)]

/-- C113: the vertical grid. With as many lower boundaries as levels, `zeta` has two values for each level and one more: 0,
then for each level its depth and its lower boundary. -/
theorem C113_vgrid {F : Type} [Field F] (zb zt : List F) (h : zb.length = zt.length) :
    (vgrid zb zt).1 = 2 * zt.length + 1 ∧ (vgrid zb zt).2 0 = some 0 ∧
    ∀ k (hk : k < zt.length), (vgrid zb zt).2 (2 * k + 1) = some zt[k] ∧ (vgrid zb zt).2 (2 * k + 2) = some zb[k] := by
  obtain ⟨h0, h1, _⟩ := vgrid_at zb zt
  refine ⟨by simp only [vgrid]; omega, h0, fun k hk => ?_⟩
  obtain ⟨a, b⟩ := h1 k hk
  rw [a, b, List.getElem?_eq_getElem hk, List.getElem?_eq_getElem (by omega)]
  exact ⟨rfl, rfl⟩

/-- C113, what goes wrong: the two lengths are not compared. With more lower boundaries than levels the last values of `zeta`
are memory that was not written; with fewer, values are read beyond the end of the array. -/
theorem C113_vgrid_wrong {F : Type} [Field F] (zb zt : List F) :
    (zt.length < zb.length → ∃ m < (vgrid zb zt).1, (vgrid zb zt).2 m = none) ∧
    (zb.length < zt.length → ∃ m, m ≤ 2 * zt.length ∧ (vgrid zb zt).2 m = none) := by
  obtain ⟨_, h1, h2⟩ := vgrid_at zb zt
  constructor
  · intro h
    exact ⟨2 * zt.length + 1, by simp only [vgrid]; omega, h2 _ (by omega)⟩
  · intro h
    refine ⟨2 * zb.length + 2, by omega, ?_⟩
    rw [(h1 zb.length h).2]
    exact List.getElem?_eq_none (le_refl _)

/-- A vertical grid with three levels. -/
example : (List.range 7).map (vgrid ([10, 25, 50] : List ℚ) [5, 17, 40]).2 =
    [some 0, some 5, some 10, some 17, some 25, some 40, some 50] := by decide +kernel

/-- An atmosphere grid with two by one cells. -/
example : (List.range 15).map (product ([0, 180, 360] : List ℚ) [90, 270] [-90, 90] [0]).1 =
      (List.replicate 3 [some 0, some 90, some 180, some 270, some 360]).flatten ∧
    (List.range 15).map (product ([0, 180, 360] : List ℚ) [90, 270] [-90, 90] [0]).2 =
      List.replicate 5 (some (-90)) ++ List.replicate 5 (some 0) ++ List.replicate 5 (some 90) := by decide +kernel

/-! ### C114 -/

/-- The variables of an exchange grid have one value for each cell. -/
def OldX.Whole {F : Type} (o : OldX F) : Prop :=
  o.i1.length = o.area.length ∧ o.j1.length = o.area.length ∧ o.i2.length = o.area.length ∧ o.j2.length = o.area.length ∧
  o.di.length = o.area.length ∧ o.dj.length = o.area.length

/-- C114: an exchange grid file has for each exchange cell its area in square metres, the column and row of its two parent
cells and, with second order interpolation, the distances to the first parent; the total area is the old one times the area of
the sphere. -/
theorem C114_xgrid {F : Type} [Field F] (c : F) (order : Nat) (a b : String) (o : OldX F) (f : NewX F) (hw : o.Whole)
    (h : xgrid c order a b o = some f) :
    f.ncells = o.area.length ∧ f.contact = a ++ "_mosaic:tile1::" ++ b ++ "_mosaic:tile1" ∧
    f.area.length = o.area.length ∧ f.area.sum = o.area.sum * c ∧
    (∀ n, n < f.ncells → f.area[n]? = (o.area[n]?).map (· * c) ∧
      f.cell1 n 0 = o.i1[n]? ∧ f.cell1 n 1 = o.j1[n]? ∧ f.cell2 n 0 = o.i2[n]? ∧ f.cell2 n 1 = o.j2[n]? ∧
      (f.cell1 n 0).isSome ∧ (f.cell1 n 1).isSome ∧ (f.cell2 n 0).isSome ∧ (f.cell2 n 1).isSome) ∧
    (f.dist1.isSome ↔ order = 2) ∧
    (∀ d n, f.dist1 = some d → n < f.ncells → d n 0 = o.di[n]? ∧ d n 1 = o.dj[n]? ∧ (d n 0).isSome ∧ (d n 1).isSome) := by
  obtain ⟨w1, w2, w3, w4, w5, w6⟩ := hw
  unfold xgrid at h
  by_cases h0 : 0 < o.area.length
  · rw [if_pos h0, Option.some.injEq] at h
    subst h
    refine ⟨rfl, rfl, by simp, ?_, fun n hn => ?_, ?_, fun d n hd hn => ?_⟩
    · show (o.area.map (fun v => v * c)).sum = o.area.sum * c
      generalize o.area = l
      induction l with
      | nil => simp
      | cons v t ih => simp only [List.map_cons, List.sum_cons, ih]; ring
    · have hn : n < o.area.length := hn
      refine ⟨by simp, ?_⟩
      simp only [putColumn]
      simp [w1, w2, w3, w4, hn]
    · by_cases ho : order = 2 <;> simp [ho]
    · have hn : n < o.area.length := hn
      by_cases ho : order = 2
      · simp only [ho, if_true, Option.some.injEq] at hd
        subst hd
        simp only [putColumn]
        simp [w5, w6, hn]
      · simp [ho] at hd
  · rw [if_neg h0] at h; cases h

/-- C114, what goes wrong: with second order interpolation the file promises the distances to the second parent
(`tile2_distance`) and never writes one. -/
theorem C114_distance_wrong {F : Type} [Field F] (c : F) (a b : String) (o : OldX F) (f : NewX F)
    (h : xgrid c 2 a b o = some f) : ∃ d, f.dist2 = some d ∧ ∀ n k, d n k = none := by
  unfold xgrid at h
  by_cases h0 : 0 < o.area.length
  · rw [if_pos h0, Option.some.injEq] at h
    subst h
    exact ⟨_, rfl, fun _ _ => rfl⟩
  · rw [if_neg h0] at h; cases h

/-- C114: the exchange grid files named in `mosaic.nc` are the files that exist exactly if none of the three exchange grids is
empty. -/
theorem C114_named_partial {F : Type} [Field F] (c : F) (order : Nat) (axl axo lxo : OldX F) :
    (∀ n, n ∈ mosaicXFiles ↔ n ∈ (xgridFiles c order axl axo lxo).map Prod.fst) ↔
      axl.area ≠ [] ∧ axo.area ≠ [] ∧ lxo.area ≠ [] := by
  have e : ∀ (a b : String) (o : OldX F), (xgrid c order a b o).isSome ↔ o.area ≠ [] := by
    intro a b o
    unfold xgrid
    rw [List.ne_nil_iff_length_pos]
    by_cases h0 : 0 < o.area.length
    · simp [h0]
    · simp [h0]
  have key : ∀ (s : String) (x : Option (NewX F)), ((x.map (fun f => (s, f))).toList.map Prod.fst) = if x.isSome then [s] else [] := by
    intro s x; cases x <;> rfl
  unfold xgridFiles mosaicXFiles
  simp only [List.map_append, key]
  have e1 := e "atmos" "land" axl
  have e2 := e "atmos" "ocean" axo
  have e3 := e "land" "ocean" lxo
  rw [← e1, ← e2, ← e3]
  constructor
  · intro h
    have h1 := (h "atmos_mosaicXland_mosaic.nc").1 (by simp)
    have h2 := (h "atmos_mosaicXocean_mosaic.nc").1 (by simp)
    have h3 := (h "land_mosaicXocean_mosaic.nc").1 (by simp)
    refine ⟨?_, ?_, ?_⟩
    · by_contra hc
      simp only [hc] at h1
      revert h1
      cases (xgrid c order "atmos" "ocean" axo).isSome <;> cases (xgrid c order "land" "ocean" lxo).isSome <;> decide
    · by_contra hc
      simp only [hc] at h2
      revert h2
      cases (xgrid c order "atmos" "land" axl).isSome <;> cases (xgrid c order "land" "ocean" lxo).isSome <;> decide
    · by_contra hc
      simp only [hc] at h3
      revert h3
      cases (xgrid c order "atmos" "land" axl).isSome <;> cases (xgrid c order "atmos" "ocean" axo).isSome <;> decide
  · rintro ⟨h1, h2, h3⟩ n
    simp only [h1, h2, h3, if_true]
    simp only [List.mem_cons, List.not_mem_nil, or_false, List.cons_append, List.nil_append]
    tauto

/-- C114, what goes wrong: `mosaic.nc` names the exchange grid of land and ocean also if there is none and no file was
written. -/
theorem C114_named_wrong {F : Type} [Field F] (c : F) (order : Nat) (axl axo lxo : OldX F) (h : lxo.area = []) :
    "land_mosaicXocean_mosaic.nc" ∈ mosaicXFiles ∧
    "land_mosaicXocean_mosaic.nc" ∉ (xgridFiles c order axl axo lxo).map Prod.fst := by
  refine ⟨by simp [mosaicXFiles], ?_⟩
  unfold xgridFiles
  have : xgrid c order "land" "ocean" lxo = none := by unfold xgrid; simp [h]
  rw [this]
  have key : ∀ (s : String) (x : Option (NewX F)), ((x.map (fun f => (s, f))).toList.map Prod.fst) = if x.isSome then [s] else [] := by
    intro s x; cases x <;> rfl
  simp only [List.map_append, key, Option.isSome_none, Bool.false_eq_true, if_false]
  cases (xgrid c order "atmos" "land" axl).isSome <;> cases (xgrid c order "atmos" "ocean" axo).isSome <;> decide

/-- Two exchange cells. -/
def tmX : OldX ℚ := ⟨[1/4, 3/4], [1, 2], [5, 6], [10, 11], [20, 21], [7, 8], [9, 10]⟩

example : tmX.Whole := by unfold OldX.Whole tmX; decide

example : (xgrid 100 2 "atmos" "land" tmX).map (fun f => (f.area, f.cell1 1 0, f.cell1 1 1, f.cell2 0 1)) =
    some ([25, 75], some 2, some 6, some 20) := by decide +kernel

end Verif.TransferMosaic
