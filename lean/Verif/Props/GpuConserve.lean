import Verif.Lemmas.GpuConserve
import Verif.Props.SecondOrder
/-
C125: fregrid_gpu remaps a field as fregrid does.

Proved for every order of the atomic accesses of the parallel loops. The target grid option is right only for one input
tile and if the iterations of an unprotected loop happen not to overlap.
-/
namespace Verif
open Conserve GpuConserve Spec

variable {K : Type} [Field K] [LinearOrder K]

/-- The accesses of the parallel loops, in whatever order they take place, leave the same sums, areas and marks as
the loop of the CPU version, in whatever order that one has the cells. -/
theorem C125_order (cf : Conf K) (s : Src K) (cells : List (XCell K)) (tiles : List (List (XCell K)))
    (ht : cells.Perm tiles.flatten) (hp : Plain cf s cells) (l : List (Op K))
    (hl : l.Perm ((tiles.map (List.map (gcell cf))).flatten.flatMap (ops cf s))) :
    exec l = accumulate cf s cells := by
  have hp' : Plain cf s tiles.flatten :=
    ⟨fun c hc => hp.inside c (ht.mem_iff.mpr hc), fun h c hc => hp.data h c (ht.mem_iff.mpr hc),
      fun h c hc => hp.mask h c (ht.mem_iff.mpr hc)⟩
  rw [exec_perm hl, ← List.map_flatten, exec_ops cf s _ hp', accumulate_perm cf s ht]

/-- Without the target grid option, or for sums, the field of the GPU version is that of the CPU version, for every
order of the accesses. -/
theorem C125_partial (cf : Conf K) (s : Src K) (cells : List (XCell K)) (tiles : List (List (XCell K)))
    (ht : cells.Perm tiles.flatten) (hp : Plain cf s cells) (order : List (Op K) → List (Op K))
    (ho : ∀ l, (order l).Perm l) (sched : Nat → List Nat) (h : cf.sum = true ∨ cf.target = false) (d : Nat → K)
    (hd : scalarInterp cf s cells = some d) :
    scalarGpu cf s order sched (tiles.map (List.map (gcell cf))) = d := by
  unfold scalarInterp at hd
  split at hd
  · exact absurd hd (by simp)
  · rw [← Option.some.inj hd]
    unfold scalarGpu
    rw [C125_order cf s cells tiles ht hp _ (ho _)]
    exact finish_noTarget cf cells sched _ _ h

/-- With the target grid option the same holds for one input tile, if the iterations of the loop that adds up the area
do not overlap. -/
theorem C125_target_partial (cf : Conf K) (s : Src K) (cells tile : List (XCell K)) (ht : cells.Perm tile)
    (hp : Plain cf s cells) (order : List (Op K) → List (Op K)) (ho : ∀ l, (order l).Perm l)
    (sched : Nat → List Nat) (hs : OneByOne tile.length (sched 0)) (d : Nat → K)
    (hd : scalarInterp cf s cells = some d) :
    scalarGpu cf s order sched [tile.map (gcell cf)] = d := by
  have ht' : cells.Perm [tile].flatten := by simpa using ht
  by_cases h : cf.sum = true ∨ cf.target = false
  · exact C125_partial cf s cells [tile] ht' hp order ho sched h d hd
  · have h1 : cf.sum = false := by
      cases hh : cf.sum
      · rfl
      · exact absurd (Or.inl hh) h
    have h2 : cf.target = true := by
      cases hh : cf.target
      · exact absurd (Or.inr hh) h
      · rfl
    unfold scalarInterp at hd
    split at hd
    · exact absurd hd (by simp)
    · rw [← Option.some.inj hd]
      unfold scalarGpu
      rw [show exec (order ([tile.map (gcell cf)].flatten.flatMap (ops cf s))) = accumulate cf s cells from
        C125_order cf s cells [tile] ht' hp _ (ho _)]
      funext n
      unfold finishGpu finish
      rw [h1, h2]
      simp only [Bool.false_eq_true, if_false, if_true, targetLoop]
      rw [raceTile_serial cf _ _ (by rwa [List.length_map]), targetArea_gcell, targetArea_perm cf ht]
      rfl

/-- The distances of order 2 agree with those of the CPU version for one output tile, if no source cell is covered
exactly to the ratio that is tested. -/
theorem C125_centroid_partial [IsStrictOrderedRing K] (nx1 : Nat → Nat) (ratio : K)
    (cellArea fullLon fullLat : Nat → Nat → K) (raw : List (XRaw K)) (hpos : ∀ r ∈ raw, 0 < r.area)
    (hne : ∀ r ∈ raw, let i := r.j1 * nx1 r.t1 + r.i1
      |total (fun r => r.area) (raw.filter fun q => decide (q.t1 = r.t1 ∧ q.j1 * nx1 q.t1 + q.i1 = i)) -
        cellArea r.t1 i| / cellArea r.t1 i ≠ ratio) :
    (recentre nx1 ratio cellArea fullLon fullLat raw).map (fun c => (c.di, c.dj)) =
      raw.map fun r => (distance nx1 ratio cellArea fullLon (fun r => r.clon) raw r,
        distance nx1 ratio cellArea fullLat (fun r => r.clat) raw r) := by
  unfold recentre
  rw [List.map_map]
  apply List.map_congr_left
  intro r hr
  have hsa : 0 < cellSum nx1 (fun r => r.area) raw r.t1 (r.j1 * nx1 r.t1 + r.i1) := by
    rw [cellSum_eq]
    have hm : r ∈ raw.filter fun q => decide (q.t1 = r.t1 ∧ q.j1 * nx1 q.t1 + q.i1 = r.j1 * nx1 r.t1 + r.i1) := by
      simp [hr]
    have hall : ∀ q ∈ raw.filter (fun q => decide (q.t1 = r.t1 ∧ q.j1 * nx1 q.t1 + q.i1 = r.j1 * nx1 r.t1 + r.i1)),
        0 < q.area := fun q hq => hpos q (List.mem_filter.mp hq).1
    revert hm hall
    generalize (raw.filter fun q => decide (q.t1 = r.t1 ∧ q.j1 * nx1 q.t1 + q.i1 = r.j1 * nx1 r.t1 + r.i1)) = l
    intro hm hall
    have nn : ∀ l : List (XRaw K), (∀ q ∈ l, 0 < q.area) → 0 ≤ total (fun r => r.area) l := by
      intro l
      induction l with
      | nil => intro _; simp [total]
      | cons a l ih =>
        intro h
        rw [total_cons]
        exact add_nonneg (h a (by simp)).le (ih fun q hq => h q (by simp [hq]))
    induction l with
    | nil => cases hm
    | cons a l ih =>
      rw [total_cons]
      exact add_pos_of_pos_of_nonneg (hall a (by simp)) (nn l fun q hq => hall q (by simp [hq]))
  have hn := hne r hr
  dsimp only at hn
  rw [← cellSum_eq nx1 (fun r => r.area)] at hn
  have key : ∀ (full : Nat → Nat → K) (f : XRaw K → K),
      cellCentroid nx1 ratio cellArea full f raw r.t1 (r.j1 * nx1 r.t1 + r.i1) =
        (if |cellSum nx1 (fun r => r.area) raw r.t1 (r.j1 * nx1 r.t1 + r.i1) -
            cellArea r.t1 (r.j1 * nx1 r.t1 + r.i1)| / cellArea r.t1 (r.j1 * nx1 r.t1 + r.i1) > ratio
          then full r.t1 (r.j1 * nx1 r.t1 + r.i1) / cellArea r.t1 (r.j1 * nx1 r.t1 + r.i1)
          else cellSum nx1 f raw r.t1 (r.j1 * nx1 r.t1 + r.i1) /
            cellSum nx1 (fun r => r.area) raw r.t1 (r.j1 * nx1 r.t1 + r.i1)) := by
    intro full f
    unfold cellCentroid
    dsimp only
    rw [if_pos hsa]
    rcases lt_or_gt_of_ne hn with h | h
    · rw [if_pos h, if_neg (not_lt.mpr h.le)]
    · rw [if_neg (not_lt.mpr h.le), if_pos h]
  simp only [Function.comp]
  rw [key fullLon, key fullLat]
  rfl

/-! ### Where the two versions differ -/

/-- Two input tiles that cover half of the one target cell each; a constant field. -/
def gcTiles : List (List (XCell ℚ)) := [[⟨0, 0, 0, 0, 0, 1, 0, 0⟩], [⟨1, 0, 0, 0, 0, 1, 0, 0⟩]]
def gcConf : Conf ℚ := ⟨fun _ => 1, 1, false, false, -100, none, false, none, 0, fun _ _ => 1, true, fun _ => 2⟩
def gcSrc : Src ℚ := ⟨fun _ _ => 6, fun _ _ => 0, fun _ _ => 0, fun _ _ => false⟩

theorem gcPlain : Plain gcConf gcSrc gcTiles.flatten :=
  ⟨by decide +kernel, fun _ => by decide +kernel, fun _ _ _ => rfl⟩

/-- The scaling by the covered part of the target cell is inside of the loop over the input tiles: with two tiles the
data are scaled twice, first by the part covered by the first tile. A constant field on a target cell that is covered
is halved, although no two iterations overlap. -/
theorem C125_tiles_wrong : ∃ (cf : Conf ℚ) (s : Src ℚ) (tiles : List (List (XCell ℚ))) (d : Nat → ℚ),
    Plain cf s tiles.flatten ∧ cf.target = true ∧ scalarInterp cf s tiles.flatten = some d ∧ d 0 = 6 ∧
      scalarGpu cf s id (fun _ => [0, 0]) (tiles.map (List.map (gcell cf))) 0 = 3 :=
  ⟨gcConf, gcSrc, gcTiles, finish gcConf gcTiles.flatten (accumulate gcConf gcSrc gcTiles.flatten), gcPlain, rfl,
    by rfl, by decide +kernel, by decide +kernel⟩

example : OneByOne 1 [0, 0] := ⟨[0], by decide, rfl⟩

/-- One input tile with two cells on one target cell. -/
def gcTile : List (XCell ℚ) := [⟨0, 0, 0, 0, 0, 1, 0, 0⟩, ⟨0, 1, 0, 0, 0, 1, 0, 0⟩]
def gcConf1 : Conf ℚ := { gcConf with nx1 := fun _ => 2 }

theorem gcPlain1 : Plain gcConf1 gcSrc gcTile :=
  ⟨by decide +kernel, fun _ => by decide +kernel, fun _ _ _ => rfl⟩

/-- The area of the target cells is added up in a parallel loop without atomic updates: if both iterations load the
old value before one stores, the area of one cell is lost and the result is halved; one after the other the
result is right. -/
theorem C125_race_wrong : ∃ (cf : Conf ℚ) (s : Src ℚ) (tile : List (XCell ℚ)) (d : Nat → ℚ),
    Plain cf s tile ∧ cf.target = true ∧ scalarInterp cf s tile = some d ∧ d 0 = 6 ∧
      scalarGpu cf s id (fun _ => [1, 1, 0, 0]) [tile.map (gcell cf)] 0 = 6 ∧
      scalarGpu cf s id (fun _ => [0, 1, 0, 1]) [tile.map (gcell cf)] 0 = 3 :=
  ⟨gcConf1, gcSrc, gcTile, finish gcConf1 gcTile (accumulate gcConf1 gcSrc gcTile), gcPlain1, rfl,
    by rfl, by decide +kernel, by decide +kernel, by decide +kernel⟩

/-- A variable without a missing value: the GPU version takes the datum -MAXVAL as missing, the CPU version as a
datum. -/
theorem C125_missing_wrong : ∃ (cf : Conf ℚ) (s : Src ℚ) (tile : List (XCell ℚ)) (d : Nat → ℚ),
    cf.hasMissing = false ∧ cf.target = false ∧ scalarInterp cf s tile = some d ∧ d 0 = -50 ∧
      scalarGpu cf s id (fun _ => []) [tile.map (gcell cf)] 0 = 0 :=
  ⟨{ gcConf1 with target := false }, { gcSrc with data := fun _ n => [0, -100].getD n 0 }, gcTile, _, rfl, rfl,
    rfl, by decide +kernel, by decide +kernel⟩

/-- Data where the area field is missing: the CPU version stops, the GPU version uses the missing value as area. -/
theorem C125_area_wrong : ∃ (cf : Conf ℚ) (s : Src ℚ) (tile : List (XCell ℚ)),
    Plain cf s tile ∧ scalarInterp cf s tile = none ∧
      scalarGpu cf s id (fun _ => []) [tile.map (gcell cf)] 0 = 14 := by
  refine ⟨{ gcConf1 with target := false, hasMissing := true, areaMissing := 3,
                         measures := some fun _ n => [1, 3].getD n 0 },
    { gcSrc with data := fun _ n => [8, 16].getD n 0 }, gcTile, ⟨by decide +kernel, fun h => ?_, fun h => ?_⟩,
    by decide +kernel, by decide +kernel⟩ <;> exact absurd h (by decide)

/-! ### Concrete cases -/

/-- Three cells of two tiles on two target cells, order 2, weights; the accesses in reverse order. -/
def gcConf2 : Conf ℚ :=
  ⟨fun _ => 2, 2, true, true, -100, some fun _ n => [1, 2].getD n 0, false, none, 0, fun _ _ => 1, false, fun _ => 2⟩
def gcSrc2 : Src ℚ :=
  ⟨fun t n => if n = 6 then -100 else (n : ℚ) + t, fun _ _ => 1, fun _ _ => 2, fun _ n => n == 1⟩
def gcTiles2 : List (List (XCell ℚ)) :=
  [[⟨0, 0, 0, 0, 0, 1, 1, 0⟩, ⟨0, 1, 0, 0, 0, 1, 1, 1⟩], [⟨1, 0, 0, 1, 0, 3, -1, 1⟩, ⟨1, 0, 0, 0, 0, 1, 1, 1⟩]]

theorem gcPlain2 : Plain gcConf2 gcSrc2 gcTiles2.flatten :=
  ⟨by decide +kernel, fun h => absurd h (by decide), fun h => absurd h (by decide)⟩

example : ((scalarInterp gcConf2 gcSrc2 gcTiles2.flatten).map fun o => (List.range 3).map o) =
    some [15 / 2, 7, -100] := by decide +kernel
example : (List.range 3).map (scalarGpu gcConf2 gcSrc2 List.reverse (fun _ => [])
    (gcTiles2.map (List.map (gcell gcConf2)))) = [15 / 2, 7, -100] := by decide +kernel

/-- Source cell 0 is covered by its two exchange cells, cell 1 by half. -/
def gcRaw : List (XRaw ℚ) := [⟨0, 0, 0, 0, 0, 1, 3, 4⟩, ⟨0, 0, 0, 1, 0, 1, 1, 2⟩, ⟨0, 1, 0, 1, 0, 1, 5, 6⟩]

example : (∀ r ∈ gcRaw, 0 < r.area) ∧ (∀ r ∈ gcRaw, let i := r.j1 * 2 + r.i1
    |total (fun r => r.area) (gcRaw.filter fun q => decide (q.t1 = r.t1 ∧ q.j1 * 2 + q.i1 = i)) - 2| / 2 ≠
      (1 / 1000 : ℚ)) := by decide +kernel
example : gcRaw.map (distance (fun _ => 2) (1 / 1000) (fun _ _ => 2) (fun _ _ => 6) (fun r => r.clon) gcRaw) =
    [1, -1, 2] := by decide +kernel

end Verif
