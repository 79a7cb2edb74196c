import Verif.Lemmas.RiverMain
import Verif.Props.RiverFlow
import Mathlib.Tactic.NormNum
import Mathlib.Tactic.Positivity
import Mathlib.Algebra.Order.Ring.Rat
import Mathlib.Algebra.Field.Rat
/-
C55, C56 and C57: travel, basins and drained areas that `river_regrid` writes.
-/
namespace Verif.River
open Verif.Spec CheckMask Relation
variable {K : Type*} [Field K] [LinearOrder K] [IsStrictOrderedRing K]

/-- The result of a run that succeeds. -/
theorem result_ok {g : Grid} (hg : MeshOk g) {m : Missing K} {landfrac area : Place → K} {srcs : Place → List K}
    (hi : InputOk g m landfrac area srcs) {r : Rivers K} (h : riverRegrid g m landfrac area srcs = .ok r) :
    ResultOk g m landfrac area r ∧ NetOk g m landfrac (guide m landfrac srcs) r.tocell r.dir := by
  obtain ⟨tocell, dir, e, hn, h1, h2⟩ := river_main hg hi
  rw [riverRegrid_tocell h] at e
  cases e
  by_cases hng : NoGap g m.tocell r.tocell
  · obtain ⟨r', e, -, hr⟩ := h1 hng
    rw [h] at e
    cases e
    exact ⟨hr, hn⟩
  · exact absurd h (h2 hng r)

/-- C55. Whenever the tool writes a network: water of each cell with land reaches a last point, `travel` is the number
of steps it takes, and the cell has the basin of the last point. The cell is marked as last point if and only if it is
the last point of its own river. -/
theorem C55_travel (g : Grid) (hg : MeshOk g) (m : Missing K) (landfrac area : Place → K) (srcs : Place → List K)
    (hi : InputOk g m landfrac area srcs) (r : Rivers K) (h : riverRegrid g m landfrac area srcs = .ok r) (c : Place)
    (hc : IsCell g c) (hl : landfrac c ≠ 0) :
    ∃ n o, DrainsTo g m.tocell r.tocell c n o ∧ r.travel c = n ∧ r.basin c = r.basin o ∧ (r.last c = true ↔ c = o) := by
  obtain ⟨hr, hn⟩ := result_ok hg hi h
  obtain ⟨n, o, hd⟩ := hn.drains_exists hg hi.tocell hc (fun e => hl ((hn.ocean c hc).2 e))
  obtain ⟨h1, h2⟩ := hr.land c n o hd
  refine ⟨n, o, hd, h1, h2, ?_⟩
  rw [hr.last c hc]
  constructor
  · rintro ⟨n', hd'⟩
    exact ((hn.drains_unique hg hi.tocell hd hd').2).symm
  · rintro rfl
    exact ⟨n, hd⟩

/-- C55. Ocean cells have no travel, basin or area and are not last points. -/
theorem C55_ocean (g : Grid) (hg : MeshOk g) (m : Missing K) (landfrac area : Place → K) (srcs : Place → List K)
    (hi : InputOk g m landfrac area srcs) (r : Rivers K) (h : riverRegrid g m landfrac area srcs = .ok r) (c : Place)
    (hc : IsCell g c) (hl : landfrac c = 0) :
    r.travel c = m.travel ∧ r.basin c = m.basin ∧ r.last c = false ∧ r.subA c = m.subA :=
  (result_ok hg hi h).1.ocean c hc hl

/-- C55. There is only one last point and one number of steps for a cell. -/
theorem C55_unique (g : Grid) (hg : MeshOk g) (m : Missing K) (landfrac area : Place → K) (srcs : Place → List K)
    (hi : InputOk g m landfrac area srcs) (r : Rivers K) (h : riverRegrid g m landfrac area srcs = .ok r)
    (c o o' : Place) (n n' : Nat) (h1 : DrainsTo g m.tocell r.tocell c n o)
    (h2 : DrainsTo g m.tocell r.tocell c n' o') : n = n' ∧ o = o' :=
  (result_ok hg hi h).2.drains_unique hg hi.tocell h1 h2

/-- C55. Two cells with land have the same basin if and only if they drain to the same last point. -/
theorem C55_same_basin (g : Grid) (hg : MeshOk g) (m : Missing K) (landfrac area : Place → K) (srcs : Place → List K)
    (hi : InputOk g m landfrac area srcs) (r : Rivers K) (h : riverRegrid g m landfrac area srcs = .ok r)
    (c c' o o' : Place) (n n' : Nat) (h1 : DrainsTo g m.tocell r.tocell c n o)
    (h2 : DrainsTo g m.tocell r.tocell c' n' o') : r.basin c = r.basin c' ↔ o = o' := by
  obtain ⟨hr, hn⟩ := result_ok hg hi h
  rw [(hr.land c n o h1).2, (hr.land c' n' o' h2).2]
  constructor
  · intro e
    obtain ⟨m1, k1⟩ := drains_last h1
    obtain ⟨m2, k2⟩ := drains_last h2
    have c1 := drains_cell k1
    have c2 := drains_cell k2
    exact hr.inj o o' c1 c2 ((hr.last o c1).2 ⟨m1, k1⟩) ((hr.last o' c2).2 ⟨m2, k2⟩) e
  · rintro rfl; rfl

/-- C55. The basins are numbered 1, 2, ..., and each has exactly one last point. -/
theorem C55_numbers (g : Grid) (hg : MeshOk g) (m : Missing K) (landfrac area : Place → K) (srcs : Place → List K)
    (hi : InputOk g m landfrac area srcs) (r : Rivers K) (h : riverRegrid g m landfrac area srcs = .ok r) :
    ∃ N : Int, (∀ c, IsCell g c → landfrac c ≠ 0 → 1 ≤ r.basin c ∧ r.basin c ≤ N) ∧
      ∀ b, 1 ≤ b → b ≤ N → ∃ o, (IsCell g o ∧ r.last o = true ∧ r.basin o = b) ∧
        ∀ o', IsCell g o' → r.last o' = true → r.basin o' = b → o' = o := by
  obtain ⟨hr, hn⟩ := result_ok hg hi h
  obtain ⟨N, h1, h2⟩ := hr.basins
  refine ⟨N, ?_, ?_⟩
  · intro c hc hl
    obtain ⟨n, o, hd⟩ := hn.drains_exists hg hi.tocell hc (fun e => hl ((hn.ocean c hc).2 e))
    rw [(hr.land c n o hd).2]
    obtain ⟨m1, k1⟩ := drains_last hd
    have c1 := drains_cell k1
    exact h1 o c1 ((hr.last o c1).2 ⟨m1, k1⟩)
  · intro b b1 b2
    obtain ⟨o, ho, hl, e⟩ := h2 b b1 b2
    exact ⟨o, ⟨ho, hl, e⟩, fun o' ho' hl' e' => hr.inj o' o ho' ho hl' hl (by rw [e', e])⟩

/-- C55. When the tool writes a network: the loop over the passes always ends, and the only reason to stop with an
error is a gap at the first pass, namely that no cell flows into a cell without outflow although there are rivers of
more than one cell. -/
theorem C55_accepts (g : Grid) (hg : MeshOk g) (m : Missing K) (landfrac area : Place → K) (srcs : Place → List K)
    (hi : InputOk g m landfrac area srcs) (tocell dir : Place → Int)
    (e : calcTocell g m landfrac (calcMaxSubA g m landfrac srcs) = .ok (tocell, dir)) :
    (∃ r, riverRegrid g m landfrac area srcs = .ok r) ↔
      ((∃ c d, IsCell g c ∧ FlowsTo g tocell c d ∧ tocell d = 0) ∨
        ∀ c d, IsCell g c → FlowsTo g tocell c d → tocell d = m.tocell) := by
  obtain ⟨tocell', dir', e', hn, h1, h2⟩ := river_main hg hi
  rw [e] at e'
  cases e'
  constructor
  · rintro ⟨r, hr⟩
    by_contra hng
    exact h2 hng r hr
  · intro hng
    obtain ⟨r, hr, -⟩ := h1 hng
    exact ⟨r, hr⟩

/-- C55. The loops of the program end: the passes over the grid and the sort take no more steps than the model allows. -/
theorem C55_ends (g : Grid) (hg : MeshOk g) (m : Missing K) (landfrac area : Place → K) (srcs : Place → List K)
    (hi : InputOk g m landfrac area srcs) : riverRegrid g m landfrac area srcs ≠ .error .steps := by
  obtain ⟨tocell, dir, e1, -, hn⟩ := calcTocell_ok hg hi
  obtain ⟨N, -, -, hrange, -⟩ := coast_last (m := m) hn hg hi.tocell
  obtain ⟨k', b, t, e2, -⟩ := travelLoop_ok hn hg hi.tocell hi.travel hi.basin (fun o n h => (hrange o n h).1)
    ((cells g).length + 1) 0 _ _ (coast_pass (m := m) hn hg hi.tocell) (Nat.lt_succ_of_le (List.countP_le_length))
  rw [show ((0 : Nat) : Int) = 0 from rfl] at e2
  have fold : ∀ (mb : Int) (r : Rivers K) (l : List Place) (A : Nat → K),
      l.foldlM (maxSubStep mb r) A ≠ .error .steps := by
    intro mb r l
    induction l with
    | nil => intro A h; cases h
    | cons x l ih =>
      intro A h
      rw [List.foldlM_cons] at h
      cases hx : maxSubStep mb r A x with
      | error e =>
        rw [hx] at h
        have he : e = .steps := by injection h
        subst he
        unfold maxSubStep at hx
        split at hx
        · split at hx
          · cases hx
          · cases hx
        · cases hx
      | ok A' => rw [hx] at h; exact ih A' h
  intro h
  unfold riverRegrid calcRiverData at h
  simp only at h
  rw [e1] at h
  simp only at h
  rw [e2] at h
  simp only at h
  split at h
  · next e e3 =>
    have he : e = .steps := by injection h
    subst he
    unfold sortBasin at e3
    simp only at e3
    split at e3
    · next e e4 =>
      have he : e = .steps := by injection e3
      subst he
      exact fold _ _ _ _ e4
    · next A e4 =>
      split at e3
      · cases e3
      · split at e3
        · next e5 =>
          obtain ⟨q, hq, -⟩ := QSort.C53_index A (maxOver g b).toNat (2 * (maxOver g b).toNat + 1)
            ((maxOver g b).toNat + 1) (by omega) (by omega)
          rw [hq] at e5
          cases e5
        · split at e3
          · cases e3
          · split at e3 <;> cases e3
  · next r2 e3 =>
    split at h
    · next e e4 =>
      have he : e = .steps := by injection h
      subst he
      unfold checkRiverData at e4
      simp only at e4
      split at e4
      · cases e4
      · split at e4
        · cases e4
        · split at e4
          · cases e4
          · split at e4 <;> cases e4
    · cases h

/-- C56. The drained area that is written for a cell with land is the area of the land in all cells whose water passes
through it, on any mosaic that is supported, also across the sides of the cube. -/
theorem C56_area (g : Grid) (hg : MeshOk g) (m : Missing K) (landfrac area : Place → K) (srcs : Place → List K)
    (hi : InputOk g m landfrac area srcs) (r : Rivers K) (h : riverRegrid g m landfrac area srcs = .ok r) (c : Place)
    (hc : IsCell g c) (hl : landfrac c ≠ 0) : r.subA c = drained g r.tocell (fun x => area x * landfrac x) c :=
  (result_ok hg hi h).1.area c hc hl

/-- C56. No land is lost or counted twice: the areas drained by the last points add up to the area of the land. -/
theorem C56_total (g : Grid) (hg : MeshOk g) (m : Missing K) (landfrac area : Place → K) (srcs : Place → List K)
    (hi : InputOk g m landfrac area srcs) (r : Rivers K) (h : riverRegrid g m landfrac area srcs = .ok r) :
    ∑ o ∈ cellSet g with r.last o = true, r.subA o = ∑ x ∈ cellSet g, area x * landfrac x := by
  classical
  obtain ⟨hr, hn⟩ := result_ok hg hi h
  have hm := hi.tocell
  -- water that passes through a last point drains to it
  have reach : ∀ x o n', IsCell g x → DrainsTo g m.tocell r.tocell o n' o →
      ReflTransGen (FlowsTo g r.tocell) x o → ∃ n, DrainsTo g m.tocell r.tocell x n o := by
    intro x o n' hx ho hxo
    induction hxo using ReflTransGen.head_induction_on with
    | refl => exact ⟨n', ho⟩
    | head hf hr' ih =>
      rename_i c d
      have hcd := (hn.flows_up hg hm hx hf).1
      obtain ⟨n, hd⟩ := ih hcd
      exact ⟨n + 1, .step hx hf (drains_land hm hd) hd⟩
  have back : ∀ x o n, DrainsTo g m.tocell r.tocell x n o → ReflTransGen (FlowsTo g r.tocell) x o := by
    intro x o n hd
    induction hd with
    | sink => exact .refl
    | coast => exact .refl
    | step _ hf _ _ ih => exact .head hf ih
  have hsum : ∑ o ∈ cellSet g with r.last o = true, r.subA o =
      ∑ o ∈ cellSet g with r.last o = true,
        ∑ x ∈ cellSet g with ReflTransGen (FlowsTo g r.tocell) x o, area x * landfrac x := by
    apply Finset.sum_congr rfl
    intro o ho
    simp only [Finset.mem_filter, mem_cellSet] at ho
    obtain ⟨n, hd⟩ := (hr.last o ho.1).1 ho.2
    have hl : landfrac o ≠ 0 := fun e => drains_land hm hd ((hn.ocean o ho.1).1 e)
    rw [hr.area o ho.1 hl]
    unfold drained
    exact Finset.sum_congr (by ext; simp) (fun _ _ => rfl)
  rw [hsum, ← Finset.sum_biUnion]
  · apply Finset.sum_subset
    · intro x hx
      simp only [Finset.mem_biUnion, Finset.mem_filter] at hx
      obtain ⟨o, -, hx, -⟩ := hx
      exact hx
    · intro x hx hno
      rw [mem_cellSet] at hx
      by_cases hl : landfrac x = 0
      · rw [hl, mul_zero]
      · exfalso
        apply hno
        obtain ⟨n, o, hd⟩ := hn.drains_exists hg hm hx (fun e => hl ((hn.ocean x hx).2 e))
        obtain ⟨n', ho⟩ := drains_last hd
        have hco := drains_cell ho
        simp only [Finset.mem_biUnion, Finset.mem_filter, mem_cellSet]
        exact ⟨o, ⟨hco, (hr.last o hco).2 ⟨n', ho⟩⟩, hx, back x o n hd⟩
  · intro o ho o' ho' hne
    simp only [Finset.coe_filter, Set.mem_setOf_eq, mem_cellSet] at ho ho'
    rw [Function.onFun, Finset.disjoint_left]
    intro x hx hx'
    simp only [Finset.mem_filter, mem_cellSet] at hx hx'
    obtain ⟨n1, d1⟩ := (hr.last o ho.1).1 ho.2
    obtain ⟨n2, d2⟩ := (hr.last o' ho'.1).1 ho'.2
    obtain ⟨n3, d3⟩ := reach x o n1 hx.1 d1 hx.2
    obtain ⟨n4, d4⟩ := reach x o' n2 hx.1 d2 hx'.2
    exact hne (hn.drains_unique hg hm d3 d4).2

/-- C57. Larger rivers come first: of two last points the one that drains the larger area has the smaller basin. -/
theorem C57_order (g : Grid) (hg : MeshOk g) (m : Missing K) (landfrac area : Place → K) (srcs : Place → List K)
    (hi : InputOk g m landfrac area srcs) (r : Rivers K) (h : riverRegrid g m landfrac area srcs = .ok r)
    (o o' : Place) (ho : IsCell g o) (ho' : IsCell g o') (hl : r.last o = true) (hl' : r.last o' = true)
    (hlt : r.subA o < r.subA o') : r.basin o' < r.basin o :=
  (result_ok hg hi h).1.order o o' ho ho' hl hl' hlt

/-! A grid with 4 columns and 2 rows: the ocean in the south-west, a coast cell north of it, and a river that comes from
the east. -/

def exGrid : Grid := ⟨⟨false, false, false⟩, 1, 4, 2⟩
def exMissing : Missing ℚ := ⟨-1, -1, -1, -1⟩
def exFrac (p : Place) : ℚ := if p.2.1 = 1 then (if p.2.2 = 1 then 0 else 1 / 2) else 1
def exSrcs (p : Place) : List ℚ := if p.2.1 = 1 then [] else [10 - p.2.1 + p.2.2, 1]

theorem exInput : InputOk exGrid exMissing exFrac (fun _ => 1) exSrcs := by
  refine ⟨by decide, by decide, by decide, by decide, ?_, fun _ _ => by decide, ?_⟩
  · intro c _
    unfold exFrac
    split
    · split <;> norm_num
    · norm_num
  · rintro ⟨t, i, j⟩ ⟨-, h1, h2, h3, h4⟩ x hx
    simp only [exSrcs, exGrid] at *
    split at hx
    · cases hx
    · have a1 : (i : ℚ) ≤ 4 := by exact_mod_cast h2
      have a2 : (j : ℚ) ≤ 2 := by exact_mod_cast h4
      have a3 : (0 : ℚ) ≤ i := by positivity
      have a4 : (0 : ℚ) ≤ j := by positivity
      simp only [List.mem_cons, List.not_mem_nil, or_false] at hx
      rcases hx with rfl | rfl
      · constructor <;> norm_num <;> linarith
      · norm_num

/-- The hypotheses of the theorems above hold for this grid, and the tool writes a network: the cell in the north-east
is three steps from the last point (1,2), which drains all land. -/
example : MeshOk exGrid ∧ InputOk exGrid exMissing exFrac (fun _ => 1) exSrcs ∧
    (riverRegrid exGrid exMissing exFrac (fun _ => 1) exSrcs).toOption.map (fun r =>
      [(r.tocell (0, 4, 2), r.travel (0, 4, 2), r.basin (0, 4, 2), r.last (0, 4, 2), r.subA (0, 4, 2)),
       (r.tocell (0, 2, 1), r.travel (0, 2, 1), r.basin (0, 2, 1), r.last (0, 2, 1), r.subA (0, 2, 1)),
       (r.tocell (0, 1, 2), r.travel (0, 1, 2), r.basin (0, 1, 2), r.last (0, 1, 2), r.subA (0, 1, 2)),
       (r.tocell (0, 1, 1), r.travel (0, 1, 1), r.basin (0, 1, 1), r.last (0, 1, 1), r.subA (0, 1, 1))]) =
    some [(16, 3, 1, false, 1), (32, 1, 1, false, 1), (0, 0, 1, true, 13 / 2), (-1, -1, -1, false, -1)] :=
  ⟨.walls rfl, exInput, by decide +kernel⟩

/-- C55 fails where all rivers end in pure ocean cells: the loop over the passes stops as soon as a pass finds nothing,
and the first pass looks for cells that flow into a cell without outflow. Here water flows west from cell 3 to cell 2
and into the ocean in cell 1, but the tool ends with the error that a river point has missing values. -/
theorem C55_stops_early_wrong : ∃ (g : Grid) (m : Missing ℚ) (landfrac area : Place → ℚ) (srcs : Place → List ℚ)
    (tocell dir : Place → Int), MeshOk g ∧ InputOk g m landfrac area srcs ∧
      calcTocell g m landfrac (calcMaxSubA g m landfrac srcs) = .ok (tocell, dir) ∧
      (∀ c, IsCell g c → landfrac c ≠ 0 → ∃ n o, DrainsTo g m.tocell tocell c n o) ∧
      riverRegrid g m landfrac area srcs = .error .riverPoint := by
  have hg : MeshOk ⟨⟨false, false, false⟩, 1, 3, 1⟩ := .walls rfl
  have hi : InputOk (K := ℚ) ⟨⟨false, false, false⟩, 1, 3, 1⟩ ⟨-1, -1, -1, -1⟩ (fun p => if p.2.1 = 1 then 0 else 1)
      (fun _ => 1) (fun p => if p.2.1 = 2 then [5] else if p.2.1 = 3 then [3] else []) := by
    refine ⟨by decide, by decide, by decide, by decide, ?_, fun _ _ => by decide, ?_⟩
    · intro c _
      split <;> norm_num
    · intro c _ x hx
      split at hx
      · rw [List.mem_singleton.1 hx]; norm_num
      · split at hx
        · rw [List.mem_singleton.1 hx]; norm_num
        · cases hx
  obtain ⟨tocell, dir, e, hn, -⟩ := river_main hg hi
  refine ⟨_, _, _, _, _, tocell, dir, hg, hi, e, ?_, ?_⟩
  · intro c hc hl
    exact hn.drains_exists hg hi.tocell hc (fun e => hl ((hn.ocean c hc).2 e))
  · have : (match riverRegrid (K := ℚ) ⟨⟨false, false, false⟩, 1, 3, 1⟩ ⟨-1, -1, -1, -1⟩
        (fun p => if p.2.1 = 1 then 0 else 1) (fun _ => 1)
        (fun p => if p.2.1 = 2 then [5] else if p.2.1 = 3 then [3] else []) with
      | .error .riverPoint => true
      | _ => false) = true := by decide +kernel
    split at this
    · assumption
    · cases this

end Verif.River
