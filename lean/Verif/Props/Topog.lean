import Mathlib.Algebra.Order.Ring.Rat
import Mathlib.Algebra.Field.Rat
import Mathlib.Tactic.IntervalCases
import Verif.Lemmas.TopogFilter
import Verif.Lemmas.TopogMain

/-!
C58: smoothing of ocean depths.  C59: depths and numbers of levels fit each other.  C60: isolated
cells.  C61: thin bottom cells and shallow cells.
-/

namespace Verif

open Topog Spec.Topo

variable {K : Type _} [Field K] [LinearOrder K] [IsStrictOrderedRing K]

/-! ### C58 -/

/-- C58. Land stays land, however many passes are made. -/
theorem C58_land (nx ny passes : Nat) (deepen : Bool) (depth : Nat → Nat → K) (j i : Nat)
    (h : depth j i = 0) : filterTopo nx ny passes deepen depth j i = 0 := by
  refine filterLoop_induct (fun d => d j i = 0) ?_ passes depth h
  intro d hd
  unfold filterPass
  split
  · unfold limited
    simp [h]
  · exact hd

/-- C58. With depths that are not negative, ocean stays ocean. -/
theorem C58_ocean (nx ny passes : Nat) (deepen : Bool) (depth : Nat → Nat → K)
    (hn : ∀ j i, 0 ≤ depth j i) (j i : Nat) (h : 0 < depth j i) :
    0 < filterTopo nx ny passes deepen depth j i := by
  have key := filterLoop_induct (nxg := nx) (nyg := ny) (deepen := deepen)
    (mask := fun j i => decide (depth j i ≠ 0))
    (fun d => ∀ j i, (0 < depth j i → 0 < d j i) ∧ (depth j i = 0 → d j i = 0)) ?_ passes depth
    (fun j i => ⟨id, id⟩)
  · exact (key j i).1 h
  · intro d hd a b
    have hd0 : ∀ a b, 0 ≤ d a b := by
      intro a b
      rcases lt_or_eq_of_le (hn a b) with h | h
      · exact ((hd a b).1 h).le
      · exact ((hd a b).2 h.symm).ge
    unfold filterPass
    split
    · unfold limited
      constructor
      · intro hp
        have hm : decide (depth a b ≠ 0) = true := by simpa using hp.ne'
        simp only [hm, if_true, mul_one]
        split
        · exact (hd a b).1 hp
        · exact smoothed_pos ((hd a b).1 hp) hd0
      · intro hz
        simp [hz]
    · exact hd a b

/-- C58. The cells on the edge of the grid do not change. -/
theorem C58_edge (nx ny passes : Nat) (deepen : Bool) (depth : Nat → Nat → K) (j i : Nat)
    (h : j = 0 ∨ ny ≤ j + 1 ∨ i = 0 ∨ nx ≤ i + 1) :
    filterTopo nx ny passes deepen depth j i = depth j i := by
  refine filterLoop_induct (fun d => d j i = depth j i) ?_ passes depth rfl
  intro d hd
  unfold filterPass
  rw [if_neg (by omega)]
  exact hd

/-- C58. Unless deepening is allowed, no cell of a field of depths that are not negative gets
deeper. -/
theorem C58_not_deeper (nx ny passes : Nat) (depth : Nat → Nat → K) (hn : ∀ j i, 0 ≤ depth j i)
    (j i : Nat) : filterTopo nx ny passes false depth j i ≤ depth j i := by
  have key := filterLoop_induct (nxg := nx) (nyg := ny) (deepen := false)
    (mask := fun j i => decide (depth j i ≠ 0))
    (fun d => ∀ j i, d j i ≤ depth j i) ?_ passes depth (fun j i => le_rfl)
  · exact key j i
  · intro d hd a b
    unfold filterPass
    split
    · unfold limited
      by_cases hz : depth a b = 0
      · simp [hz]
      · simp only [ne_eq, hz, not_false_eq_true, decide_true, if_true, mul_one, true_and]
        split
        · exact hd a b
        · rename_i h
          exact (not_lt.1 h).trans (hd a b)
    · exact hd a b

/-- C58. The depths of ocean cells stay between the least and the greatest depth of the ocean; in
particular a flat ocean stays as it is. -/
theorem C58_range (nx ny passes : Nat) (deepen : Bool) (depth : Nat → Nat → K) (lo hi : K)
    (hr : ∀ j i, depth j i ≠ 0 → lo ≤ depth j i ∧ depth j i ≤ hi) (j i : Nat)
    (h : depth j i ≠ 0) : lo ≤ filterTopo nx ny passes deepen depth j i ∧
      filterTopo nx ny passes deepen depth j i ≤ hi := by
  have key := filterLoop_induct (nxg := nx) (nyg := ny) (deepen := deepen)
    (mask := fun j i => decide (depth j i ≠ 0))
    (fun d => ∀ j i, depth j i ≠ 0 → lo ≤ d j i ∧ d j i ≤ hi) ?_ passes depth hr
  · exact key j i h
  · intro d hd a b hz
    unfold filterPass
    split
    · unfold limited
      simp only [ne_eq, hz, not_false_eq_true, decide_true, if_true, mul_one]
      split
      · exact hd a b hz
      · refine smoothed_bounds (hd a b hz) ?_
        intro j' i' hm
        exact hd j' i' (by simpa using hm)
    · exact hd a b hz

/-- C58. In open ocean an even slope is not changed by a pass. -/
theorem C58_slope (nx ny : Nat) (deepen : Bool) (depth : Nat → Nat → K) (a b c : K) (j i : Nat)
    (hj : j + 2 < ny) (hi : i + 2 < nx)
    (h : ∀ p q, p ≤ 2 → q ≤ 2 → depth (j + q) (i + p) ≠ 0 ∧
      depth (j + q) (i + p) = a + b * p + c * q) :
    filterTopo nx ny 1 deepen depth (j + 1) (i + 1) = depth (j + 1) (i + 1) := by
  have hs : smoothed (fun j i => decide (depth j i ≠ 0)) depth (j + 1) (i + 1)
      = depth (j + 1) (i + 1) := by
    rw [smoothed_eq]
    simp only [pick]
    have e : ∀ q p, q ≤ 2 → p ≤ 2 → (if decide (depth (j + 1 + q - 1) (i + 1 + p - 1) ≠ 0) = true
        then depth (j + 1 + q - 1) (i + 1 + p - 1) else depth (j + 1) (i + 1))
        = a + b * p + c * q := by
      intro q p hq hp
      rw [show j + 1 + q - 1 = j + q by omega, show i + 1 + p - 1 = i + p by omega]
      rw [if_pos (by simpa using (h p q hp hq).1)]
      exact (h p q hp hq).2
    rw [e 0 0, e 0 1, e 0 2, e 1 0, e 1 1, e 1 2, e 2 0, e 2 1, e 2 2, (h 1 1 (by omega) (by omega)).2]
      <;> first | omega | skip
    push_cast
    ring
  have hm := (h 1 1 (by omega) (by omega)).1
  simp only [filterTopo, filterLoop, filterPass]
  rw [if_pos (by omega)]
  unfold limited
  rw [hs]
  simp [hm]

/-- C58. In open ocean one pass with deepening removes a pattern that alternates from cell to cell
along rows: every cell gets the mean of the two depths. -/
theorem C58_noise (nx ny : Nat) (depth : Nat → Nat → K) (a b : K) (j i : Nat)
    (hj : j + 2 < ny) (hi : i + 2 < nx)
    (h : ∀ p q, p ≤ 2 → q ≤ 2 → depth (j + q) (i + p) ≠ 0 ∧
      depth (j + q) (i + p) = if p = 1 then a else b) :
    filterTopo nx ny 1 true depth (j + 1) (i + 1) = (a + b) / 2 := by
  have hs : smoothed (fun j i => decide (depth j i ≠ 0)) depth (j + 1) (i + 1) = (a + b) / 2 := by
    rw [smoothed_eq]
    simp only [pick]
    have e : ∀ q p, q ≤ 2 → p ≤ 2 → (if decide (depth (j + 1 + q - 1) (i + 1 + p - 1) ≠ 0) = true
        then depth (j + 1 + q - 1) (i + 1 + p - 1) else depth (j + 1) (i + 1))
        = if p = 1 then a else b := by
      intro q p hq hp
      rw [show j + 1 + q - 1 = j + q by omega, show i + 1 + p - 1 = i + p by omega]
      rw [if_pos (by simpa using (h p q hp hq).1)]
      exact (h p q hp hq).2
    rw [e 0 0, e 0 1, e 0 2, e 1 0, e 1 1, e 1 2, e 2 0, e 2 1, e 2 2]
      <;> first | omega | skip
    simp
    ring
  have hm := (h 1 1 (by omega) (by omega)).1
  simp only [filterTopo, filterLoop, filterPass]
  rw [if_pos (by omega)]
  unfold limited
  rw [hs]
  simp [hm]

/-! ### C59 -/

variable {zw : Nat → K} {nk ni nj : Nat}

/-- C59. Whatever the depths and the options, the number of levels of every cell fits its depth:
land has none, and in the ocean the floor lies in the last level.

The full claim has no condition on the vertical grid, see `C59_fits_wrong`; here the levels have to be
at least as thick as the least thickness asked for, when the depths are adjusted. -/
theorem C59_fits_partial (g : VGrid zw nk) (o : Opts K) (depth : Nat → Nat → K) (out : Out K)
    (ht : o.adjust = true → 0 ≤ o.fractionFullCell ∧
      ThickEnough zw nk o.minThickness o.fractionFullCell)
    (he : processTopo ni nj nk zw o depth = .ok out) (j i : Nat) :
    Fits zw nk (out.depth j i) (out.numLevels j i) := by
  obtain ⟨s, t, hs, hA, ho⟩ := processTopo_stages he
  obtain ⟨l, _⟩ := levels_spec g hs
  have := adjustCells_lev g (fun h => possible_of g (ht h).1 (ht h).2) (connect_lev g l) hA
  rw [(ho j i).1, (ho j i).2, ← lev_iff]
  exact this _ _

/-- C59. With two levels or more, no more than one treatment of shallow cells asked for and no more
levels required than there are, the run succeeds: no array is read outside its bounds. -/
theorem C59_succeeds (g : VGrid zw nk) (hk : 2 ≤ nk) (o : Opts K) (depth : Nat → Nat → K)
    (ht : o.adjust = true → 0 ≤ o.fractionFullCell ∧
      ThickEnough zw nk o.minThickness o.fractionFullCell ∧ o.kmtMin ≤ nk ∧
      (o.roundShallow = true → o.fillShallow = false ∧ o.deepenShallow = false) ∧
      (o.fillShallow = true → o.deepenShallow = false)) :
    ∃ out, processTopo ni nj nk zw o depth = .ok out := by
  obtain ⟨s, hs⟩ := levels_ok (ni := ni) (nj := nj) g hk (o := o) (depth := depth)
  obtain ⟨l, _⟩ := levels_spec g hs
  have l2 := connect_lev (ni := ni) (nj := nj) g (o := o) l
  have : ∃ t, adjustCells ni nj nk zw o (connect ni nj o s) = .ok t := by
    unfold adjustCells
    by_cases ha : o.adjust = true
    · rw [if_pos ha]
      obtain ⟨a1, a2, a3, a4, a5⟩ := ht ha
      obtain ⟨s1, h1⟩ := eachCell_ok
        (f := restrictCell zw (pCellMin zw o.minThickness o.fractionFullCell) o.openVeryThin)
        (nodup_cells ni nj) (s := connect ni nj o s) (by
          intro j i _
          unfold restrictCell
          split <;> exact ⟨_, rfl⟩)
      have l3 := l2.eachCell (fun _ _ _ hl he => restrictCell_lev g (possible_of g a1 a2) hl he) h1
      obtain ⟨t, h2⟩ := eachCell_ok (f := enforceCell zw o) (nodup_cells ni nj) (s := s1)
        (fun j i _ => enforceCell_ok g (l3 j i))
      refine ⟨t, ?_⟩
      rw [h1]
      simp only [enforceMinDepth]
      rw [if_neg (by omega), if_neg, h2]
      unfold shallowCount
      cases hr : o.roundShallow <;> cases hf : o.fillShallow <;> cases hd : o.deepenShallow <;>
        simp [hr, hf, hd] at a4 a5 ⊢
    · rw [if_neg ha]; exact ⟨_, rfl⟩
  obtain ⟨t, h⟩ := this
  refine ⟨⟨fun j i => t.ht (j + 1) (i + 1), fun j i => t.kmt (j + 1) (i + 1) + 1⟩, ?_⟩
  unfold processTopo
  rw [hs]
  simp only [h]

/-- C59. Without adjustment, full cells or flat bottoms every cell keeps its own depth, unless the floor lies
less than the least thickness below a level, or below the last level: then it is raised to that level. -/
theorem C59_depth (g : VGrid zw nk) (o : Opts K) (ha : o.adjust = false) (hf : o.fullCell = false)
    (hb : o.flatBottom = false) (depth : Nat → Nat → K) (out : Out K)
    (he : processTopo ni nj nk zw o depth = .ok out) (j i : Nat) (hj : j < nj) (hi : i < ni) :
    out.depth j i = depth j i ∨
      ∃ n, n < nk ∧ zw n < depth j i ∧ out.depth j i = zw n ∧ out.numLevels j i = n + 1 ∧
        (depth j i - zw n < o.minThickness ∨ n + 1 = nk) := by
  obtain ⟨s, t, hs, hA, ho⟩ := processTopo_stages he
  have ht : t = connect ni nj o s := by
    unfold adjustCells at hA
    rw [if_neg (by simp [ha])] at hA
    simpa using hA.symm
  have hin : ∀ {α : Type _} (f : Nat → Nat → α), halo ni nj o f (j + 1) (i + 1) = f (j + 1) (i + 1) := by
    intro α f
    have n1 : ¬ j + 1 = nj + 1 := by omega
    have n2 : ¬ i + 1 = ni + 1 := by omega
    unfold halo haloX haloY
    simp only [n1, n2, Nat.add_eq_zero_iff, one_ne_zero, and_false, if_false, ite_self]
  have ec : (connect ni nj o s).ht (j + 1) (i + 1) = s.ht (j + 1) (i + 1) ∧
      (connect ni nj o s).kmt (j + 1) (i + 1) = s.kmt (j + 1) (i + 1) := by
    unfold connect
    rw [if_neg (by simp [ha])]
    exact ⟨hin _, hin _⟩
  rw [(ho j i).1, (ho j i).2, ht, ec.1, ec.2]
  unfold levels at hs
  split at hs
  · cases hs
  rename_i s1 h1
  split at hs
  · cases hs
  rename_i s2 h2
  have hm := mem_cells' (ni := ni) (nj := nj) (j := j + 1) (i := i + 1) (by omega)
  have e1 := (eachCell_spec (nodup_cells ni nj) h1 (j + 1) (i + 1)).1 hm
  have e2 := (eachCell_spec (nodup_cells ni nj) h2 (j + 1) (i + 1)).1 hm
  have e3 := (eachCell_spec (nodup_cells ni nj) hs (j + 1) (i + 1)).1 hm
  simp only [fullCells, flatBottoms, hf, hb, Bool.false_eq_true, false_and, if_false, Except.ok.injEq,
    Prod.mk.injEq] at e2 e3
  rw [← e3.1, ← e3.2, ← e2.1, ← e2.2]
  have hi0 : (initial ni nj depth).ht (j + 1) (i + 1) = depth j i := by
    simp only [initial]
    rw [if_pos (by omega)]
    rfl
  rw [hi0] at e1
  unfold bottomLevel at e1
  split at e1
  · split at e1
    · cases e1
    · rename_i n hn
      have hlt := (nearest_bracket g hn).1
      simp only [Except.ok.injEq] at e1
      split at e1
      · rename_i hz
        unfold belowNearest at e1
        split at e1
        · simp only [Prod.mk.injEq] at e1
          exact .inr ⟨n, hlt, hz, e1.1.symm, by rw [← e1.2], .inl (by assumption)⟩
        · split at e1
          · simp only [Prod.mk.injEq] at e1
            exact .inr ⟨n, hlt, hz, e1.1.symm, by rw [← e1.2], .inr (by assumption)⟩
          · simp only [Prod.mk.injEq] at e1
            exact .inl e1.1.symm
      · simp only [Prod.mk.injEq] at e1
        exact .inl e1.1.symm
  · simp only [Except.ok.injEq, Prod.mk.injEq] at e1
    exact .inl e1.1.symm

/-! ### C60 -/

/-- C60. One pass over the grid, changing it in place, removes all isolated cells: in the final
field no cell of the rows looked at is isolated, where the neighbours of edge cells are those
the topology of the grid gives, with their final values.

The full claim has no condition `openVeryThin`, see `C60_closing_wrong`. -/
theorem C60_connected_partial (g : VGrid zw nk) (hni : 1 ≤ ni) (hnj : 1 ≤ nj) (o : Opts K)
    (ha : o.adjust = true) (hf : o.fillIsolated = true) (hd : o.dontChangeLandmask = false)
    (ho : o.openVeryThin = true) (h0 : 0 ≤ o.fractionFullCell) (depth : Nat → Nat → K)
    (out : Out K) (he : processTopo ni nj nk zw o depth = .ok out) (lev : Nat → Nat → Int)
    (hx : Extended ni nj o.tripolar o.cyclicX o.cyclicY out.numLevels lev) (j i : Nat)
    (hj : 1 ≤ j) (hj' : j ≤ if o.tripolar then nj - 1 else nj) (hi : 1 ≤ i) (hi' : i ≤ ni) :
    Connected lev j i := by
  obtain ⟨s, t, hs, hA, hout⟩ := processTopo_stages he
  obtain ⟨l, hb⟩ := levels_spec g hs
  have l2 := connect_lev (ni := ni) (nj := nj) g (o := o) l
  have hk : o.kmtMin ≤ nk := by
    obtain ⟨_, _, h, _⟩ := adjustCells_stages ha hA
    exact h
  have hjn : j ≤ nj := by split at hj' <;> omega
  -- the field after the removal, with its halo filled anew
  let F : Nat → Nat → Int := fun j i =>
    if 1 ≤ j ∧ j ≤ nj ∧ 1 ≤ i ∧ i ≤ ni then (connect ni nj o s).kmt j i + 1 else 0
  have hB0 := halo_extended hni hnj o (f := F) (fun j i h => if_neg h)
  have hB : Extended ni nj o.tripolar o.cyclicX o.cyclicY
      (fun j i => (connect ni nj o s).kmt (j + 1) (i + 1) + 1) (halo ni nj o F) := by
    refine ⟨?_, hB0.west, hB0.east, hB0.south, hB0.north⟩
    intro a b h1 h2
    rw [hB0.inside a b h1 h2]
    exact if_pos (by omega)
  have hc := connect_connected hni hnj ha hf hd hb hB hj hj' hi hi'
  -- the final field is a monotone function of it
  let φ : Int → Int := fun x => shallowTo zw o (x - 1) + 1
  have hφ : φ 0 = 0 := by simp [φ, shallowTo]
  have hM := extended_map hB hφ
  have hM' : Extended ni nj o.tripolar o.cyclicX o.cyclicY out.numLevels
      (fun j i => φ (halo ni nj o F j i)) := by
    refine ⟨?_, hM.west, hM.east, hM.south, hM.north⟩
    intro a b h1 h2
    rw [hM.inside a b h1 h2, (hout a b).2,
      adjustCells_open g ha ho h0 l2 hA (j := a + 1) (i := b + 1) (by omega)]
    simp [φ]
  have hu := extended_unique hx hM' hni hnj
  have hnn : ∀ a b, 0 ≤ halo ni nj o F a b := by
    have hF : ∀ a b, 0 ≤ F a b := by
      intro a b
      simp only [F]
      split
      · have := (l2 a b).range
        omega
      · exact le_rfl
    intro a b
    unfold halo haloX haloY
    split_ifs <;> exact hF _ _
  obtain ⟨cj, ci, hA', hle⟩ := hc
  have hcc := corner_cases hA'
  refine ⟨cj, ci, hA', ?_⟩
  intro j' i' hA''
  have b1 := hA''.1
  have b2 := hA''.2
  rw [hu j i (by omega) (by omega), hu j' i' (by omega) (by omega)]
  have := shallowTo_mono g hk (o := o) (a := halo ni nj o F j i - 1) (b := halo ni nj o F j' i' - 1)
    (by have := hle j' i' hA''; omega) (by have := hnn j i; omega)
  simp only [φ]
  omega

/-- C60. The removal takes away no more than it has to: every field of levels that is nowhere greater
than the one before, and in which no cell looked at is isolated, is nowhere greater than the one
after. -/
theorem C60_largest (tripolar : Bool) (s : State K) (lev : Nat → Nat → Int)
    (hle : ∀ j i, lev j i ≤ s.kmt j i)
    (hc : ∀ j i, 1 ≤ j → j ≤ (if tripolar then nj - 1 else nj) → 1 ≤ i → i ≤ ni → Connected lev j i)
    (j i : Nat) : lev j i ≤ (removeIsolated ni nj tripolar true false s).kmt j i := by
  have h := removeIsolated_kmt ni nj tripolar false s j i
  by_cases hin : 1 ≤ j ∧ j ≤ checkedRows nj tripolar ∧ 1 ≤ i ∧ i ≤ ni
  · rw [h.1 hin]
    simp only [target, or_true, if_true]
    have := (connected_iff hin.1 hin.2.2.1).1 (hc j i hin.1 hin.2.1 hin.2.2.1 hin.2.2.2)
    refine this.trans ?_
    obtain ⟨cj, ci, ha, hb, _⟩ := bestBlock_attained lev hin.1 hin.2.2.1
    rw [hb]
    refine le_trans ?_ (blockMin_le_bestBlock ha)
    rw [le_blockMin]
    intro a b hab
    exact (blockMin_le hab).trans (hle a b)
  · rw [h.2 hin]
    exact hle j i

/-- C60. The removal never adds a level nor any depth, and it leaves the rows and columns alone
which it does not look at. -/
theorem C60_only_fills (tripolar fill dcl : Bool) (s : State K) (j i : Nat) :
    (removeIsolated ni nj tripolar fill dcl s).kmt j i ≤ s.kmt j i ∧
    (removeIsolated ni nj tripolar fill dcl s).ht j i ≤ s.ht j i ∧
    (¬ (1 ≤ j ∧ j ≤ (if tripolar then nj - 1 else nj) ∧ 1 ≤ i ∧ i ≤ ni) →
      (removeIsolated ni nj tripolar fill dcl s).kmt j i = s.kmt j i) := by
  have key := removeIsolated_induct
    (P := fun t : State K => ∀ j i, t.kmt j i ≤ s.kmt j i ∧ t.ht j i ≤ s.ht j i) (dcl := dcl) (by
      intro t c h1 h2 ht a b
      unfold removeStep
      simp only
      split
      · by_cases hc : (a, b) = c
        · subst hc
          have := set_ht_self t (a, b) (bestBlock t.ht a b, bestBlock t.kmt a b)
          simp only at this h1 h2
          rw [this.1, this.2]
          exact ⟨(bestBlock_le h1 h2).trans (ht a b).1, (bestBlock_le h1 h2).trans (ht a b).2⟩
        · rw [(set_ht_ne t c _ hc).1, (set_ht_ne t c _ hc).2]
          exact ht a b
      · exact ht a b) ni nj tripolar fill s (fun a b => ⟨le_rfl, le_rfl⟩) j i
  refine ⟨key.1, key.2, ?_⟩
  intro hn
  cases fill
  · simp [removeIsolated]
  · exact (removeIsolated_kmt ni nj tripolar dcl s j i).2 hn

/-- C60. With `--dont_change_landmask` the removal keeps ocean and land, and a cell looked at which is
still isolated has land at every one of its corners. -/
theorem C60_landmask (tripolar : Bool) (s : State K) (hs : ∀ j i, -1 ≤ s.kmt j i) (j i : Nat) :
    ((removeIsolated ni nj tripolar true true s).kmt j i = -1 ↔ s.kmt j i = -1) ∧
    (1 ≤ j → j ≤ (if tripolar then nj - 1 else nj) → 1 ≤ i → i ≤ ni →
      Connected (removeIsolated ni nj tripolar true true s).kmt j i ∨
        ∀ cj ci, Around cj ci j i → ∃ j' i', Around cj ci j' i' ∧
          (removeIsolated ni nj tripolar true true s).kmt j' i' = -1) := by
  have h := fun j i => removeIsolated_kmt ni nj tripolar true s j i
  set F := (removeIsolated ni nj tripolar true true s).kmt with hF
  have hmask : ∀ j i, F j i = -1 ↔ s.kmt j i = -1 := by
    intro j i
    by_cases hin : 1 ≤ j ∧ j ≤ checkedRows nj tripolar ∧ 1 ≤ i ∧ i ≤ ni
    · rw [(h j i).1 hin]
      unfold target
      have h1 := bestBlock_le (f := s.kmt) hin.1 hin.2.2.1
      split
      · rename_i h2
        have : 0 ≤ bestBlock s.kmt j i := by simpa using h2
        constructor <;> intro <;> omega
      · rfl
    · rw [(h j i).2 hin]
  refine ⟨hmask j i, ?_⟩
  intro h1 h2 h3 h4
  have hb : ∀ cj ci, blockMin F cj ci = blockMin s.kmt cj ci := by
    apply blockMin_partly (dcl := true)
    intro a b
    by_cases hin : 1 ≤ a ∧ a ≤ checkedRows nj tripolar ∧ 1 ≤ b ∧ b ≤ ni
    · exact .inr ⟨hin.1, hin.2.2.1, (h a b).1 hin⟩
    · exact .inl ((h a b).2 hin)
  by_cases hp : 0 ≤ bestBlock s.kmt j i
  · left
    rw [connected_iff h1 h3, (h j i).1 ⟨h1, h2, h3, h4⟩, bestBlock_congr h1 h3 (fun a b _ => hb a b)]
    unfold target
    rw [if_pos (.inl hp)]
  · right
    intro cj ci ha
    by_contra hcon
    apply hp
    refine le_trans ?_ (blockMin_le_bestBlock ha)
    rw [le_blockMin]
    intro a b hab
    have h5 : s.kmt a b ≠ -1 := fun e => hcon ⟨a, b, hab, (hmask a b).2 e⟩
    have := hs a b
    omega

/-! ### C61 -/

/-- C61. After the adjustment every cell is land or has at least `kmt_min` levels. -/
theorem C61_min_levels (g : VGrid zw nk) (o : Opts K) (ha : o.adjust = true)
    (h0 : 0 ≤ o.fractionFullCell) (ht : ThickEnough zw nk o.minThickness o.fractionFullCell)
    (depth : Nat → Nat → K) (out : Out K) (he : processTopo ni nj nk zw o depth = .ok out)
    (j i : Nat) (hj : j < nj) (hi : i < ni) :
    out.numLevels j i = 0 ∨ o.kmtMin ≤ out.numLevels j i := by
  obtain ⟨s, t, hs, hA, hout⟩ := processTopo_stages he
  obtain ⟨l, _⟩ := levels_spec g hs
  have l2 := connect_lev (ni := ni) (nj := nj) g (o := o) l
  obtain ⟨s1, h1, hk, _, h2⟩ := adjustCells_stages ha hA
  have l3 := l2.eachCell (fun _ _ _ hl he => restrictCell_lev g (possible_of g h0 ht) hl he) h1
  have e := (eachCell_spec (nodup_cells ni nj) h2 (j + 1) (i + 1)).1 (mem_cells' (by omega))
  have hp := (l3 (j + 1) (i + 1)).pos_iff g
  have hr := (l3 (j + 1) (i + 1)).range
  rw [(hout j i).2]
  obtain ⟨_, ⟨e', h⟩ | ⟨_, _, e' | e'⟩⟩ := enforceCell_cases hp e
  · simp only [Prod.mk.injEq] at e'
    rw [e'.2]
    by_cases hc : 0 < s1.ht (j + 1) (i + 1)
    · have := h hc; omega
    · rw [hp] at hc; omega
  · simp only [Prod.mk.injEq] at e'
    rw [e'.2]; omega
  · simp only [Prod.mk.injEq] at e'
    rw [e'.2]; omega

/-- C61. After the adjustment the bottom cell of every column of two levels or more has at least
the thickness asked for. -/
theorem C61_thickness (g : VGrid zw nk) (o : Opts K) (ha : o.adjust = true)
    (h0 : 0 ≤ o.fractionFullCell) (ht : ThickEnough zw nk o.minThickness o.fractionFullCell)
    (depth : Nat → Nat → K) (out : Out K) (he : processTopo ni nj nk zw o depth = .ok out)
    (j i : Nat) (hj : j < nj) (hi : i < ni) (n : Nat) (hn : 2 ≤ n) (hl : out.numLevels j i = n) :
    leastThickness zw o.minThickness o.fractionFullCell n ≤ out.depth j i - top zw n := by
  obtain ⟨s, t, hs, hA, hout⟩ := processTopo_stages he
  obtain ⟨l, _⟩ := levels_spec g hs
  have l2 := connect_lev (ni := ni) (nj := nj) g (o := o) l
  obtain ⟨s1, h1, hk, _, h2⟩ := adjustCells_stages ha hA
  have hP := possible_of g h0 ht
  have l3 := l2.eachCell (fun _ _ _ hl he => restrictCell_lev g hP hl he) h1
  have e1 := (eachCell_spec (nodup_cells ni nj) h1 (j + 1) (i + 1)).1 (mem_cells' (by omega))
  have e := (eachCell_spec (nodup_cells ni nj) h2 (j + 1) (i + 1)).1 (mem_cells' (by omega))
  have hp := (l3 (j + 1) (i + 1)).pos_iff g
  have hth := restrictCell_thick hP (l2 _ _) e1
  have key : Thick zw (pCellMin zw o.minThickness o.fractionFullCell)
      (t.ht (j + 1) (i + 1)) (t.kmt (j + 1) (i + 1)) := by
    obtain ⟨_, ⟨e', h⟩ | ⟨h5, h6, e' | e'⟩⟩ := enforceCell_cases hp e
    · simp only [Prod.mk.injEq] at e'
      rw [e'.1, e'.2]
      exact hth
    · simp only [Prod.mk.injEq] at e'
      rw [e'.1, e'.2]
      intro h; omega
    · simp only [Prod.mk.injEq] at e'
      rw [e'.1, e'.2]
      intro h
      exact (hP (o.kmtMin - 1).toNat (by omega) (by omega)).2
  rw [(hout j i).1]
  have hk' : t.kmt (j + 1) (i + 1) = (n : Int) - 1 := by
    have := (hout j i).2
    omega
  have := key (by omega)
  rw [hk', show ((n : Int) - 1).toNat = n - 1 by omega, pCellMin_eq (by omega),
    show n - 1 + 1 = n by omega, show n - 1 - 1 = n - 2 by omega] at this
  unfold top
  rw [if_neg (by omega)]
  exact this

/-- C61. With `--deepen_shallow` no ocean cell becomes land, and no cell becomes shallower. -/
theorem C61_deepen (g : VGrid zw nk) (o : Opts K) (hd : o.deepenShallow = true) (s t : State K)
    (hs : ∀ j i, Fits zw nk (s.ht j i) (s.kmt j i + 1))
    (he : enforceMinDepth ni nj nk zw o s = .ok t) (j i : Nat) :
    s.ht j i ≤ t.ht j i ∧ s.kmt j i ≤ t.kmt j i ∧
      (s.kmt j i < o.kmtMin - 1 → 1 ≤ j → j ≤ nj → 1 ≤ i → i ≤ ni → 0 < s.ht j i →
        t.ht j i = zw (o.kmtMin - 1).toNat ∧ t.kmt j i = o.kmtMin - 1) := by
  unfold enforceMinDepth at he
  split at he
  · cases he
  rename_i hk
  split at he
  · cases he
  rename_i hc
  have hr : o.roundShallow = false ∧ o.fillShallow = false := by
    unfold shallowCount at hc
    rw [hd] at hc
    cases h1 : o.roundShallow <;> cases h2 : o.fillShallow <;> simp [h1, h2] at hc ⊢
  have hsp := eachCell_spec (nodup_cells ni nj) he j i
  by_cases hin : 1 ≤ j ∧ j ≤ nj ∧ 1 ≤ i ∧ i ≤ ni
  · have e := hsp.1 (mem_cells' hin)
    unfold enforceCell at e
    split at e
    · rename_i hsh
      rw [if_neg (by simp [hr.1, hd]), if_neg (by simp [hr.2])] at e
      simp only [Except.ok.injEq, Prod.mk.injEq] at e
      obtain ⟨e1, e2⟩ := e
      have hl := lev_iff.2 (hs j i)
      refine ⟨?_, by omega, fun _ _ _ _ _ _ => ⟨e1.symm, e2.symm⟩⟩
      rw [← e1]
      have h0 := (hl.pos_iff g).1 hsh.1
      rcases hl with ⟨h1, _⟩ | ⟨n, h1, h2, _, _, h5⟩
      · omega
      · exact h5.trans (g.le (by omega) (by omega))
    · rename_i hsh
      simp only [Except.ok.injEq, Prod.mk.injEq] at e
      exact ⟨e.1.le, e.2.le, fun a _ _ _ _ b => absurd ⟨b, a⟩ hsh⟩
  · have e := hsp.2 (not_mem_cells hin)
    exact ⟨e.1.ge, e.2.ge, fun _ h1 h2 h3 h4 _ => absurd ⟨h1, h2, h3, h4⟩ hin⟩

/-- C61. With `--fill_shallow` no cell becomes deeper, and ocean cells with too few levels become
land. -/
theorem C61_fill (o : Opts K) (hd : o.fillShallow = true) (s t : State K)
    (hs : ∀ j i, Fits zw nk (s.ht j i) (s.kmt j i + 1))
    (he : enforceMinDepth ni nj nk zw o s = .ok t) (j i : Nat) :
    t.ht j i ≤ s.ht j i ∧ t.kmt j i ≤ s.kmt j i ∧
      (s.kmt j i < o.kmtMin - 1 → 1 ≤ j → j ≤ nj → 1 ≤ i → i ≤ ni → 0 < s.ht j i →
        t.ht j i = 0 ∧ t.kmt j i = -1) := by
  unfold enforceMinDepth at he
  split at he
  · cases he
  split at he
  · cases he
  rename_i hc
  have hr : o.roundShallow = false ∧ o.deepenShallow = false := by
    unfold shallowCount at hc
    rw [hd] at hc
    cases h1 : o.roundShallow <;> cases h2 : o.deepenShallow <;> simp [h1, h2] at hc ⊢
  have hsp := eachCell_spec (nodup_cells ni nj) he j i
  by_cases hin : 1 ≤ j ∧ j ≤ nj ∧ 1 ≤ i ∧ i ≤ ni
  · have e := hsp.1 (mem_cells' hin)
    unfold enforceCell at e
    split at e
    · rename_i hsh
      rw [if_neg (by simp [hr.1, hd])] at e
      simp only [Except.ok.injEq, Prod.mk.injEq] at e
      obtain ⟨e1, e2⟩ := e
      have hl := (lev_iff.2 (hs j i)).range
      exact ⟨e1 ▸ hsh.1.le, by omega, fun _ _ _ _ _ _ => ⟨e1.symm, e2.symm⟩⟩
    · rename_i hsh
      simp only [Except.ok.injEq, Prod.mk.injEq] at e
      exact ⟨e.1.ge, e.2.ge, fun a _ _ _ _ b => absurd ⟨b, a⟩ hsh⟩
  · have e := hsp.2 (not_mem_cells hin)
    exact ⟨e.1.le, e.2.le, fun _ h1 h2 h3 h4 _ => absurd ⟨h1, h2, h3, h4⟩ hin⟩

/-- C61. With rounding, a cell of too few levels whose floor is at the bottom of its last level
becomes land if its depth is less than half the minimum depth, and otherwise gets the minimum depth.

The full claim is about every depth, see `C61_round_wrong`: the program compares the bottom of the
last level instead of the depth. -/
theorem C61_round_partial (o : Opts K) (hd : o.deepenShallow = false)
    (hfl : o.fillShallow = false) (s t : State K)
    (he : enforceMinDepth ni nj nk zw o s = .ok t) (j i : Nat)
    (hin : 1 ≤ j ∧ j ≤ nj ∧ 1 ≤ i ∧ i ≤ ni) (hs : 0 < s.ht j i) (hk : s.kmt j i < o.kmtMin - 1)
    (hbot : s.ht j i = zw (s.kmt j i).toNat) :
    (s.ht j i < zw (o.kmtMin - 1).toNat / 2 → t.ht j i = 0 ∧ t.kmt j i = -1) ∧
    (zw (o.kmtMin - 1).toNat / 2 ≤ s.ht j i →
      t.ht j i = zw (o.kmtMin - 1).toNat ∧ t.kmt j i = o.kmtMin - 1) := by
  unfold enforceMinDepth at he
  split at he
  · cases he
  split at he
  · cases he
  have e := (eachCell_spec (nodup_cells ni nj) he j i).1 (mem_cells' hin)
  unfold enforceCell at e
  rw [if_pos ⟨hs, hk⟩, if_pos (.inr ⟨hd, hfl⟩)] at e
  split at e
  · cases e
  · have hh : (1 : K) / 2 * zw (o.kmtMin - 1).toNat = zw (o.kmtMin - 1).toNat / 2 := by ring
    simp only [Except.ok.injEq, roundCell, ← hbot, hh] at e
    split at e
    · rename_i h
      simp only [Prod.mk.injEq] at e
      exact ⟨fun _ => ⟨e.1.symm, e.2.symm⟩, fun h' => absurd h (not_lt.2 h')⟩
    · rename_i h
      simp only [Prod.mk.injEq] at e
      exact ⟨fun h' => absurd h' h, fun _ => ⟨e.1.symm, e.2.symm⟩⟩

/-! ### Where the code does not do what is claimed, and concrete cases -/

/-- Default options of make_topog (`make_topog.c`), on a grid with closed edges. -/
def topoOpts : Opts ℚ where
  tripolar := false
  cyclicX := false
  cyclicY := false
  fullCell := false
  flatBottom := false
  adjust := true
  fillIsolated := true
  dontChangeLandmask := false
  openVeryThin := true
  roundShallow := false
  deepenShallow := false
  fillShallow := false
  kmtMin := 2
  minThickness := 1 / 10
  fractionFullCell := 1 / 5

/-- Levels down to 50, 90, 130 and so on. -/
def topoZw (k : Nat) : ℚ := 50 + 40 * k

theorem topoZw_grid (nk : Nat) : VGrid topoZw nk :=
  ⟨by norm_num [topoZw], fun k _ => by simp [topoZw]⟩

/-- Depth and levels of one cell of the answer. -/
def topoCell (r : Except Stop (Out ℚ)) (j i : Nat) : Option (ℚ × Int) :=
  match r with
  | .ok out => some (out.depth j i, out.numLevels j i)
  | .error _ => none

theorem topoCell_ok {r : Except Stop (Out ℚ)} {j i : Nat} {x : ℚ × Int} (h : topoCell r j i = some x) :
    ∃ out, r = .ok out ∧ out.depth j i = x.1 ∧ out.numLevels j i = x.2 := by
  unfold topoCell at h
  split at h
  · rename_i out
    simp only [Option.some.injEq] at h
    exact ⟨out, rfl, by rw [← h], by rw [← h]⟩
  · cases h

/-- C59, the full claim fails: with `--fraction_full_cell 0` the least thickness is the thickness of
the first level, up to 50.  A level thinner than that is overfilled: here a depth of 80, in the level from
50 to 90, becomes 100 with the number of levels still 2. -/
theorem C59_fits_wrong : ∃ (o : Opts ℚ) (depth : Nat → Nat → ℚ) (out : Out ℚ),
    processTopo 2 2 4 topoZw o depth = .ok out ∧
      ¬ Fits topoZw 4 (out.depth 0 0) (out.numLevels 0 0) := by
  refine ⟨{ topoOpts with fractionFullCell := 0 }, fun _ _ => 80, ?_⟩
  obtain ⟨out, h1, h2, h3⟩ := topoCell_ok (r := processTopo 2 2 4 topoZw
    { topoOpts with fractionFullCell := 0 } fun _ _ => 80) (j := 0) (i := 0) (x := (100, 2))
    (by decide +kernel)
  refine ⟨out, h1, ?_⟩
  rw [h2, h3]
  rintro (⟨h, _⟩ | ⟨n, h, _, _, _, h4⟩)
  · simp at h
  · have : n = 2 := by omega
    subst this
    norm_num [bottom, topoZw] at h4

/-- Levels of 10. -/
def topoTen (k : Nat) : ℚ := 10 * (k + 1)

/-- A field of depths 30 with one cell a little deeper than 20. -/
def topoThin (j i : Nat) : ℚ := if j = 0 ∧ i = 0 then 41 / 2 else 30

/-- C60, the full claim fails: with `--dont_open_very_this_cell` a thin bottom cell is closed after
the search for isolated cells, and that isolates its neighbours.  On a grid of two by two cells the
first one ends with 2 levels, the others keep 3 and have no corner with water all round. -/
theorem C60_closing_wrong : ∃ (o : Opts ℚ) (depth : Nat → Nat → ℚ) (out : Out ℚ),
    o.adjust = true ∧ o.fillIsolated = true ∧ o.dontChangeLandmask = false ∧
    processTopo 2 2 3 topoTen o depth = .ok out ∧
      ∀ lev, Extended 2 2 false false false out.numLevels lev → ¬ Connected lev 2 2 := by
  refine ⟨{ topoOpts with openVeryThin := false }, topoThin, ?_⟩
  have e00 := topoCell_ok (r := processTopo 2 2 3 topoTen
    { topoOpts with openVeryThin := false } topoThin) (j := 0) (i := 0) (x := (20, 2))
    (by decide +kernel)
  have e11 := topoCell_ok (r := processTopo 2 2 3 topoTen
    { topoOpts with openVeryThin := false } topoThin) (j := 1) (i := 1) (x := (30, 3))
    (by decide +kernel)
  obtain ⟨out, h1, _, h3⟩ := e00
  obtain ⟨out', h1', _, h3'⟩ := e11
  have : out = out' := by
    rw [h1] at h1'
    simpa using h1'
  subst this
  refine ⟨out, rfl, rfl, rfl, h1, ?_⟩
  rintro lev hx ⟨cj, ci, ha, hle⟩
  have l11 := hx.inside 0 0 (by omega) (by omega)
  have l22 := hx.inside 1 1 (by omega) (by omega)
  have east := hx.east 2 (by omega)
  have north := hx.north 2 (by omega) (by omega)
  have north1 := hx.north 1 (by omega) (by omega)
  simp only [Bool.false_eq_true, if_false, Nat.zero_add, Nat.reduceAdd] at *
  rw [h3] at l11
  rw [h3'] at l22
  have hcc := corner_cases ha
  by_cases hcj : cj = 2
  · have := hle 3 2 ⟨.inr (by omega), ha.2⟩
    omega
  · by_cases hci : ci = 2
    · have := hle 2 3 ⟨ha.1, .inr (by omega)⟩
      omega
    · have := hle 1 1 ⟨.inl (by omega), .inl (by omega)⟩
      omega

/-- C61, the full claim fails: a cell of depth 3 is deepened to the minimum depth 20 although it is
much shallower than half of it, because the bottom of its level, 10, is compared. -/
theorem C61_round_wrong : ∃ (depth : Nat → Nat → ℚ) (out : Out ℚ),
    processTopo 2 2 3 topoTen { topoOpts with roundShallow := true } depth = .ok out ∧
      depth 0 0 < topoTen 1 / 2 ∧ out.depth 0 0 = topoTen 1 ∧ out.numLevels 0 0 = 2 := by
  refine ⟨fun _ _ => 3, ?_⟩
  obtain ⟨out, h1, h2, h3⟩ := topoCell_ok (r := processTopo 2 2 3 topoTen
    { topoOpts with roundShallow := true } fun _ _ => 3) (j := 0) (i := 0) (x := (20, 2))
    (by decide +kernel)
  refine ⟨out, h1, by norm_num [topoTen], ?_, h3⟩
  rw [h2]
  norm_num [topoTen]

/-- The conditions of C59 to C61 hold for the default options and levels of 10. -/
example : VGrid topoTen 3 ∧ ThickEnough topoTen 3 topoOpts.minThickness topoOpts.fractionFullCell ∧
    (0 : ℚ) ≤ topoOpts.fractionFullCell := by
  refine ⟨⟨by norm_num [topoTen], fun k _ => by simp [topoTen]⟩, ?_, by norm_num [topoOpts]⟩
  intro k h1 h2
  interval_cases k <;> norm_num [leastThickness, topoOpts, bottom, top, topoTen]

/-- Without adjustment a cell keeps its own depth, and a floor just below a level is raised to it. -/
example : topoCell (processTopo 3 2 3 topoTen { topoOpts with adjust := false, minThickness := 1 }
      fun j i => 7 * j + 21 / 2 * i) 1 0 = some (7, 1) ∧
    topoCell (processTopo 3 2 3 topoTen { topoOpts with adjust := false, minThickness := 1 }
      fun j i => 7 * j + 21 / 2 * i) 0 1 = some (10, 1) := by decide +kernel

/-- A pothole: a grid of three by three cells 20 deep, the one in the middle 30.  With the default
options it ends with 2 levels like the others. -/
example : topoCell (processTopo 3 3 3 topoTen topoOpts
    fun j i => if j = 1 ∧ i = 1 then 30 else 20) 1 1 = some (20, 2) := by decide +kernel

/-- A channel one cell wide is filled in, cyclic or not. -/
example : (topoCell (processTopo 3 3 3 topoTen { topoOpts with cyclicX := true }
      fun j _ => if j = 1 then 30 else 0) 1 1 = some (0, 0)) ∧
    (topoCell (processTopo 3 3 3 topoTen { topoOpts with cyclicX := true }
      fun j _ => if j = 0 then 0 else 25) 1 2 = some (25, 3)) := by decide +kernel

/-- Smoothing: a bump of 16 in a flat ocean of depth 32 loses three quarters of its height in one
pass when deepening is allowed, and the cell next to it is made shallower by an eighth of it. -/
example : filterTopo 5 5 1 true (fun j i => if j = 2 ∧ i = 2 then (16 : ℚ) else 32) 2 2 = 28 ∧
    filterTopo 5 5 1 true (fun j i => if j = 2 ∧ i = 2 then (16 : ℚ) else 32) 2 1 = 30 ∧
    filterTopo 5 5 1 false (fun j i => if j = 2 ∧ i = 2 then (16 : ℚ) else 32) 2 2 = 16 := by
  decide +kernel

end Verif
