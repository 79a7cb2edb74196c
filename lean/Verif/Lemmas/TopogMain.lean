import Mathlib.Tactic.Set
import Verif.Lemmas.TopogLevels
import Verif.Lemmas.TopogHalo

/-! # Lemmas about `process_topo` as a whole -/

namespace Verif.Topog

open Verif.Spec.Topo Verif.Interp

variable {K : Type _} [Field K] [LinearOrder K]

/-- Outside the grid nothing is written. -/
def Blank (ni nj : Nat) (s : State K) : Prop :=
  ∀ j i, ¬ (1 ≤ j ∧ j ≤ nj ∧ 1 ≤ i ∧ i ≤ ni) → s.ht j i = 0 ∧ s.kmt j i = -1

theorem not_mem_cells {ni nj j i : Nat} (h : ¬ (1 ≤ j ∧ j ≤ nj ∧ 1 ≤ i ∧ i ≤ ni)) :
    (j, i) ∉ cells ni nj := by
  intro hc
  have := mem_cells.1 hc
  simp only at this
  omega

theorem mem_cells' {ni nj j i : Nat} (h : 1 ≤ j ∧ j ≤ nj ∧ 1 ≤ i ∧ i ≤ ni) :
    (j, i) ∈ cells ni nj := mem_cells.2 (by simp only; omega)

theorem Blank.eachCell {f : K → Int → Except Stop (K × Int)} {ni nj : Nat} {s t : State K}
    (hs : Blank ni nj s) (he : eachCell f (cells ni nj) s = .ok t) : Blank ni nj t := by
  intro j i h
  have h' := (eachCell_spec (nodup_cells ni nj) he j i).2 (not_mem_cells h)
  rw [h'.1, h'.2]
  exact hs j i h

theorem initial_blank (ni nj : Nat) (depth : Nat → Nat → K) : Blank ni nj (initial ni nj depth) := by
  intro j i h
  simp only [initial]
  rw [if_neg h]
  simp

section

variable [IsStrictOrderedRing K] {zw : Nat → K} {nk ni nj : Nat}

theorem levels_spec (g : VGrid zw nk) {o : Opts K} {depth : Nat → Nat → K} {s : State K}
    (he : levels ni nj nk zw o (initial ni nj depth) = .ok s) :
    LevAll zw nk s ∧ Blank ni nj s := by
  unfold levels at he
  split at he
  · cases he
  rename_i s1 h1
  split at he
  · cases he
  rename_i s2 h2
  have b1 := (initial_blank ni nj depth).eachCell h1
  have l1 : LevAll zw nk s1 := by
    intro j i
    by_cases hc : 1 ≤ j ∧ j ≤ nj ∧ 1 ≤ i ∧ i ≤ ni
    · have := (eachCell_spec (nodup_cells ni nj) h1 j i).1 (mem_cells' hc)
      exact bottomLevel_lev g (.inr rfl) this
    · rw [(b1 j i hc).1, (b1 j i hc).2]
      exact .inl ⟨rfl, le_rfl⟩
  have l2 : LevAll zw nk s2 := l1.eachCell (fun _ _ _ hl he => fullCells_lev g hl he) h2
  exact ⟨l2.eachCell (fun _ _ _ hl he => flatBottoms_lev g hl he) he, (b1.eachCell h2).eachCell he⟩

theorem levels_ok (g : VGrid zw nk) (hk : 2 ≤ nk) {o : Opts K} {depth : Nat → Nat → K} :
    ∃ s, levels ni nj nk zw o (initial ni nj depth) = .ok s := by
  have c1 : ∀ h (k : Int), ∃ r, bottomLevel zw nk o.minThickness h k = .ok r := by
    intro h k
    unfold bottomLevel
    split
    · have : ∃ r, nearestIndex h zw nk = .ok r := by
        have hd := (nonDecreasing_iff zw nk).2 g.nonDecreasing
        by_cases h0 : h < zw 0
        · refine ⟨0, ?_⟩
          unfold nearestIndex
          rw [hd]
          simp only [Bool.false_eq_true, if_false]
          rw [if_neg (by omega), if_pos h0]
        · by_cases h1 : zw (nk - 1) < h
          · refine ⟨nk - 1, ?_⟩
            unfold nearestIndex
            rw [hd]
            simp only [Bool.false_eq_true, if_false]
            rw [if_neg (by omega), if_neg h0, if_pos h1]
          · obtain ⟨k, _, _, _, h⟩ :=
              nearestIndex_inside g.nonDecreasing hk (not_lt.1 h0) (not_lt.1 h1)
            exact ⟨_, h⟩
      obtain ⟨r, hr⟩ := this
      rw [hr]
      exact ⟨_, rfl⟩
    · exact ⟨_, rfl⟩
  obtain ⟨s1, h1⟩ := eachCell_ok (nodup_cells ni nj) (s := initial ni nj depth)
    (fun j i _ => c1 ((initial ni nj depth).ht j i) ((initial ni nj depth).kmt j i))
  have b1 := (initial_blank ni nj depth).eachCell h1
  have l1 : LevAll zw nk s1 := by
    intro j i
    by_cases hc : 1 ≤ j ∧ j ≤ nj ∧ 1 ≤ i ∧ i ≤ ni
    · have := (eachCell_spec (nodup_cells ni nj) h1 j i).1 (mem_cells' hc)
      exact bottomLevel_lev g (.inr rfl) this
    · rw [(b1 j i hc).1, (b1 j i hc).2]
      exact .inl ⟨rfl, le_rfl⟩
  obtain ⟨s2, h2⟩ := eachCell_ok (f := fullCells zw o.fullCell) (nodup_cells ni nj) (s := s1) (by
    intro j i _
    unfold fullCells
    split
    · rename_i hc
      have := ((l1 j i).pos_iff g).1 hc.2
      rw [if_neg (by omega)]
      exact ⟨_, rfl⟩
    · exact ⟨_, rfl⟩)
  obtain ⟨s3, h3⟩ := eachCell_ok (f := flatBottoms zw nk o.flatBottom) (nodup_cells ni nj) (s := s2)
    (by
      intro j i _
      unfold flatBottoms
      split <;> exact ⟨_, rfl⟩)
  refine ⟨s3, ?_⟩
  unfold levels
  rw [h1]
  simp only [h2]
  exact h3

theorem halo_lev {o : Opts K} {s : State K} (h : LevAll zw nk s) :
    LevAll zw nk ⟨halo ni nj o s.ht, halo ni nj o s.kmt⟩ := by
  have hy : ∀ j i, Lev zw nk (haloY ni nj o.tripolar o.cyclicY s.ht j i)
      (haloY ni nj o.tripolar o.cyclicY s.kmt j i) := by
    intro j i
    unfold haloY
    split_ifs <;> exact h _ _
  intro j i
  simp only [halo]
  unfold haloX
  split_ifs <;> exact hy _ _

theorem connect_lev (g : VGrid zw nk) {o : Opts K} {s : State K} (h : LevAll zw nk s) :
    LevAll zw nk (connect ni nj o s) := by
  unfold connect
  simp only
  split
  · exact (halo_lev h).removeIsolated g ni nj _ _ _
  · exact halo_lev h

theorem connect_inside {o : Opts K} (s : State K) {j i : Nat}
    (hc : 1 ≤ j ∧ j ≤ nj ∧ 1 ≤ i ∧ i ≤ ni) :
    halo ni nj o s.kmt j i = s.kmt j i := by
  unfold halo haloX haloY
  split_ifs <;> first | rfl | omega

/-- The thickness the program asks for is the one of the manual. -/
theorem pCellMin_eq {mt f : K} {k : Nat} (hk : 0 < k) :
    pCellMin zw mt f k = leastThickness zw mt f (k + 1) := by
  unfold pCellMin leastThickness top bottom
  rw [if_neg (by omega : ¬ k = 0), if_neg (by omega : ¬ k + 1 ≤ 1), show k + 1 - 2 = k - 1 by omega,
    show k + 1 - 1 = k by omega]

theorem pCellMin_pos (g : VGrid zw nk) {mt f : K} (hf : 0 ≤ f) {k : Nat} (h0 : 0 < k) (hk : k < nk) :
    0 < pCellMin zw mt f k := by
  unfold pCellMin
  split
  · exact lt_min (by norm_num) g.surface
  · rename_i hne
    rw [if_neg (by omega)]
    have hz : 0 < zw k - zw (k - 1) := sub_pos.2 (g.lt (by omega) hk)
    exact (mul_pos (lt_of_le_of_ne hf (Ne.symm hne)) hz).trans_le (le_max_left _ _)

theorem possible_of (g : VGrid zw nk) {mt f : K} (hf : 0 ≤ f) (ht : ThickEnough zw nk mt f) :
    Possible zw (pCellMin zw mt f) nk := by
  intro k h0 hk
  refine ⟨pCellMin_pos g hf h0 hk, ?_⟩
  rw [pCellMin_eq h0]
  have := ht (k + 1) (by omega) (by omega)
  unfold top at this
  rw [if_neg (by omega)] at this
  simpa [bottom] using this

/-- The stages of a run. -/
theorem processTopo_stages {o : Opts K} {depth : Nat → Nat → K} {out : Out K}
    (he : processTopo ni nj nk zw o depth = .ok out) :
    ∃ s t, levels ni nj nk zw o (initial ni nj depth) = .ok s ∧
      adjustCells ni nj nk zw o (connect ni nj o s) = .ok t ∧
      ∀ j i, out.depth j i = t.ht (j + 1) (i + 1) ∧ out.numLevels j i = t.kmt (j + 1) (i + 1) + 1 := by
  unfold processTopo at he
  split at he
  · cases he
  rename_i s hs
  split at he
  · cases he
  rename_i t ht
  cases he
  exact ⟨s, t, hs, ht, fun _ _ => ⟨rfl, rfl⟩⟩

/-- The stages of the adjustment. -/
theorem adjustCells_stages {o : Opts K} (ha : o.adjust = true) {s t : State K}
    (he : adjustCells ni nj nk zw o s = .ok t) :
    ∃ s1, eachCell (restrictCell zw (pCellMin zw o.minThickness o.fractionFullCell) o.openVeryThin)
        (cells ni nj) s = .ok s1 ∧ o.kmtMin ≤ nk ∧ shallowCount o ≤ 1 ∧
      eachCell (enforceCell zw o) (cells ni nj) s1 = .ok t := by
  unfold adjustCells at he
  rw [if_pos ha] at he
  split at he
  · cases he
  rename_i s1 h1
  unfold enforceMinDepth at he
  split at he
  · cases he
  split at he
  · cases he
  exact ⟨s1, h1, by omega, by omega, he⟩

/-- Depth and level of every cell fit at the end. -/
theorem adjustCells_lev (g : VGrid zw nk) {o : Opts K}
    (hp : o.adjust = true → Possible zw (pCellMin zw o.minThickness o.fractionFullCell) nk)
    {s t : State K} (hs : LevAll zw nk s) (he : adjustCells ni nj nk zw o s = .ok t) :
    LevAll zw nk t := by
  by_cases ha : o.adjust = true
  · obtain ⟨s1, h1, hk, _, h2⟩ := adjustCells_stages ha he
    have l1 := hs.eachCell (fun _ _ _ hl he => restrictCell_lev g (hp ha) hl he) h1
    exact l1.eachCell (fun _ _ _ hl he => enforceCell_lev g hk hl he) h2
  · unfold adjustCells at he
    rw [if_neg ha] at he
    cases he
    exact hs

/-- Opening thin cells keeps the levels, and keeps land and ocean apart. -/
theorem restrictCell_open (g : VGrid zw nk) {mt f : K} (hf : 0 ≤ f) {h : K} {k : Int} {r : K × Int}
    (hl : Lev zw nk h k) (he : restrictCell zw (pCellMin zw mt f) true h k = .ok r) :
    r.2 = k ∧ (0 < r.1 ↔ 0 ≤ r.2) := by
  unfold restrictCell at he
  split at he
  · rename_i hc
    cases he
    rcases hl with ⟨rfl, _⟩ | ⟨n, rfl, h1, _⟩
    · omega
    · have hn : 0 < n := by omega
      simp only [tooThin, Int.toNat_natCast, if_true]
      refine ⟨trivial, fun _ => by omega, fun _ => ?_⟩
      exact add_pos (g.pos (by omega)) (pCellMin_pos g hf hn h1)
  · cases he
    exact ⟨rfl, hl.pos_iff g⟩

/-- With thin cells opened, the final level of a cell depends on its level after the removal of
isolated cells only. -/
theorem adjustCells_open (g : VGrid zw nk) {o : Opts K} (ha : o.adjust = true)
    (ho : o.openVeryThin = true) (hf : 0 ≤ o.fractionFullCell) {s t : State K}
    (hs : LevAll zw nk s) (he : adjustCells ni nj nk zw o s = .ok t) {j i : Nat}
    (hc : 1 ≤ j ∧ j ≤ nj ∧ 1 ≤ i ∧ i ≤ ni) :
    t.kmt j i = shallowTo zw o (s.kmt j i) := by
  obtain ⟨s1, h1, hk, _, h2⟩ := adjustCells_stages ha he
  have e1 := (eachCell_spec (nodup_cells ni nj) h1 j i).1 (mem_cells' hc)
  have e2 := (eachCell_spec (nodup_cells ni nj) h2 j i).1 (mem_cells' hc)
  rw [ho] at e1
  obtain ⟨a1, a2⟩ := restrictCell_open g hf (hs j i) e1
  have := (enforceCell_cases a2 e2).1
  simp only at a1 this
  rw [this, a1]

theorem blockMin_succ (f : Nat → Nat → Int) (j i : Nat) :
    blockMin (fun j i => f j i + 1) j i = blockMin f j i + 1 := by
  simp only [blockMin]
  omega

theorem bestBlock_succ (f : Nat → Nat → Int) (j i : Nat) :
    bestBlock (fun j i => f j i + 1) j i = bestBlock f j i + 1 := by
  unfold bestBlock
  simp only [blockMin_succ]
  omega

theorem halo_succ (o : Opts K) (f : Nat → Nat → Int) (j i : Nat) :
    halo ni nj o (fun j i => f j i + 1) j i = halo ni nj o f j i + 1 := by
  unfold halo haloX haloY
  split_ifs <;> rfl

/-- After the removal of isolated cells, in the field with its halo filled anew, no cell that was
looked at is isolated. -/
theorem connect_connected (hni : 1 ≤ ni) (hnj : 1 ≤ nj) {o : Opts K} (ha : o.adjust = true)
    (hi : o.fillIsolated = true) (hd : o.dontChangeLandmask = false) {s : State K}
    (hb : Blank ni nj s) {B : Nat → Nat → Int}
    (hB : Extended ni nj o.tripolar o.cyclicX o.cyclicY
      (fun j i => (connect ni nj o s).kmt (j + 1) (i + 1) + 1) B) {j i : Nat}
    (hj : 1 ≤ j) (hj' : j ≤ checkedRows nj o.tripolar) (hi1 : 1 ≤ i) (hi2 : i ≤ ni) :
    Connected B j i := by
  have hR : checkedRows nj o.tripolar ≤ nj := by unfold checkedRows; split <;> omega
  set k2 : Nat → Nat → Int := halo ni nj o s.kmt with hk2
  set A : Nat → Nat → Int := fun j i => k2 j i + 1 with hAdef
  have hA : Extended ni nj o.tripolar o.cyclicX o.cyclicY (fun j i => s.kmt (j + 1) (i + 1) + 1) A := by
    have := halo_extended hni hnj o (f := fun j i => s.kmt j i + 1)
      (fun j i h => by rw [(hb j i h).2]; rfl)
    have e : A = halo ni nj o (fun j i => s.kmt j i + 1) := by
      funext j i
      rw [halo_succ]
    rw [e]
    exact this
  have hconn : connect ni nj o s = removeIsolated ni nj o.tripolar true false
      ⟨halo ni nj o s.ht, k2⟩ := by
    unfold connect
    simp only [ha, if_true, hi, hd, hk2]
  have hF := fun a b => removeIsolated_kmt ni nj o.tripolar false ⟨halo ni nj o s.ht, k2⟩ a b
  simp only [← hconn] at hF
  have hBin : ∀ a b, 1 ≤ a → a ≤ nj → 1 ≤ b → b ≤ ni → B a b = (connect ni nj o s).kmt a b + 1 := by
    intro a b h1 h2 h3 h4
    have := hB.inside (a - 1) (b - 1) (by omega) (by omega)
    rw [show a - 1 + 1 = a by omega, show b - 1 + 1 = b by omega] at this
    exact this
  have best : ∀ a b, 1 ≤ a → a ≤ checkedRows nj o.tripolar → 1 ≤ b → b ≤ ni →
      B a b = bestBlock A a b := by
    intro a b h1 h2 h3 h4
    rw [hBin a b h1 (by omega) h3 h4, (hF a b).1 ⟨h1, h2, h3, h4⟩, bestBlock_succ]
    simp [target]
  have hmin := fun cj ci (hcj : cj ≤ checkedRows nj o.tripolar) (hci : ci ≤ ni) =>
    refreshed hA hB hni hnj (by
      intro a b h1 h2 h3 h4
      by_cases hc : a ≤ checkedRows nj o.tripolar
      · exact .inr (best a b h1 hc h3 h4)
      · left
        rw [hBin a b h1 h2 h3 h4, (hF a b).2 (fun h => hc h.2.1)]) hcj hci
  rw [connected_iff hj hi1, best j i hj hj' hi1 hi2]
  refine le_of_eq (bestBlock_congr hj hi1 ?_)
  intro cj ci hc
  have := corner_cases hc
  exact (hmin cj ci (by omega) (by omega)).symm

end

end Verif.Topog
