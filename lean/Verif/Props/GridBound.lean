import Verif.Model.GridBound
import Verif.Spec.GridBound
import Verif.Props.Spline
import Mathlib.Tactic.FieldSimp
/-
C42: grids generated from bounds.
-/
namespace Verif.GridBound
open Verif.Interp Verif.Spec
variable {K : Type} [Field K] [LinearOrder K] [IsStrictOrderedRing K]

/-! ### Counts -/

theorem cellsBefore_zero (npts : Nat → Int) : cellsBefore npts 0 = 0 := rfl

theorem cellsBefore_succ (npts : Nat → Int) (l : Nat) : cellsBefore npts (l + 1) = cellsBefore npts l + npts l := by
  unfold cellsBefore
  rw [List.range_succ]
  simp

theorem refine_cases {c : String} {r : Int} (h : refine c = some r) :
    (c = "none" ∧ r = 1) ∨ ((c = "t_cell" ∨ c = "c_cell") ∧ r = 2) := by
  unfold refine at h
  split at h
  · left; exact ⟨by assumption, by simpa using h.symm⟩
  · split at h
    · right; exact ⟨by assumption, by simpa using h.symm⟩
    · simp at h

theorem refine_valid {nb : Nat} {npts : Nat → Int} {c : String} (h : ValidRequest nb npts c) :
    ∃ r, refine c = some r ∧ 0 < r ∧ ∀ l, l + 1 < nb → r ∣ npts l := by
  obtain ⟨_, _, rfl | ⟨hc, hd⟩⟩ := h
  · exact ⟨1, rfl, by omega, fun _ _ => Int.one_dvd _⟩
  · refine ⟨2, ?_, by omega, hd⟩
    unfold refine
    have : c ≠ "none" := by rcases hc with rfl | rfl <;> decide
    rw [if_neg this, if_pos hc]

theorem cellsTo_mul {nb : Nat} {npts : Nat → Int} {r : Int} (hd : ∀ l, l + 1 < nb → r ∣ npts l) :
    ∀ l, l < nb → r * cellsTo r npts l = cellsBefore npts l
  | 0, _ => by simp [cellsTo, cellsBefore_zero]
  | l + 1, h => by
    rw [cellsTo, Int.mul_add, cellsTo_mul hd l (by omega), cellsBefore_succ, Int.mul_tdiv_cancel' (hd l h)]

theorem tdiv_pos {a r : Int} (ha : 0 < a) (hr : 0 < r) (hd : r ∣ a) : 0 < a.tdiv r := by
  obtain ⟨q, rfl⟩ := hd
  rw [Int.mul_tdiv_cancel_left _ (by omega)]
  by_contra h
  have : r * q ≤ 0 := Int.mul_nonpos_of_nonneg_of_nonpos (by omega) (by omega)
  omega

theorem cellsTo_lt {nb : Nat} {npts : Nat → Int} {r : Int} (hr : 0 < r) (hp : ∀ l, l + 1 < nb → 0 < npts l)
    (hd : ∀ l, l + 1 < nb → r ∣ npts l) {i : Nat} : ∀ j, i < j → j < nb → cellsTo r npts i < cellsTo r npts j
  | 0, h, _ => by omega
  | j + 1, h, hj => by
    have h1 := tdiv_pos (hp j hj) hr (hd j hj)
    rw [cellsTo]
    rcases Nat.lt_or_ge i j with h' | h'
    · have := cellsTo_lt hr hp hd j h' (by omega)
      omega
    · obtain rfl : i = j := by omega
      omega

theorem cellsTo_nonneg {nb : Nat} {npts : Nat → Int} {r : Int} (hr : 0 < r) (hp : ∀ l, l + 1 < nb → 0 < npts l)
    (hd : ∀ l, l + 1 < nb → r ∣ npts l) (i : Nat) (hi : i < nb) : 0 ≤ cellsTo r npts i := by
  rcases Nat.eq_zero_or_pos i with rfl | h
  · exact le_refl _
  · exact le_of_lt (cellsTo_lt hr hp hd (i := 0) i h hi)

/-- The nodes of the spline. -/
def nodes (r : Int) (npts : Nat → Int) : Nat → K := fun i => ((cellsTo r npts i + 1 : Int) : K)

/-- The targets of the spline. -/
def targets : Nat → K := fun i => (i : K) + 1

theorem nodes_increasing {nb : Nat} {npts : Nat → Int} {r : Int} (hr : 0 < r) (hp : ∀ l, l + 1 < nb → 0 < npts l)
    (hd : ∀ l, l + 1 < nb → r ∣ npts l) : Increasing (nodes (K := K) r npts) nb := by
  intro i j hij hj
  have := cellsTo_lt hr hp hd (i := i) j hij hj
  unfold nodes
  exact Int.cast_lt.2 (by omega)

theorem targets_inRange {nb : Nat} {npts : Nat → Int} {r : Int} (h0 : 0 ≤ cellsTo r npts (nb - 1)) :
    InRange (nodes (K := K) r npts) nb targets (cellsTo r npts (nb - 1) + 1).toNat := by
  intro k hk
  unfold nodes targets
  have e : (k : K) + 1 = ((k + 1 : Int) : K) := by push_cast; rfl
  rw [e]
  constructor
  · exact Int.cast_le.2 (by simp [cellsTo])
  · exact Int.cast_le.2 (by omega)

/-! ### The lines from the spline -/

/-- What is used of the spline: with `N` intervals, the node `l` has number `c l`. -/
structure Core (nb : Nat) (bnds : Nat → K) (npts : Nat → Int) (r : Int) (N : Nat) (c : Nat → Nat) (tmp : Nat → K) :
    Prop where
  c0 : c 0 = 0
  cN : c (nb - 1) = N
  clt : ∀ i j, i < j → j < nb → c i < c j
  cval : ∀ l, l < nb → r * (c l : Int) = cellsBefore npts l
  hits : ∀ l, l < nb → tmp (c l) = bnds l
  strict : ∀ s : K, (∀ i j, i < j → j < nb → 0 < s * (bnds j - bnds i)) →
    ∀ k k', k < k' → k' ≤ N → 0 < s * (tmp k' - tmp k)
  piece : ∀ l k, l + 1 < nb → c l ≤ k → k ≤ c (l + 1) →
    tmp k = spPieces nb (nodes r npts) bnds l ((k : K) + 1)

theorem core {nb : Nat} (bnds : Nat → K) {npts : Nat → Int} {center : String} (h : ValidRequest nb npts center) :
    ∃ r N c tmp, refine center = some r ∧ 0 < r ∧ (∀ l, l + 1 < nb → r ∣ npts l) ∧
      Core nb bnds npts r N c tmp ∧ computeGridBound nb bnds npts center = .ok (placeLines center N tmp) := by
  obtain ⟨r, hr, r0, hd⟩ := refine_valid h
  obtain ⟨h2, hp, _⟩ := h
  have hx := nodes_increasing (K := K) r0 hp hd
  have h0 := cellsTo_nonneg r0 hp hd (nb - 1) (by omega)
  have hg := targets_inRange (K := K) h0
  obtain ⟨tm, ht, hlen, hpc⟩ := spPieces_eval nb _ _ bnds _ h2 hx hg
  obtain ⟨tm', ht', _, hnode⟩ := C25_nodes nb _ _ bnds _ h2 hx hg
  rw [ht] at ht'; cases ht'
  have hN : (cellsTo r npts (nb - 1) + 1).toNat = (cellsTo r npts (nb - 1)).toNat + 1 := by omega
  have cc : ∀ i, i < nb → ((cellsTo r npts i).toNat : Int) = cellsTo r npts i :=
    fun i hi => Int.toNat_of_nonneg (cellsTo_nonneg r0 hp hd i hi)
  have tn : ∀ i, i < nb → targets (K := K) (cellsTo r npts i).toNat = nodes r npts i := by
    intro i hi
    unfold targets nodes
    have : (((cellsTo r npts i).toNat : Nat) : K) = ((cellsTo r npts i : Int) : K) := by
      rw [← Int.cast_natCast, cc i hi]
    rw [this]; push_cast; rfl
  have clt : ∀ i j, i < j → j < nb → (cellsTo r npts i).toNat < (cellsTo r npts j).toNat := by
    intro i j hij hj
    have := cellsTo_lt r0 hp hd (i := i) j hij hj
    have := cc i (by omega)
    have := cc j hj
    omega
  have cle : ∀ i, i < nb → (cellsTo r npts i).toNat ≤ (cellsTo r npts (nb - 1)).toNat := by
    intro i hi
    rcases Nat.lt_or_ge i (nb - 1) with h' | h'
    · exact le_of_lt (clt i (nb - 1) h' (by omega))
    · have : i = nb - 1 := by omega
      rw [this]
  have gd : ∀ k z, tm[k]? = some z → tm.getD k 0 = z := by
    intro k z hz
    rw [List.getD_eq_getElem?_getD, hz]; rfl
  refine ⟨r, (cellsTo r npts (nb - 1)).toNat, fun i => (cellsTo r npts i).toNat, fun i => tm.getD i 0, hr, r0, hd,
    ⟨rfl, rfl, clt, ?_, ?_, ?_, ?_⟩, ?_⟩
  · intro l hl
    rw [cc l hl]; exact cellsTo_mul hd l hl
  · intro l hl
    exact gd _ _ (hnode _ l (by have := cle l hl; omega) hl (tn l hl))
  · intro s hs k k' hk hk'
    obtain ⟨tm', ht', _, hst⟩ := C25_strict nb _ _ bnds _ h2 hx hg s hs
    rw [ht] at ht'; cases ht'
    obtain ⟨z, z', hz, hz', hlt⟩ := hst k k' (by omega) (by omega) (by
      unfold targets
      have : (k : K) < (k' : K) := Nat.cast_lt.2 hk
      linarith)
    show 0 < s * (tm.getD k' 0 - tm.getD k 0)
    rw [gd _ _ hz, gd _ _ hz']
    exact hlt
  · intro l k hl h1 h3
    obtain ⟨z, hz, hzp⟩ := hpc k (by have := cle (l + 1) hl; omega)
    show tm.getD k 0 = _
    rw [gd _ _ hz]
    refine hzp l hl ?_ ?_
    · rw [← tn l (by omega)]
      unfold targets
      have := (Nat.cast_le (α := K)).2 h1
      linarith
    · rw [← tn (l + 1) hl]
      unfold targets
      have := (Nat.cast_le (α := K)).2 h3
      linarith
  · unfold computeGridBound
    rw [hr]
    have : ((List.range (nb - 1)).any fun i => decide ((npts i).tmod r ≠ 0)) = false := by
      rw [List.any_eq_false]
      intro i hi
      have hi := List.mem_range.1 hi
      simpa using Int.tmod_eq_zero_of_dvd (hd i (by omega))
    simp only [this, Bool.false_eq_true, if_false]
    unfold nodes targets at ht
    rw [ht]

theorem getElem?_rangeMap {β : Type} (f : Nat → β) {m k : Nat} (h : k < m) :
    ((List.range m).map f)[k]? = some (f k) := by
  rw [List.getElem?_map, List.getElem?_range h]; rfl

/-- Line `k` of the grid. -/
def lineOf (center : String) (n : Nat) (tmp : Nat → K) (k : Nat) : K := (placeLines center n tmp).getD k 0

variable {nb : Nat} {bnds : Nat → K} {npts : Nat → Int} {r : Int} {N : Nat} {c : Nat → Nat} {tmp : Nat → K}

omit [IsStrictOrderedRing K] [LinearOrder K] in
theorem placeLines_length {center : String} (hr : refine center = some r) :
    ((placeLines center N tmp).length : Int) = r * N + 1 := by
  unfold placeLines
  rcases refine_cases hr with ⟨rfl, rfl⟩ | ⟨rfl | rfl, rfl⟩
  · simp
  · simp
  · simp

omit [IsStrictOrderedRing K] [LinearOrder K] in
/-- With "none" and "t_cell" the spline's lines are kept. -/
theorem placeLines_keep {center : String} (hr : refine center = some r) (hc : center ≠ "c_cell") {k : Nat} (hk : k ≤ N) :
    (placeLines center N tmp)[(r * (k : Int)).toNat]? = some (tmp k) := by
  unfold placeLines
  rcases refine_cases hr with ⟨rfl, rfl⟩ | ⟨rfl | rfl, rfl⟩
  · rw [if_pos rfl, getElem?_rangeMap _ (by omega)]
    congr 2; omega
  · rw [if_neg (by decide), if_pos rfl, getElem?_rangeMap _ (by omega), if_pos (by omega)]
    congr 2; omega
  · exact absurd rfl hc

omit [IsStrictOrderedRing K] [LinearOrder K] in
/-- The two ends are kept always. -/
theorem placeLines_ends {center : String} (hr : refine center = some r) (hN : 0 < N) :
    (placeLines center N tmp)[0]? = some (tmp 0) ∧ (placeLines center N tmp)[(r * (N : Int)).toNat]? = some (tmp N) := by
  unfold placeLines
  rcases refine_cases hr with ⟨rfl, rfl⟩ | ⟨rfl | rfl, rfl⟩
  · rw [if_pos rfl, getElem?_rangeMap _ (by omega), getElem?_rangeMap _ (by omega)]
    refine ⟨rfl, ?_⟩
    congr 2; omega
  · rw [if_neg (by decide), if_pos rfl, getElem?_rangeMap _ (by omega), getElem?_rangeMap _ (by omega),
      if_pos (by omega), if_pos (by omega)]
    refine ⟨rfl, ?_⟩
    congr 2; omega
  · rw [if_neg (by decide)]
    simp only [show ¬ ("c_cell" = "t_cell") by decide, if_false]
    rw [getElem?_rangeMap _ (by omega), getElem?_rangeMap _ (by omega), if_neg (by omega), if_neg (by omega), if_pos rfl,
      if_neg (by omega), if_pos (by omega)]
    exact ⟨rfl, rfl⟩

theorem rangeMap_signed {m : Nat} {f : Nat → K} {s : K} (h : ∀ k, k + 1 < m → 0 < s * (f (k + 1) - f k)) :
    ((List.range m).map f).Pairwise fun a b => 0 < s * (b - a) := by
  have key : ∀ i d, i + (d + 1) < m → 0 < s * (f (i + (d + 1)) - f i) := by
    intro i d
    induction d with
    | zero => intro hd; exact h i hd
    | succ d ih =>
      intro hd
      have h1 := ih (by omega)
      have h2 := h (i + (d + 1)) hd
      have : s * (f (i + (d + 1 + 1)) - f i) =
        s * (f (i + (d + 1) + 1) - f (i + (d + 1))) + s * (f (i + (d + 1)) - f i) := by
        rw [show i + (d + 1 + 1) = i + (d + 1) + 1 by omega]; ring
      rw [this]
      linarith
  rw [List.pairwise_map]
  refine List.Pairwise.imp_of_mem ?_ List.pairwise_lt_range
  intro a b _ hb hab
  have hb := List.mem_range.1 hb
  have := key a (b - a - 1) (by omega)
  rwa [show a + (b - a - 1 + 1) = b by omega] at this

/-- The lines keep the direction of the bounds. -/
theorem placeLines_signed {center : String} (hr : refine center = some r) {s : K}
    (hs : ∀ k k', k < k' → k' ≤ N → 0 < s * (tmp k' - tmp k)) :
    (placeLines center N tmp).Pairwise fun a b => 0 < s * (b - a) := by
  have hs1 : ∀ k, k + 1 ≤ N → 0 < s * (tmp (k + 1) - tmp k) := fun k hk => hs k (k + 1) (by omega) hk
  unfold placeLines
  rcases refine_cases hr with ⟨rfl, rfl⟩ | ⟨rfl | rfl, rfl⟩
  · rw [if_pos rfl]
    exact rangeMap_signed fun k hk => hs1 k (by omega)
  · rw [if_neg (by decide), if_pos rfl]
    apply rangeMap_signed
    intro k hk
    have h1 := hs1 (k / 2) (by omega)
    rcases Nat.mod_two_eq_zero_or_one k with h | h
    · rw [if_neg (show ¬ (k + 1) % 2 = 0 by omega), if_pos h, show (k + 1) / 2 = k / 2 by omega]
      linarith
    · rw [if_pos (show (k + 1) % 2 = 0 by omega), if_neg (by omega), show (k + 1) / 2 = k / 2 + 1 by omega]
      linarith
  · rw [if_neg (by decide)]
    simp only [show ¬ ("c_cell" = "t_cell") by decide, if_false]
    apply rangeMap_signed
    intro k hk
    have h1 := hs1 (k / 2) (by omega)
    rcases Nat.mod_two_eq_zero_or_one k with h | h
    · rw [if_pos (show (k + 1) % 2 = 1 by omega), if_neg (show ¬ k % 2 = 1 by omega), if_neg (show ¬ k = 2 * N by omega),
        show (k + 1) / 2 = k / 2 by omega]
      by_cases h0 : k = 0
      · rw [if_pos h0]; subst h0
        simp only [Nat.zero_div] at h1 ⊢
        linarith
      · rw [if_neg h0]
        have h2 := hs1 (k / 2 - 1) (by omega)
        rw [show k / 2 - 1 + 1 = k / 2 by omega] at h2 ⊢
        linarith
    · rw [if_neg (show ¬ (k + 1) % 2 = 1 by omega), if_pos h]
      by_cases hN : k + 1 = 2 * N
      · rw [if_pos hN]
        rw [show N = k / 2 + 1 by omega]
        linarith
      · rw [if_neg hN, if_neg (by omega), show (k + 1) / 2 - 1 = k / 2 by omega, show (k + 1) / 2 = k / 2 + 1 by omega]
        have h2 := hs1 (k / 2 + 1) (by omega)
        linarith

/-! ### The property -/

/-- C42. A request is accepted exactly if it can be met. (`nb` is at least 1: the code writes `grid1[0]`.) -/
theorem C42_accepts (nb : Nat) (bnds : Nat → K) (npts : Nat → Int) (center : String) (h1 : 1 ≤ nb) :
    (∃ grid, computeGridBound nb bnds npts center = .ok grid) ↔ ValidRequest nb npts center := by
  constructor
  · rintro ⟨grid, hgrid⟩
    unfold computeGridBound at hgrid
    cases hr : refine center with
    | none => rw [hr] at hgrid; cases hgrid
    | some r =>
      rw [hr] at hgrid
      simp only at hgrid
      split at hgrid
      · cases hgrid
      · rename_i hany
        have hd : ∀ l, l + 1 < nb → r ∣ npts l := by
          intro l hl
          by_contra hn
          apply hany
          rw [List.any_eq_true]
          refine ⟨l, List.mem_range.2 (by omega), ?_⟩
          simp only [decide_eq_true_eq]
          intro h0
          exact hn (Int.dvd_of_tmod_eq_zero h0)
        have r0 : 0 < r := by
          rcases refine_cases hr with ⟨_, rfl⟩ | ⟨_, rfl⟩ <;> omega
        have hinc : Increasing (nodes (K := K) r npts) nb := by
          by_contra hn
          have := (C25_rejects nb (cellsTo r npts (nb - 1) + 1).toNat (nodes (K := K) r npts) bnds targets).1 hn
          unfold nodes targets at this
          rw [this] at hgrid
          cases hgrid
        have hp : ∀ l, l + 1 < nb → 0 < npts l := by
          intro l hl
          have := hinc l (l + 1) (by omega) hl
          unfold nodes at this
          have := Int.cast_lt.1 this
          rw [cellsTo] at this
          by_contra hn
          obtain ⟨q, hq⟩ := hd l hl
          rw [hq, Int.mul_tdiv_cancel_left _ (by omega)] at this
          have := Int.mul_pos r0 (show 0 < q by omega)
          omega
        refine ⟨?_, hp, ?_⟩
        · by_contra hn
          have h0 := cellsTo_nonneg r0 hp hd (nb - 1) (by omega)
          have := (C25_rejects nb (cellsTo r npts (nb - 1) + 1).toNat (nodes (K := K) r npts) bnds targets).2.2 hinc
            (targets_inRange h0) (by omega)
          unfold nodes targets at this
          rw [this] at hgrid
          cases hgrid
        · rcases refine_cases hr with ⟨hc, rfl⟩ | ⟨hc, rfl⟩
          · exact Or.inl hc
          · exact Or.inr ⟨hc, hd⟩
  · intro h
    obtain ⟨r, N, c, tmp, _, _, _, _, he⟩ := core bnds h
    exact ⟨_, he⟩

/-- C42. The number of cells is the requested total, and the first and last lines are the first and last bounds. -/
theorem C42_cells (nb : Nat) (bnds : Nat → K) (npts : Nat → Int) (center : String) (h : ValidRequest nb npts center) :
    ∃ grid, computeGridBound nb bnds npts center = .ok grid ∧
      (grid.length : Int) = cellsBefore npts (nb - 1) + 1 ∧
      LineAt grid 0 (bnds 0) ∧ LineAt grid (cellsBefore npts (nb - 1)) (bnds (nb - 1)) := by
  obtain ⟨r, N, c, tmp, hr, r0, _, hc, he⟩ := core bnds h
  have h2 := h.1
  have hN : 0 < N := by
    have := hc.clt 0 (nb - 1) (by omega) (by omega)
    rw [hc.cN] at this; omega
  have hv := hc.cval (nb - 1) (by omega)
  rw [hc.cN] at hv
  have e := placeLines_ends (tmp := tmp) hr hN
  have b0 := hc.hits 0 (by omega)
  have b1 := hc.hits (nb - 1) (by omega)
  rw [hc.c0] at b0
  rw [hc.cN] at b1
  refine ⟨_, he, ?_, ⟨le_refl _, ?_⟩, ?_, ?_⟩
  · rw [placeLines_length hr, hv]
  · rw [← b0]; exact e.1
  · rw [← hv]; exact Int.mul_nonneg (by omega) (by omega)
  · rw [← hv, ← b1]; exact e.2

/-- C42, for centring "none" and "t_cell". The lines of the grid include all the bounds: bound `l` is the line that
follows the cells requested for the regions before it. The full statement has no condition on the centring; it is
false for "c_cell" (`C42_c_cell_wrong`). -/
theorem C42_bounds_partial (nb : Nat) (bnds : Nat → K) (npts : Nat → Int) (center : String)
    (h : ValidRequest nb npts center) (hc : center ≠ "c_cell") :
    ∃ grid, computeGridBound nb bnds npts center = .ok grid ∧
      ∀ l, l < nb → LineAt grid (cellsBefore npts l) (bnds l) := by
  obtain ⟨r, N, c, tmp, hr, r0, _, hco, he⟩ := core bnds h
  refine ⟨_, he, ?_⟩
  intro l hl
  have hv := hco.cval l hl
  have hle : c l ≤ N := by
    rcases Nat.lt_or_ge l (nb - 1) with h' | h'
    · rw [← hco.cN]; exact le_of_lt (hco.clt l (nb - 1) h' (by omega))
    · rw [← hco.cN, show l = nb - 1 by omega]
  constructor
  · rw [← hv]; exact Int.mul_nonneg (by omega) (by omega)
  · rw [← hv, ← hco.hits l hl]
    exact placeLines_keep hr hc hle

/-- C42. Bounds that increase give lines that increase, bounds that decrease lines that decrease. -/
theorem C42_monotone (nb : Nat) (bnds : Nat → K) (npts : Nat → Int) (center : String)
    (h : ValidRequest nb npts center) :
    ∃ grid, computeGridBound nb bnds npts center = .ok grid ∧
      (Increasing bnds nb → LinesIncrease grid) ∧
      (Increasing (fun l => - bnds l) nb → LinesDecrease grid) := by
  obtain ⟨r, N, c, tmp, hr, r0, _, hco, he⟩ := core bnds h
  refine ⟨_, he, ?_, ?_⟩
  · intro hb
    have := placeLines_signed (tmp := tmp) (N := N) hr (s := 1) (hco.strict 1 (by
      intro i j hij hj
      have := hb i j hij hj
      linarith))
    exact this.imp fun h => by linarith
  · intro hb
    have := placeLines_signed (tmp := tmp) (N := N) hr (s := -1) (hco.strict (-1) (by
      intro i j hij hj
      have := hb i j hij hj
      linarith))
    exact this.imp fun h => by
      show _ < _
      linarith

/-- C42. With "t_cell" the lines with odd numbers are in the middle of their cells; with "c_cell" the lines with even
numbers, except the first and the last, are in the middle between their neighbours. -/
theorem C42_centred (nb : Nat) (bnds : Nat → K) (npts : Nat → Int) (center : String)
    (h : ValidRequest nb npts center) :
    ∃ grid, computeGridBound nb bnds npts center = .ok grid ∧
      (center = "t_cell" → ∀ k, 2 * k + 2 < grid.length → Centred grid (2 * k)) ∧
      (center = "c_cell" → ∀ k, 2 * k + 3 < grid.length → Centred grid (2 * k + 1)) := by
  obtain ⟨r, N, c, tmp, hr, r0, _, hco, he⟩ := core bnds h
  refine ⟨_, he, ?_, ?_⟩
  · rintro rfl k hk
    unfold placeLines at hk ⊢
    rw [if_neg (by decide), if_pos rfl] at hk ⊢
    simp only [List.length_map, List.length_range] at hk
    refine ⟨_, _, _, getElem?_rangeMap _ (by omega), getElem?_rangeMap _ (by omega), getElem?_rangeMap _ (by omega), ?_⟩
    rw [if_pos (show 2 * k % 2 = 0 by omega), if_neg (show ¬ (2 * k + 1) % 2 = 0 by omega),
      if_pos (show (2 * k + 2) % 2 = 0 by omega), show 2 * k / 2 = k by omega, show (2 * k + 1) / 2 = k by omega,
      show (2 * k + 2) / 2 = k + 1 by omega]
    ring
  · rintro rfl k hk
    unfold placeLines at hk ⊢
    rw [if_neg (by decide)] at hk ⊢
    simp only [show ¬ ("c_cell" = "t_cell") by decide, if_false, List.length_map, List.length_range] at hk ⊢
    refine ⟨_, _, _, getElem?_rangeMap _ (by omega), getElem?_rangeMap _ (by omega), getElem?_rangeMap _ (by omega), ?_⟩
    rw [if_pos (show (2 * k + 1) % 2 = 1 by omega), if_neg (show ¬ (2 * k + 1 + 1) % 2 = 1 by omega),
      if_neg (show ¬ 2 * k + 1 + 1 = 2 * N by omega), if_neg (by omega),
      if_pos (show (2 * k + 1 + 2) % 2 = 1 by omega), show (2 * k + 1) / 2 = k by omega,
      show (2 * k + 1 + 1) / 2 = k + 1 by omega, show (2 * k + 1 + 2) / 2 = k + 1 by omega, Nat.add_sub_cancel]
    ring

/-! ### Constant resolution -/

theorem slope_const {n : Nat} {x y : Nat → K} (hn : 2 < n) (hx : Increasing x n) {D : K} {k : Nat} (hk : k < n)
    (h1 : k + 1 < n → spDelta x y k = D) (h2 : 0 < k → spDelta x y (k - 1) = D)
    (h3 : k = 0 → spDelta x y 1 = D) (h4 : k = n - 1 → spDelta x y (n - 3) = D) : spSlope n x y k = D := by
  have ends : ∀ p q : K, 0 < p → 0 < q → spEnd p q D D = D := by
    intro p q hp hq
    unfold spEnd
    have e : ((2 * p + q) * D - p * D) / (p + q) = D := by
      have : p + q ≠ 0 := by positivity
      field_simp
      ring
    simp only [e]
    have : ¬ (D * D < 0) := not_lt.2 (mul_self_nonneg D)
    rw [if_neg this, if_neg (fun h => this h.1)]
  unfold spSlope
  by_cases k0 : k = 0
  · rw [if_pos k0]
    subst k0
    rw [h1 (by omega), h3 rfl]
    exact ends _ _ (spDh_pos hx 0 (by omega)) (spDh_pos hx 1 (by omega))
  · rw [if_neg k0]
    by_cases kn : k = n - 1
    · rw [if_pos kn]
      have := h2 (by omega)
      rw [show k - 1 = n - 2 by omega] at this
      rw [this, h4 kn]
      exact ends _ _ (spDh_pos hx _ (by omega)) (spDh_pos hx _ (by omega))
    · rw [if_neg kn]
      unfold spInner
      rw [h1 (by omega), h2 (by omega)]
      by_cases hD : D * D > 0
      · rw [if_pos hD]
        have d0 : D ≠ 0 := by rintro rfl; simp at hD
        have p1 := spDh_pos hx k (by omega)
        have p2 := spDh_pos hx (k - 1) (by omega)
        have : (2 * spDh x k + spDh x (k - 1)) / D + (spDh x k + 2 * spDh x (k - 1)) / D =
            (3 * (spDh x k + spDh x (k - 1))) / D := by rw [← add_div]; congr 1; ring
        simp only [this]
        have : spDh x k + spDh x (k - 1) ≠ 0 := by positivity
        field_simp
        ring
      · rw [if_neg hD]
        have : D * D = 0 := le_antisymm (not_lt.1 hD) (mul_self_nonneg D)
        exact (mul_self_eq_zero.1 this).symm

theorem piece_const {n : Nat} {x y : Nat → K} (h2 : 2 ≤ n) (hx : Increasing x n) {D : K} {l : Nat} (hl : l + 1 < n)
    (h0 : spDelta x y l = D) (hm : 0 < l → spDelta x y (l - 1) = D) (hp : l + 2 < n → spDelta x y (l + 1) = D) (v : K) :
    spPieces n x y l v = y l + D * (v - x l) := by
  unfold spPieces
  by_cases hn : n = 2
  · subst hn
    obtain rfl : l = 0 := by omega
    rw [if_pos rfl]
    unfold twoPoint
    have : (y 1 - y 0) / (x 1 - x 0) = D := h0
    rw [this]; ring
  · rw [if_neg hn]
    have s0 : spSlope n x y l = D := by
      refine slope_const (by omega) hx (by omega) (fun _ => h0) hm ?_ (by omega)
      rintro rfl
      exact hp (by omega)
    have s1 : spSlope n x y (l + 1) = D := by
      refine slope_const (by omega) hx (by omega) (fun h => hp h) (fun _ => h0) (by omega) ?_
      intro h
      have := hm (by omega)
      rwa [show l - 1 = n - 3 by omega] at this
    unfold spPiece spC spB
    rw [s0, s1, h0]
    ring

/-- C42. A region has lines at constant distance if it and its neighbours (on both sides, where they exist) ask for
the same cell size, as the help text of make_vgrid says. With "c_cell" the lines at the two ends of the region are
excepted. -/
theorem C42_constant (nb : Nat) (bnds : Nat → K) (npts : Nat → Int) (center : String) (h : ValidRequest nb npts center)
    (d : K) (l : Nat) (hl : l + 1 < nb) (h0 : RegionSize bnds npts l d) (hm : 0 < l → RegionSize bnds npts (l - 1) d)
    (hp : l + 2 < nb → RegionSize bnds npts (l + 1) d) :
    ∃ grid, computeGridBound nb bnds npts center = .ok grid ∧
      ∀ i : Int, 0 ≤ i → i ≤ npts l → (center = "c_cell" → 0 < i ∧ i < npts l) →
        LineAt grid (cellsBefore npts l + i) (bnds l + d * (i : K)) := by
  obtain ⟨r, N, c, tmp, hr, r0, hd, hco, he⟩ := core bnds h
  obtain ⟨h2, hpos, _⟩ := h
  have hx := nodes_increasing (K := K) r0 hpos hd
  refine ⟨_, he, ?_⟩
  have rK : (r : K) ≠ 0 := by
    have : (0 : K) < (r : K) := Int.cast_pos.2 r0
    exact ne_of_gt this
  have dh : ∀ q, q + 1 < nb → (r : K) * spDh (nodes (K := K) r npts) q = (npts q : K) := by
    intro q hq
    have a := cellsTo_mul hd q (by omega)
    have b := cellsTo_mul hd (q + 1) hq
    rw [cellsBefore_succ, ← a] at b
    have b' : ((r * cellsTo r npts (q + 1) : Int) : K) = ((r * cellsTo r npts q + npts q : Int) : K) := by rw [b]
    push_cast at b'
    unfold spDh nodes
    push_cast
    linear_combination b'
  have dl : ∀ q, q + 1 < nb → RegionSize bnds npts q d → spDelta (nodes (K := K) r npts) bnds q = d * r := by
    intro q hq hR
    unfold RegionSize at hR
    unfold spDelta
    have hpq := ne_of_gt (spDh_pos hx q hq)
    rw [div_eq_iff hpq, hR, ← dh q hq]
    ring
  have lin : ∀ k, c l ≤ k → k ≤ c (l + 1) → tmp k = bnds l + d * r * ((k : K) - (c l : K)) := by
    intro k k1 k2
    rw [hco.piece l k hl k1 k2, piece_const h2 hx hl (dl l hl h0) (fun q => dl (l - 1) (by omega) (hm q))
      (fun q => dl (l + 1) (by omega) (hp q))]
    have hcl : (c l : Int) = cellsTo r npts l := by
      have a := hco.cval l (by omega)
      rw [← cellsTo_mul hd l (by omega)] at a
      exact Int.eq_of_mul_eq_mul_left (by omega) a
    have hcl' : (c l : K) = (cellsTo r npts l : K) := by rw [← Int.cast_natCast, hcl]
    unfold nodes
    push_cast
    rw [hcl']
    ring
  have v0 := hco.cval l (by omega)
  have v1 := hco.cval (l + 1) hl
  rw [cellsBefore_succ] at v1
  have cNl : c (l + 1) ≤ N := by
    rcases Nat.lt_or_ge (l + 1) (nb - 1) with h' | h'
    · rw [← hco.cN]; exact le_of_lt (hco.clt _ _ h' (by omega))
    · rw [← hco.cN, show l + 1 = nb - 1 by omega]
  have cnn : 0 ≤ cellsBefore npts l := by rw [← v0]; exact Int.mul_nonneg (by omega) (by omega)
  intro i i0 i1 ic
  refine ⟨by omega, ?_⟩
  obtain ⟨i, rfl⟩ := Int.eq_ofNat_of_zero_le i0
  rw [← v0]
  rw [← v0] at v1
  push_cast
  unfold placeLines
  rcases refine_cases hr with ⟨rfl, rfl⟩ | ⟨rfl | rfl, rfl⟩
  · rw [if_pos rfl, show (1 * (c l : Int) + (i : Int)).toNat = c l + i by omega, getElem?_rangeMap _ (by omega),
      lin (c l + i) (by omega) (by omega)]
    push_cast
    congr 1; ring
  · rw [if_neg (by decide), if_pos rfl, show (2 * (c l : Int) + (i : Int)).toNat = 2 * c l + i by omega,
      getElem?_rangeMap _ (by omega)]
    rcases Nat.mod_two_eq_zero_or_one i with hi | hi
    · rw [if_pos (by omega)]
      obtain ⟨q, rfl⟩ : ∃ q, i = 2 * q := ⟨i / 2, by omega⟩
      rw [show (2 * c l + 2 * q) / 2 = c l + q by omega, lin (c l + q) (by omega) (by omega)]
      push_cast
      congr 1; ring
    · rw [if_neg (by omega)]
      obtain ⟨q, rfl⟩ : ∃ q, i = 2 * q + 1 := ⟨i / 2, by omega⟩
      rw [show (2 * c l + (2 * q + 1)) / 2 = c l + q by omega]
      show some (1 / 2 * (tmp (c l + q) + tmp (c l + q + 1))) = _
      rw [lin (c l + q) (by omega) (by omega), lin (c l + q + 1) (by omega) (by omega)]
      push_cast
      congr 1; ring
  · have hi := ic rfl
    rw [if_neg (by decide)]
    simp only [show ¬ ("c_cell" = "t_cell") by decide, if_false]
    rw [show (2 * (c l : Int) + (i : Int)).toNat = 2 * c l + i by omega, getElem?_rangeMap _ (by omega)]
    rcases Nat.mod_two_eq_zero_or_one i with hi2 | hi2
    · rw [if_neg (by omega), if_neg (by omega), if_neg (by omega)]
      obtain ⟨q, rfl⟩ : ∃ q, i = 2 * (q + 1) := ⟨i / 2 - 1, by omega⟩
      rw [show (2 * c l + 2 * (q + 1)) / 2 - 1 = c l + q by omega, show (2 * c l + 2 * (q + 1)) / 2 = c l + q + 1 by omega]
      show some (1 / 2 * (1 / 2 * (tmp (c l + q) + tmp (c l + q + 1)) + 1 / 2 * (tmp (c l + q + 1) + tmp (c l + q + 1 + 1)))) = _
      rw [lin (c l + q) (by omega) (by omega), lin (c l + q + 1) (by omega) (by omega),
        lin (c l + q + 1 + 1) (by omega) (by omega)]
      push_cast
      congr 1; ring
    · rw [if_pos (by omega)]
      obtain ⟨q, rfl⟩ : ∃ q, i = 2 * q + 1 := ⟨i / 2, by omega⟩
      rw [show (2 * c l + (2 * q + 1)) / 2 = c l + q by omega]
      show some (1 / 2 * (tmp (c l + q) + tmp (c l + q + 1))) = _
      rw [lin (c l + q) (by omega) (by omega), lin (c l + q + 1) (by omega) (by omega)]
      push_cast
      congr 1; ring

/-! ### Concrete cases -/

def exBnds : Nat → ℚ := fun k => [0, 100, 400].getD k 0
def exNpts : Nat → Int := fun k => [4, 6].getD k 0

example : ValidRequest 3 exNpts "t_cell" := by
  refine ⟨by decide, fun l hl => ?_, Or.inr ⟨by decide, fun l hl => ?_⟩⟩
  · obtain rfl | rfl : l = 0 ∨ l = 1 := by omega
    all_goals decide
  · obtain rfl | rfl : l = 0 ∨ l = 1 := by omega
    all_goals decide
example : Increasing exBnds 3 := by rw [← increasing_iff]; decide +kernel
example : RegionSize exBnds (fun k => [2, 6].getD k 0) 0 50 := by unfold RegionSize; decide +kernel
example : RegionSize exBnds (fun k => [2, 6].getD k 0) 1 50 := by unfold RegionSize; decide +kernel

/-- The lines asked for by `--bnds 0,100,400 --nz 4,6`. -/
def exGrid (center : String) : List ℚ :=
  match computeGridBound 3 exBnds exNpts center with
  | .ok g => g
  | .error _ => []

/-- Centring "c_cell" does not keep the inner bounds: with bounds 0, 100, 400 and 4 and 6 cells no line is at 100. -/
theorem C42_c_cell_wrong :
    ValidRequest 3 exNpts "c_cell" ∧ ∃ grid, computeGridBound 3 exBnds exNpts "c_cell" = .ok grid ∧
      exBnds 1 = 100 ∧ ∀ k, ¬ LineAt grid k 100 := by
  have hv : ValidRequest 3 exNpts "c_cell" := by
    refine ⟨by decide, fun l hl => ?_, Or.inr ⟨by decide, fun l hl => ?_⟩⟩
    · obtain rfl | rfl : l = 0 ∨ l = 1 := by omega
      all_goals decide
    · obtain rfl | rfl : l = 0 ∨ l = 1 := by omega
      all_goals decide
  refine ⟨hv, ?_⟩
  obtain ⟨grid, hg⟩ := (C42_accepts 3 exBnds exNpts "c_cell" (by decide)).2 hv
  refine ⟨grid, hg, by decide +kernel, ?_⟩
  have : exGrid "c_cell" = grid := by unfold exGrid; rw [hg]
  have hmem : (100 : ℚ) ∉ exGrid "c_cell" := by decide +kernel
  rw [this] at hmem
  rintro k ⟨_, hk⟩
  exact hmem (List.mem_of_getElem? hk)

end Verif.GridBound
