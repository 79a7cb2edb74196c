import Verif.Props.SecondOrder
import Verif.Lemmas.Monotone
/-
C46: the monotonic limiter of second order conservative interpolation.

The full claim is that every exchange value, hence every output value, stays within the range of the
source cell and its neighbours, and that the integral is conserved. Conservation, the upper bound and the
absence of errors are proved in general; the lower bound holds unless the source cell violates both bounds,
and `C46_both_bounds_wrong` shows that it can fail then, undetected.
-/
namespace Verif
open Conserve Spec

variable {K : Type} [Field K] [LinearOrder K] [IsStrictOrderedRing K]

section
variable (cf : Conf K) (s : Src K) (maxval tol : K) (nxl : Nat) (bmax bmin : Nat → Nat → K)

/-- The inputs of the limiter: `bmax`, `bmin` are filled as in the code, all tiles have `nxl` cells in a
row, values are within `±maxval`. -/
structure MonoInput (cells : List (XCell K)) : Prop where
  size : ∀ t, cf.nx1 t = nxl
  col : ∀ c ∈ cells, c.i1 < nxl
  max : ∀ t i j, i < nxl → bmax t (j * nxl + i) = barMax maxval cf.missing (nine s.data nxl t i j)
  min : ∀ t i j, i < nxl → bmin t (j * nxl + i) = barMin maxval cf.missing (nine s.data nxl t i j)
  small : ∀ t i j, ∀ v ∈ nine s.data nxl t i j, v ≠ cf.missing → -maxval ≤ v ∧ v ≤ maxval

/-- The source value of an exchange cell and its eight neighbours that are not missing lie in
`[lo, hi]`. -/
def NeighboursIn (c : XCell K) (lo hi : K) : Prop :=
  ∀ v ∈ nine s.data nxl c.t1 c.i1 c.j1, v ≠ cf.missing → lo ≤ v ∧ v ≤ hi

variable {cf s maxval nxl bmax bmin}

omit [LinearOrder K] [IsStrictOrderedRing K] in
theorem mem_nine (data : Nat → Nat → K) (nx t i j : Nat) :
    data t ((j + 1) * (nx + 2) + i + 1) ∈ nine data nx t i j := by
  simp [nine]

omit [IsStrictOrderedRing K] in
theorem mono_bounds {cells : List (XCell K)} (hin : MonoInput cf s maxval nxl bmax bmin cells) {c : XCell K}
    (hc : c ∈ cells) {x : K} (hx : monoVal cf s nxl c = some x) :
    let fb := s.data c.t1 ((c.j1 + 1) * (nxl + 2) + c.i1 + 1)
    let n := c.j1 * nxl + c.i1
    bmin c.t1 n ≤ fb ∧ fb ≤ bmax c.t1 n ∧
    (∀ lo hi, NeighboursIn cf s nxl c lo hi → lo ≤ bmin c.t1 n ∧ bmax c.t1 n ≤ hi) := by
  intro fb n
  have hfb : fb ≠ cf.missing := by
    intro e
    unfold monoVal at hx
    simp only [] at hx
    rw [if_neg (not_not.2 e)] at hx
    cases hx
  have hm := mem_nine s.data nxl c.t1 c.i1 c.j1
  have hsm := hin.small c.t1 c.i1 c.j1 _ hm hfb
  have e1 : bmax c.t1 n = _ := hin.max c.t1 c.i1 c.j1 (hin.col c hc)
  have e2 : bmin c.t1 n = _ := hin.min c.t1 c.i1 c.j1 (hin.col c hc)
  obtain ⟨_, a2, a3⟩ := barMax_fold cf.missing (nine s.data nxl c.t1 c.i1 c.j1) (-maxval)
  obtain ⟨_, b2, b3⟩ := barMin_fold cf.missing (nine s.data nxl c.t1 c.i1 c.j1) maxval
  rw [e1, e2]
  refine ⟨b2 _ hm hfb, a2 _ hm hfb, ?_⟩
  intro lo hi h
  exact ⟨b3 lo (le_trans (h _ hm hfb).1 hsm.2) (fun v hv hvm => (h v hv hvm).1),
    a3 hi (le_trans hsm.1 (h _ hm hfb).2) (fun v hv hvm => (h v hv hvm).2)⟩

omit [IsStrictOrderedRing K] in
theorem monoUse_getD (cf : Conf K) (v : K) (h : (monoUse cf (some (some v))).isSome = true) :
    (monoUse cf (some (some v))).getD 0 = v := by
  unfold monoUse at h ⊢
  by_cases e : v = cf.missing
  · simp only [if_pos e] at h; cases h
  · simp only [if_neg e]; rfl

/-- The exchange value of `c` after limiting. -/
theorem mono_value {cells : List (XCell K)} (hin : MonoInput cf s maxval nxl bmax bmin cells) {c : XCell K}
    (hc : c ∈ cells) {x : K} (hx : monoVal cf s nxl c = some x) (hm : x ≠ cf.missing) :
    monoX cf s maxval tol nxl cells bmax bmin c = some (some (monoAdj cf s maxval nxl cells bmax bmin c x)) ∧
    (∀ lo hi, NeighboursIn cf s nxl c lo hi → monoAdj cf s maxval nxl cells bmax bmin c x ≤ hi) ∧
    (¬ (monoMax cf s maxval nxl cells c.t1 (c.j1 * nxl + c.i1) > bmax c.t1 (c.j1 * nxl + c.i1) ∧
        monoMin cf s maxval nxl cells c.t1 (c.j1 * nxl + c.i1) < bmin c.t1 (c.j1 * nxl + c.i1)) →
      ∀ lo hi, NeighboursIn cf s nxl c lo hi → lo ≤ monoAdj cf s maxval nxl cells bmax bmin c x) := by
  obtain ⟨h1, h2, h3⟩ := mono_bounds hin hc hx
  obtain ⟨a1, a2, a3⟩ := monoAdjust_spec (tol := tol) (monoMin_le cf s maxval nxl hc hx)
    (monoMax_ge cf s maxval nxl hc hx) h1 h2
  refine ⟨?_, ?_, ?_⟩
  · unfold monoX
    rw [hx]
    simp only []
    rw [if_neg hm]
    exact congrArg some a1
  · intro lo hi h
    exact le_trans a2 (h3 lo hi h).2
  · intro hb lo hi h
    exact le_trans (h3 lo hi h).1 (a3 hb)

variable (cf s maxval nxl bmax bmin)

/-- C46. The limiter does not stop the program (in exact arithmetic). -/
theorem C46_no_error (cells : List (XCell K)) (hin : MonoInput cf s maxval nxl bmax bmin cells) :
    monoInterp cf s maxval tol nxl bmax bmin cells ≠ none := by
  unfold monoInterp
  simp only []
  rw [if_neg]
  · simp
  · rw [List.any_eq_true]
    rintro ⟨c, hc, h⟩
    have h := of_decide_eq_true h
    cases hx : monoVal cf s nxl c with
    | none => unfold monoX at h; rw [hx] at h; cases h
    | some x =>
      by_cases hm : x = cf.missing
      · unfold monoX at h; rw [hx] at h; simp only [] at h; rw [if_pos hm] at h; cases h
      · rw [(mono_value tol hin hc hx hm).1] at h
        cases h

/-- The unlimited exchange values of the source cell of `c` exceed the range of the neighbourhood on both
sides. -/
def BothViolated (cells : List (XCell K)) (c : XCell K) : Prop :=
  ∃ a ∈ cells, ∃ b ∈ cells, srcKey a = srcKey c ∧ srcKey b = srcKey c ∧ ∃ x y,
    monoVal cf s nxl a = some x ∧ monoVal cf s nxl b = some y ∧
    (∀ v ∈ nine s.data nxl c.t1 c.i1 c.j1, v ≠ cf.missing → v < x ∧ y < v)

omit [IsStrictOrderedRing K] in
theorem monoMax_mem (cells : List (XCell K)) (t n : Nat) :
    monoMax cf s maxval nxl cells t n = -maxval ∨ ∃ c ∈ cells, c.t1 = t ∧ c.j1 * nxl + c.i1 = n ∧
      monoVal cf s nxl c = some (monoMax cf s maxval nxl cells t n) := by
  unfold monoMax
  generalize -maxval = m
  induction cells generalizing m with
  | nil => exact Or.inl rfl
  | cons d cells ih =>
    rw [List.foldl_cons]
    cases hd : monoVal cf s nxl d with
    | none =>
      simp only []
      rcases ih m with h | ⟨c, hc, h⟩
      · exact Or.inl h
      · exact Or.inr ⟨c, List.mem_cons_of_mem _ hc, h⟩
    | some x =>
      simp only []
      by_cases h2 : d.t1 = t ∧ d.j1 * nxl + d.i1 = n ∧ x > m
      · rw [if_pos h2]
        rcases ih x with h | ⟨c, hc, h⟩
        · rw [h]
          exact Or.inr ⟨d, by simp, h2.1, h2.2.1, hd⟩
        · exact Or.inr ⟨c, List.mem_cons_of_mem _ hc, h⟩
      · rw [if_neg h2]
        rcases ih m with h | ⟨c, hc, h⟩
        · exact Or.inl h
        · exact Or.inr ⟨c, List.mem_cons_of_mem _ hc, h⟩

omit [IsStrictOrderedRing K] in
theorem monoMin_mem (cells : List (XCell K)) (t n : Nat) :
    monoMin cf s maxval nxl cells t n = maxval ∨ ∃ c ∈ cells, c.t1 = t ∧ c.j1 * nxl + c.i1 = n ∧
      monoVal cf s nxl c = some (monoMin cf s maxval nxl cells t n) := by
  unfold monoMin
  generalize maxval = m
  induction cells generalizing m with
  | nil => exact Or.inl rfl
  | cons d cells ih =>
    rw [List.foldl_cons]
    cases hd : monoVal cf s nxl d with
    | none =>
      simp only []
      rcases ih m with h | ⟨c, hc, h⟩
      · exact Or.inl h
      · exact Or.inr ⟨c, List.mem_cons_of_mem _ hc, h⟩
    | some x =>
      simp only []
      by_cases h2 : d.t1 = t ∧ d.j1 * nxl + d.i1 = n ∧ x < m
      · rw [if_pos h2]
        rcases ih x with h | ⟨c, hc, h⟩
        · rw [h]
          exact Or.inr ⟨d, by simp, h2.1, h2.2.1, hd⟩
        · exact Or.inr ⟨c, List.mem_cons_of_mem _ hc, h⟩
      · rw [if_neg h2]
        rcases ih m with h | ⟨c, hc, h⟩
        · exact Or.inl h
        · exact Or.inr ⟨c, List.mem_cons_of_mem _ hc, h⟩

theorem not_both {cells : List (XCell K)} (hin : MonoInput cf s maxval nxl bmax bmin cells) {c : XCell K}
    (hc : c ∈ cells) (hb : ¬ BothViolated cf s nxl cells c) {x : K} (hx : monoVal cf s nxl c = some x) :
    ¬ (monoMax cf s maxval nxl cells c.t1 (c.j1 * nxl + c.i1) > bmax c.t1 (c.j1 * nxl + c.i1) ∧
        monoMin cf s maxval nxl cells c.t1 (c.j1 * nxl + c.i1) < bmin c.t1 (c.j1 * nxl + c.i1)) := by
  rintro ⟨h1, h2⟩
  obtain ⟨_, a2, _⟩ := barMax_fold cf.missing (nine s.data nxl c.t1 c.i1 c.j1) (-maxval)
  obtain ⟨a1, _, _⟩ := barMax_fold cf.missing (nine s.data nxl c.t1 c.i1 c.j1) (-maxval)
  obtain ⟨b1, b2, _⟩ := barMin_fold cf.missing (nine s.data nxl c.t1 c.i1 c.j1) maxval
  have e1 := hin.max c.t1 c.i1 c.j1 (hin.col c hc)
  have e2 := hin.min c.t1 c.i1 c.j1 (hin.col c hc)
  unfold barMax at e1
  unfold barMin at e2
  rw [e1] at h1
  rw [e2] at h2
  rcases monoMax_mem cf s maxval nxl cells c.t1 (c.j1 * nxl + c.i1) with h | ⟨a, ha, hat, han, hav⟩
  · rw [h] at h1; exact absurd (lt_of_lt_of_le h1 a1) (lt_irrefl _)
  rcases monoMin_mem cf s maxval nxl cells c.t1 (c.j1 * nxl + c.i1) with h | ⟨b, hbm, hbt, hbn, hbv⟩
  · rw [h] at h2; exact absurd (lt_of_lt_of_le h2 b1) (lt_irrefl _)
  have ka := (rowMajor_inj (hin.col a ha) (hin.col c hc)).1 han
  have kb := (rowMajor_inj (hin.col b hbm) (hin.col c hc)).1 hbn
  apply hb
  refine ⟨a, ha, b, hbm, by unfold srcKey; rw [hat, ka.1, ka.2], by unfold srcKey; rw [hbt, kb.1, kb.2], _, _,
    hav, hbv, ?_⟩
  intro v hv hvm
  exact ⟨lt_of_le_of_lt (a2 v hv hvm) h1, lt_of_lt_of_le h2 (b2 v hv hvm)⟩

/-- C46. Every exchange value that is used is at most the largest value of the neighbourhood; it is at
least the smallest one unless the source cell violates both bounds. Missing: the lower bound in that
case. -/
theorem C46_bounds_partial (cells : List (XCell K)) (hin : MonoInput cf s maxval nxl bmax bmin cells)
    (c : XCell K) (hc : c ∈ cells) (v : K)
    (hv : monoUse cf (monoX cf s maxval tol nxl cells bmax bmin c) = some v) (lo hi : K)
    (hn : NeighboursIn cf s nxl c lo hi) :
    v ≤ hi ∧ (¬ BothViolated cf s nxl cells c → lo ≤ v) := by
  cases hx : monoVal cf s nxl c with
  | none => unfold monoX at hv; rw [hx] at hv; cases hv
  | some x =>
    by_cases hm : x = cf.missing
    · unfold monoX at hv; rw [hx] at hv; simp only [] at hv; rw [if_pos hm] at hv; cases hv
    · obtain ⟨e, u, l⟩ := mono_value tol hin hc hx hm
      rw [e] at hv
      unfold monoUse at hv
      simp only [] at hv
      split at hv
      · cases hv
      · have := Option.some.inj hv
        subst this
        exact ⟨u lo hi hn, fun hb => l (not_both cf s maxval nxl bmax bmin hin hc hb hx) lo hi hn⟩

/-- The exchange cells of a target cell that are used. -/
def monoOverlap (i j : Nat) (cells : List (XCell K)) : List (XCell K) :=
  (overlap i j cells).filter fun c => (monoUse cf (monoX cf s maxval tol nxl cells bmax bmin c)).isSome

omit [IsStrictOrderedRing K] in
theorem mono_out (ny2 : Nat) (cells : List (XCell K)) (hg : InGrid cf.nx2 ny2 cells)
    (hs : cf.sum = false) (ht : cf.target = false) (out : Nat → K)
    (h : monoInterp cf s maxval tol nxl bmax bmin cells = some out) (i j : Nat) (hi : i < cf.nx2) :
    out (j * cf.nx2 + i) =
      if total (xArea cf) (monoOverlap cf s maxval tol nxl bmax bmin i j cells) > 0 then
        wmean (xArea cf) (fun c => (monoUse cf (monoX cf s maxval tol nxl cells bmax bmin c)).getD 0)
          (monoOverlap cf s maxval tol nxl bmax bmin i j cells)
      else cf.missing := by
  unfold monoInterp at h
  simp only [] at h
  split at h
  · cases h
  · have := Option.some.inj h
    subst this
    obtain ⟨e1, e2, e3⟩ := mono_fold cf (monoX cf s maxval tol nxl cells bmax bmin) cells (j * cf.nx2 + i)
    have ev : ((cells.filter fun c => (monoUse cf (monoX cf s maxval tol nxl cells bmax bmin c)).isSome).filter
        fun c => decide (n0 cf c = j * cf.nx2 + i)) = monoOverlap cf s maxval tol nxl bmax bmin i j cells := by
      rw [List.filter_filter]
      unfold monoOverlap overlap
      rw [List.filter_filter]
      apply List.filter_congr
      intro c hcm
      rw [Bool.and_comm]
      congr 1
      rw [decide_eq_decide]
      exact rowMajor_inj (hg c hcm).1 hi
    rw [ev] at e1 e2
    unfold finish
    simp only [hs, ht, Bool.false_eq_true, if_false]
    rw [e1, e2, e3]
    simp only [Bool.false_eq_true, if_false]
    rfl

/-- C46, output values. An output cell with positive weight lies in every range that holds the
neighbourhoods of its exchange cells, if no source cell violates both bounds. Missing: the lower bound
without that condition. -/
theorem C46_range_partial (ny2 : Nat) (cells : List (XCell K)) (hg : InGrid cf.nx2 ny2 cells)
    (hin : MonoInput cf s maxval nxl bmax bmin cells)
    (hs : cf.sum = false) (ht : cf.target = false) (out : Nat → K)
    (h : monoInterp cf s maxval tol nxl bmax bmin cells = some out)
    (hpos : ∀ c ∈ cells, 0 ≤ xArea cf c) (i j : Nat) (hi : i < cf.nx2)
    (hcov : total (xArea cf) (monoOverlap cf s maxval tol nxl bmax bmin i j cells) > 0) (lo up : K)
    (hnb : ∀ c ∈ overlap i j cells, NeighboursIn cf s nxl c lo up)
    (hb : ∀ c ∈ overlap i j cells, ¬ BothViolated cf s nxl cells c) :
    lo ≤ out (j * cf.nx2 + i) ∧ out (j * cf.nx2 + i) ≤ up := by
  rw [mono_out cf s maxval tol nxl bmax bmin ny2 cells hg hs ht out h i j hi, if_pos hcov]
  apply wmean_bounds
  · intro c hcm
    exact hpos c (List.mem_filter.1 (List.mem_filter.1 hcm).1).1
  · intro c hcm
    have hm := List.mem_filter.1 hcm
    have hc := (List.mem_filter.1 hm.1).1
    obtain ⟨v, hv⟩ := Option.isSome_iff_exists.1 hm.2
    beta_reduce
    rw [hv]
    have := C46_bounds_partial cf s maxval tol nxl bmax bmin cells hin c hc v hv lo up (hnb c hm.1)
    exact ⟨this.2 (hb c hm.1), this.1⟩
  · exact hcov

/-- C46. The limiter conserves: with the distances of `setup_conserve_interp` and source cells that are
covered, the integral over the target grid is the sum of source value times area over the exchange cells
that are not missing. No value may come out equal to the missing value. -/
theorem C46_conserves (ny2 : Nat) (ratio : K) (cellArea fullLon fullLat : Nat → Nat → K)
    (raw : List (XRaw K)) (hr : RawInGrid cf.nx1 raw) (hra : ∀ r ∈ raw, 0 < r.area)
    (hcov : ∀ r ∈ raw, Covered cf.nx1 ratio cellArea raw r.t1 r.i1 r.j1)
    (hc : ∀ r ∈ raw, r.i2 < cf.nx2 ∧ r.j2 < ny2)
    (hs : cf.sum = false) (ht : cf.target = false) (ho : cf.order2 = true)
    (cells : List (XCell K)) (hcells : cells = recentre cf.nx1 ratio cellArea fullLon fullLat raw)
    (hin : MonoInput cf s maxval nxl bmax bmin cells) (out : Nat → K)
    (h : monoInterp cf s maxval tol nxl bmax bmin cells = some out)
    (hw : ∀ c ∈ cells, 0 ≤ xArea cf c)
    (hmiss : ∀ c ∈ cells, srcVal cf s c ≠ cf.missing →
      (monoUse cf (monoX cf s maxval tol nxl cells bmax bmin c)).isSome = true) :
    gridSum cf.nx2 ny2 (fun i j => out (j * cf.nx2 + i) *
        total (xArea cf) ((overlap i j cells).filter fun c => decide (srcVal cf s c ≠ cf.missing))) =
      total (fun c => srcVal cf s c * xArea cf c)
        (cells.filter fun c => decide (srcVal cf s c ≠ cf.missing)) := by
  have hg : InGrid cf.nx2 ny2 cells := by
    intro c hcm
    rw [hcells] at hcm
    obtain ⟨r, hrm, rfl⟩ := List.mem_map.1 hcm
    exact hc r hrm
  have hsv : ∀ c, srcVal cf s c = s.data c.t1 ((c.j1 + 1) * (nxl + 2) + c.i1 + 1) := by
    intro c; unfold srcVal; rw [if_pos ho, hin.size]
  -- used exactly if the source value is not missing
  have hused : ∀ c ∈ cells, (monoUse cf (monoX cf s maxval tol nxl cells bmax bmin c)).isSome =
      decide (srcVal cf s c ≠ cf.missing) := by
    intro c hcm
    by_cases hm : srcVal cf s c = cf.missing
    · have : monoVal cf s nxl c = none := by
        unfold monoVal; simp only []; rw [← hsv, if_neg (not_not.2 hm)]
      unfold monoX
      rw [this]
      simp [hm, monoUse]
    · rw [hmiss c hcm hm]; simp [hm]
  have hov : ∀ i j, monoOverlap cf s maxval tol nxl bmax bmin i j cells =
      (overlap i j cells).filter fun c => decide (srcVal cf s c ≠ cf.missing) := by
    intro i j
    unfold monoOverlap
    apply List.filter_congr
    intro c hcm
    exact hused c (List.mem_filter.1 hcm).1
  let V : XCell K → K := fun c => (monoUse cf (monoX cf s maxval tol nxl cells bmax bmin c)).getD 0
  have step1 : gridSum cf.nx2 ny2 (fun i j => out (j * cf.nx2 + i) *
        total (xArea cf) ((overlap i j cells).filter fun c => decide (srcVal cf s c ≠ cf.missing))) =
      total (fun c => V c * xArea cf c) (cells.filter fun c => decide (srcVal cf s c ≠ cf.missing)) := by
    rw [← gridSum_bucket cf.nx2 ny2 (cells.filter fun c => decide (srcVal cf s c ≠ cf.missing))
      (fun c => c.i2) (fun c => c.j2) (fun c => V c * xArea cf c)
      (fun c hcm => hg c (List.mem_filter.1 hcm).1)]
    apply gridSum_congr
    intro i j hi _
    have e : ((cells.filter fun c => decide (srcVal cf s c ≠ cf.missing)).filter
        fun c => decide (c.i2 = i ∧ c.j2 = j)) = monoOverlap cf s maxval tol nxl bmax bmin i j cells := by
      rw [hov]
      unfold overlap
      rw [List.filter_filter, List.filter_filter]
      apply List.filter_congr
      intro c _
      rw [Bool.and_comm]
    rw [mono_out cf s maxval tol nxl bmax bmin ny2 cells hg hs ht out h i j hi, e, ← hov]
    have hp : ∀ c ∈ monoOverlap cf s maxval tol nxl bmax bmin i j cells, 0 ≤ xArea cf c :=
      fun c hcm => hw c (List.mem_filter.1 (List.mem_filter.1 hcm).1).1
    split
    · rename_i hcv
      unfold wmean
      field_simp
      rfl
    · rename_i hcv
      have hz : total (xArea cf) (monoOverlap cf s maxval tol nxl bmax bmin i j cells) = 0 :=
        le_antisymm (not_lt.1 hcv) (total_nonneg hp)
      have hall := total_eq_zero hp hz
      have : total (fun c => V c * xArea cf c) (monoOverlap cf s maxval tol nxl bmax bmin i j cells) =
          total (fun _ => 0) (monoOverlap cf s maxval tol nxl bmax bmin i j cells) :=
        total_congr fun c hcm => by rw [hall c hcm, mul_zero]
      rw [this, total_zero, hz, mul_zero]
  rw [step1]
  -- the limited value is the source value plus multiples of the distances
  let fb : Nat × Nat × Nat → K := fun k => s.data k.1 ((k.2.2 + 1) * (nxl + 2) + k.2.1 + 1)
  let n : Nat × Nat × Nat → Nat := fun k => k.2.2 * nxl + k.2.1
  let F : Nat × Nat × Nat → K := fun k => monoFactor (fb k) (monoMax cf s maxval nxl cells k.1 (n k))
    (monoMin cf s maxval nxl cells k.1 (n k)) (bmax k.1 (n k)) (bmin k.1 (n k)) *
    (if s.gradMask k.1 (n k) then 0 else 1)
  have hfb : ∀ c, srcVal cf s c = fb (srcKey c) := hsv
  have hval : ∀ c ∈ cells, srcVal cf s c ≠ cf.missing →
      V c = srcVal cf s c + F (srcKey c) * s.gradX c.t1 (n (srcKey c)) * c.di +
        F (srcKey c) * s.gradY c.t1 (n (srcKey c)) * c.dj := by
    intro c hcm hm
    have hx : monoVal cf s nxl c = some (if s.gradMask c.t1 (c.j1 * nxl + c.i1) then srcVal cf s c
      else srcVal cf s c + s.gradX c.t1 (c.j1 * nxl + c.i1) * c.di + s.gradY c.t1 (c.j1 * nxl + c.i1) * c.dj) := by
      unfold monoVal
      simp only []
      rw [← hsv, if_pos hm]
    have hxm := hmiss c hcm hm
    have hne : (if s.gradMask c.t1 (c.j1 * nxl + c.i1) then srcVal cf s c
      else srcVal cf s c + s.gradX c.t1 (c.j1 * nxl + c.i1) * c.di +
        s.gradY c.t1 (c.j1 * nxl + c.i1) * c.dj) ≠ cf.missing := by
      intro e
      unfold monoX at hxm
      rw [hx] at hxm
      simp only [] at hxm
      rw [if_pos e] at hxm
      cases hxm
    have e1 := (mono_value tol hin hcm hx hne).1
    have hV : V c = monoAdj cf s maxval nxl cells bmax bmin c (if s.gradMask c.t1 (c.j1 * nxl + c.i1) then
        srcVal cf s c else srcVal cf s c + s.gradX c.t1 (c.j1 * nxl + c.i1) * c.di +
        s.gradY c.t1 (c.j1 * nxl + c.i1) * c.dj) := by
      show (monoUse cf (monoX cf s maxval tol nxl cells bmax bmin c)).getD 0 = _
      rw [e1] at hxm ⊢
      exact monoUse_getD cf _ hxm
    rw [hV]
    unfold monoAdj
    simp only []
    rw [monoAdjust_factor, ← hsv]
    show _ = srcVal cf s c + (monoFactor (fb (srcKey c)) _ _ _ _ *
      (if s.gradMask c.t1 (c.j1 * nxl + c.i1) then 0 else 1)) * _ * _ + (monoFactor (fb (srcKey c)) _ _ _ _ *
      (if s.gradMask c.t1 (c.j1 * nxl + c.i1) then 0 else 1)) * _ * _
    rw [← hfb]
    show srcVal cf s c + _ * ((if s.gradMask c.t1 (c.j1 * nxl + c.i1) then srcVal cf s c
      else srcVal cf s c + s.gradX c.t1 (c.j1 * nxl + c.i1) * c.di +
        s.gradY c.t1 (c.j1 * nxl + c.i1) * c.dj) - srcVal cf s c) = _
    by_cases hgm : s.gradMask c.t1 (c.j1 * nxl + c.i1) = true
    · simp only [if_pos hgm, srcKey, n]
      ring
    · simp only [if_neg hgm, srcKey, n]
      ring
  let U : Nat × Nat × Nat → Prop := fun k => fb k ≠ cf.missing
  rw [total_filter, total_filter]
  have e : ∀ c ∈ cells, (if decide (srcVal cf s c ≠ cf.missing) = true then V c * xArea cf c else 0) =
      (if decide (srcVal cf s c ≠ cf.missing) = true then srcVal cf s c * xArea cf c else 0) +
      ((fun k : Nat × Nat × Nat =>
          (if decide (fb k ≠ cf.missing) = true then F k * s.gradX k.1 (n k) * srcWeight cf k else 0)) (srcKey c) *
          (c.area * c.di) +
       (fun k : Nat × Nat × Nat =>
          (if decide (fb k ≠ cf.missing) = true then F k * s.gradY k.1 (n k) * srcWeight cf k else 0)) (srcKey c) *
          (c.area * c.dj)) := by
    intro c hcm
    beta_reduce
    rw [← hfb]
    by_cases hm : srcVal cf s c = cf.missing
    · have : ¬ (decide (srcVal cf s c ≠ cf.missing) = true) := by simp [hm]
      rw [if_neg this, if_neg this, if_neg this, if_neg this]
      ring
    · have : decide (srcVal cf s c ≠ cf.missing) = true := by simp [hm]
      rw [if_pos this, if_pos this, if_pos this, if_pos this, hval c hcm hm, xArea_eq cf hs]
      simp only [srcKey]
      ring
  rw [total_congr e, total_add, total_add]
  have mom := moments cf.nx1 ratio cellArea fullLon fullLat raw hr hra hcov cells hcells
  have hx := total_by_key srcKey
    (fun k => if decide (fb k ≠ cf.missing) = true then F k * s.gradX k.1 (n k) * srcWeight cf k else 0)
    (fun c => c.area * c.di) cells.length cells (Nat.le_refl _) (fun b => (mom b).1)
  have hy := total_by_key srcKey
    (fun k => if decide (fb k ≠ cf.missing) = true then F k * s.gradY k.1 (n k) * srcWeight cf k else 0)
    (fun c => c.area * c.dj) cells.length cells (Nat.le_refl _) (fun b => (mom b).2)
  rw [hx, hy]
  ring

end

/-! ### Concrete cases and the violation -/

/-- A row of three source cells (one row, halo repeated) with values -1, 0, 1; the middle one has gradient
`g` and is cut in three exchange cells with distances -4, 1, 2 (areas 3, 4, 4: centroid 0). -/
def exMonoData : Nat → ℚ := fun n => match n % 5 with | 1 => -1 | 2 => 0 | 3 => 1 | 0 => -1 | _ => 1
def exMonoSrc (g : ℚ) : Src ℚ := ⟨fun _ => exMonoData, fun _ _ => g, fun _ _ => 0, fun _ _ => false⟩
def exMonoConf : Conf ℚ := ⟨fun _ => 3, 3, true, true, 99, none, false, none, 0, fun _ _ => 11, false, fun _ => 1⟩
def exMonoCells : List (XCell ℚ) :=
  [⟨0, 1, 0, 0, 0, 3, -4, 0⟩, ⟨0, 1, 0, 1, 0, 4, 1, 0⟩, ⟨0, 1, 0, 2, 0, 4, 2, 0⟩]
def exBmax : Nat → Nat → ℚ := fun t n => barMax 1000 99 (nine (fun _ => exMonoData) 3 t (n % 3) (n / 3))
def exBmin : Nat → Nat → ℚ := fun t n => barMin 1000 99 (nine (fun _ => exMonoData) 3 t (n % 3) (n / 3))

theorem exMono_input (g : ℚ) : MonoInput exMonoConf (exMonoSrc g) 1000 3 exBmax exBmin exMonoCells where
  size := fun _ => rfl
  col := by decide
  max := by
    intro t i j hi
    unfold exBmax
    rw [show (j * 3 + i) % 3 = i by omega, show (j * 3 + i) / 3 = j by omega]
    rfl
  min := by
    intro t i j hi
    unfold exBmin
    rw [show (j * 3 + i) % 3 = i by omega, show (j * 3 + i) / 3 = j by omega]
    rfl
  small := by
    intro t i j v hv _
    have key : ∀ n, -1000 ≤ exMonoData n ∧ exMonoData n ≤ 1000 := by
      intro n; unfold exMonoData; split <;> norm_num
    have : ∃ n, v = exMonoData n := by
      unfold nine at hv
      simp only [List.mem_flatMap, List.mem_map] at hv
      obtain ⟨_, _, _, _, rfl⟩ := hv
      exact ⟨_, rfl⟩
    obtain ⟨n, rfl⟩ := this
    exact key n

/-- With gradient 1/4 only the value at distance -4 reaches a bound and nothing changes. With gradient 1/3
the lower bound is violated and all values are scaled by 3/4. -/
example : ((monoInterp exMonoConf (exMonoSrc (1 / 3)) 1000 0 3 exBmax exBmin exMonoCells).map
    fun o => (List.range 3).map o) = some [-1, 1 / 4, 1 / 2] := by decide +kernel

/-- C46 fails in general: with gradient 1 both bounds are violated (values -4, 1, 2 against [-1, 1]), only
the upper one is restored, the first output is -2 although all source values are at least -1, and no
error is raised. -/
theorem C46_both_bounds_wrong :
    ((monoInterp exMonoConf (exMonoSrc 1) 1000 0 3 exBmax exBmin exMonoCells).map
      fun o => (List.range 3).map o) = some [-2, 1 / 2, 1] ∧
    (∀ c ∈ exMonoCells, NeighboursIn exMonoConf (exMonoSrc 1) 3 c (-1) 1) ∧
    BothViolated exMonoConf (exMonoSrc 1) 3 exMonoCells ⟨0, 1, 0, 0, 0, 3, -4, 0⟩ := by
  refine ⟨by decide +kernel, by unfold NeighboursIn; decide +kernel, ?_⟩
  refine ⟨⟨0, 1, 0, 2, 0, 4, 2, 0⟩, by simp [exMonoCells], ⟨0, 1, 0, 0, 0, 3, -4, 0⟩, by simp [exMonoCells], rfl, rfl, 2, -4,
    by decide +kernel, by decide +kernel, by decide +kernel⟩

end Verif
