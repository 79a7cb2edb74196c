import Verif.Lemmas.OrdPart
import Verif.Model.Domain2D
/-
Properties C01-C05 and C07: the domain decomposition.
-/
namespace Verif
open Spec

/-! ### C01 -/

/-- C01. For `1 ≤ ndivs ≤ npts` the library routine succeeds and its extents are an exact ordered
partition of `0..npts-1` into `ndivs` non-empty intervals. -/
theorem C01_extents_partition (npts ndivs : Nat) (h1 : 1 ≤ ndivs) (h2 : ndivs ≤ npts) :
    ∃ ext, mppComputeExtent npts ndivs = .ok ext ∧ ext.length = ndivs ∧
      OrderedPartition 0 (npts - 1) ext := by
  obtain ⟨P, h, hc, _⟩ := extLoop_cuts 0 npts ndivs h1 h2
  simp only [Int.zero_add] at h hc
  refine ⟨cutList ndivs P, ?_, by simp [cutList], hc.ordPart⟩
  unfold mppComputeExtent
  rw [if_neg (by omega), h]

/-- C01, point form: every point lies in exactly one division. -/
theorem C01_every_point_once (npts ndivs : Nat) (h1 : 1 ≤ ndivs) (h2 : ndivs ≤ npts) :
    ∃ ext, mppComputeExtent npts ndivs = .ok ext ∧ ext.length = ndivs ∧
      ∀ p : Int, 0 ≤ p → p < npts →
        ∃ (k : Nat) (x : Int × Int), ext[k]? = some x ∧ x.1 ≤ p ∧ p ≤ x.2 ∧
          ∀ (k' : Nat) (x' : Int × Int), ext[k']? = some x' → x'.1 ≤ p → p ≤ x'.2 → k' = k := by
  obtain ⟨ext, he, hl, hp⟩ := C01_extents_partition npts ndivs h1 h2
  refine ⟨ext, he, hl, fun p hp0 hp1 => ?_⟩
  obtain ⟨k, x, hk, hx1, hx2⟩ := hp.cover p hp0 (by omega)
  exact ⟨k, x, hk, hx1, hx2, fun k' x' hk' a b => hp.unique p k' k x' x hk' hk a b hx1 hx2⟩

/-- C01, error side: more divisions than points is refused by the library routine. -/
theorem C01_too_many_divisions_refused (npts ndivs : Nat) (h : npts < ndivs) :
    mppComputeExtent npts ndivs = .error .tooMany := by
  unfold mppComputeExtent; rw [if_pos h]

/-- C01 for the copy in mppncscatter: same extents as the library, no message printed. -/
theorem C01_scatter_extents_partition (len ndiv : Nat) (h1 : 1 ≤ ndiv) (h2 : ndiv ≤ len) :
    ∃ ext, scatterExtents len ndiv = .ok (ext, 0) ∧ mppComputeExtent len ndiv = .ok ext ∧
      ext.length = ndiv ∧ OrderedPartition 0 (len - 1) ext := by
  obtain ⟨ext, he, hl, hp⟩ := C01_extents_partition len ndiv h1 h2
  refine ⟨ext, ?_, he, hl, hp⟩
  unfold mppComputeExtent at he
  rw [if_neg (by omega)] at he
  exact scatterComputeExtent_eq _ _ _ _ he

/-- C01, what the scatter copy lacks: it does not refuse more divisions than points. Three divisions
of two points run into an unsigned subtraction that wraps around. -/
theorem C01_scatter_too_many_unchecked :
    scatterExtents 2 3 = .error .wrap ∧ mppComputeExtent 2 3 = .error .tooMany := by
  decide

/- Test: 18 points on 4 divisions (the example in the source comment). -/
example : mppComputeExtent 18 4 = .ok [(0, 4), (5, 8), (9, 12), (13, 17)] := by decide
example : mppComputeExtent 7 3 = .ok [(0, 2), (3, 3), (4, 6)] := by decide
example : scatterExtents 10 4 = .ok ([(0, 2), (3, 4), (5, 6), (7, 9)], 0) := by decide
example : scatterExtents 11 4 = .ok ([(0, 2), (3, 5), (6, 8), (9, 10)], 0) := by decide

/-! ### C02 -/

/-- C02. When the parities allow it, division `k` and division `ndivs-1-k` are mirror images. -/
theorem C02_mirror_symmetry (npts ndivs : Nat) (h1 : 1 ≤ ndivs) (h2 : ndivs ≤ npts)
    (hpar : npts % 2 = ndivs % 2 ∨ (ndivs % 2 = 1 ∧ npts % 2 = 0 ∧ ndivs < npts / 2)) :
    ∃ ext, mppComputeExtent npts ndivs = .ok ext ∧
      ∀ (k : Nat) (x : Int × Int), ext[k]? = some x → ext[ndivs - 1 - k]? = some (mirror 0 (npts - 1) x) := by
  obtain ⟨P, h, hc, hs⟩ := extLoop_cuts 0 npts ndivs h1 h2
  simp only [Int.zero_add] at h hc hs
  have hsym : symmetrize npts ndivs = true := by
    simp only [symmetrize, Bool.or_eq_true, Bool.and_eq_true, beq_iff_eq, decide_eq_true_eq]
    omega
  have hs := hs hsym
  refine ⟨cutList ndivs P, ?_, ?_⟩
  · unfold mppComputeExtent
    rw [if_neg (by omega), h]
  · intro k x hk
    have hkn : k < ndivs := by
      have := (List.getElem?_eq_some_iff.1 hk).1
      simpa [cutList] using this
    have hx : x = (P k, P (k + 1) - 1) := by
      simp [cutList, hkn] at hk; exact hk.symm
    subst hx
    have a := hs k (by omega)
    have b := hs (k + 1) (by omega)
    have hlt : ndivs - 1 - k < ndivs := by omega
    simp only [cutList, List.getElem?_map, List.getElem?_range hlt, Option.map_some, mirror]
    rw [show ndivs - 1 - k + 1 = ndivs - k by omega, show ndivs - 1 - k = ndivs - (k + 1) by omega]
    congr 1
    apply Prod.ext <;> simp <;> omega

/- Without the parity condition the claim fails: 5 points on 2 divisions. -/
example : mppComputeExtent 5 2 = .ok [(0, 2), (3, 4)] := by decide
example : (18 % 2 = 4 % 2) ∧ (1 ≤ 4) ∧ (4 ≤ 18) := by decide
example : 3 % 2 = 1 ∧ 10 % 2 = 0 ∧ 3 < 10 / 2 := by decide

/-! ### C03 -/

/-- C03. Sizes of divisions lie between `npts/ndivs - 1` and `npts/ndivs + 1`, so two divisions
differ by at most two points; without symmetry by at most one. -/
theorem C03_balance (npts ndivs : Nat) (h1 : 1 ≤ ndivs) (h2 : ndivs ≤ npts) :
    ∃ ext, mppComputeExtent npts ndivs = .ok ext ∧ ext.length = ndivs ∧
      (∀ x ∈ ext, (npts / ndivs : Nat) - 1 ≤ size x ∧ size x ≤ (npts / ndivs : Nat) + 1) ∧
      (∀ x ∈ ext, ∀ y ∈ ext, size x - size y ≤ 2) ∧
      (npts % 2 = 1 ∧ ndivs % 2 = 0 ∨ ndivs % 2 = 1 ∧ npts % 2 = 0 ∧ npts / 2 ≤ ndivs →
        ∀ x ∈ ext, ∀ y ∈ ext, size x - size y ≤ 1) := by
  obtain ⟨P, h, hc, _⟩ := extLoop_cuts 0 npts ndivs h1 h2
  simp only [Int.zero_add] at h hc
  have hsz : ∀ x ∈ cutList ndivs P, ∃ j, j < ndivs ∧ size x = P (j + 1) - P j := by
    intro x hx
    simp only [cutList, List.mem_map, List.mem_range] at hx
    obtain ⟨j, hj, rfl⟩ := hx
    exact ⟨j, hj, by simp [size]; omega⟩
  refine ⟨cutList ndivs P, ?_, by simp [cutList], ?_, ?_, ?_⟩
  · unfold mppComputeExtent
    rw [if_neg (by omega), h]
  · intro x hx
    obtain ⟨j, hj, e⟩ := hsz x hx
    have a := hc.lo j hj
    have b := hc.hi j hj
    split at a <;> omega
  · intro x hx y hy
    obtain ⟨j, hj, e⟩ := hsz x hx
    obtain ⟨j', hj', e'⟩ := hsz y hy
    have a := hc.lo j' hj'
    have b := hc.hi j hj
    split at a <;> omega
  · intro hpar x hx y hy
    obtain ⟨j, hj, e⟩ := hsz x hx
    obtain ⟨j', hj', e'⟩ := hsz y hy
    have a := hc.lo j' hj'
    have b := hc.hi j hj
    have hsym : symmetrize npts ndivs = false := by
      rw [Bool.eq_false_iff]
      intro hh
      simp only [symmetrize, Bool.or_eq_true, Bool.and_eq_true, beq_iff_eq,
        decide_eq_true_eq] at hh
      omega
    rw [hsym] at a
    simp only [Bool.false_eq_true, if_false] at a
    omega

/-- The bound two of C03 is attained: 7 points on 3 divisions give sizes 3, 1, 3. -/
theorem C03_bound_attained :
    ∃ ext, mppComputeExtent 7 3 = .ok ext ∧ ∃ x ∈ ext, ∃ y ∈ ext, size x - size y = 2 :=
  ⟨[(0, 2), (3, 3), (4, 6)], by decide, (0, 2), by simp, (3, 3), by simp, by decide⟩

/-! ### C04 -/

/-- C04. Whatever the rounded aspect-ratio guess, the layout has positive factors whose product is
the number of processors, and the first factor is the largest divisor of `ndivs` not exceeding the
guess (at least 1). -/
theorem C04_layout_uses_every_processor (guess : Int) (ndivs : Nat) :
    1 ≤ (defineLayout guess ndivs).1 ∧
    (defineLayout guess ndivs).1 * (defineLayout guess ndivs).2 = ndivs ∧
    ((defineLayout guess ndivs).1 : Int) ≤ max guess 1 ∧
    (1 ≤ ndivs → 1 ≤ (defineLayout guess ndivs).2) ∧
    ∀ d : Nat, 1 ≤ d → (d : Int) ≤ max guess 1 → ndivs % d = 0 →
      d ≤ (defineLayout guess ndivs).1 := by
  have hg : 1 ≤ (if guess > 1 then guess.toNat else 1) := by split <;> omega
  have hm : (((if guess > 1 then guess.toNat else 1 : Nat)) : Int) = max guess 1 := by
    split <;> omega
  obtain ⟨a, b, c, d⟩ := layoutSearch_spec ndivs _ hg
  have hprod : (defineLayout guess ndivs).1 * (defineLayout guess ndivs).2 = ndivs := by
    simp only [defineLayout]
    exact Nat.mul_div_cancel' (Nat.dvd_of_mod_eq_zero c)
  refine ⟨a, hprod, ?_, ?_, ?_⟩
  · simp only [defineLayout]; omega
  · intro h
    rcases Nat.eq_zero_or_pos (defineLayout guess ndivs).2 with h0 | h0
    · rw [h0] at hprod; omega
    · exact h0
  · intro e he1 he2 hed
    exact d e (by omega) he1 hed

example : defineLayout 5 12 = (4, 3) := by decide
example : defineLayout 0 7 = (1, 7) := by decide

/-! ### C05 -/

/-- C05. In a 2-D decomposition every cell `(i,j)` of the `ni x nj` grid is in the compute domain of
exactly one processor, and there are `l0*l1` processors. With a halo the whole grid is shifted by
the halo width (mpp_domain.c 206-209), so the statement is about `(i+xhalo, j+yhalo)`. -/
theorem C05_every_cell_one_owner (ni nj l0 l1 : Nat) (xhalo yhalo : Int) (h0 : 1 ≤ l0)
    (h0' : l0 ≤ ni) (h1 : 1 ≤ l1) (h1' : l1 ≤ nj) :
    ∃ d, defineDomain2D ni nj l0 l1 xhalo yhalo = .ok d ∧ d.pes.length = l0 * l1 ∧
      ∀ i j : Int, 0 ≤ i → i < ni → 0 ≤ j → j < nj →
        ∃ (n : Nat) (isc iec jsc jec : Int), d.pes[n]? = some (isc, iec, jsc, jec) ∧
          (isc ≤ i + xhalo ∧ i + xhalo ≤ iec ∧ jsc ≤ j + yhalo ∧ j + yhalo ≤ jec) ∧
          ∀ (n' : Nat) (isc' iec' jsc' jec' : Int), d.pes[n']? = some (isc', iec', jsc', jec') →
            (isc' ≤ i + xhalo ∧ i + xhalo ≤ iec' ∧ jsc' ≤ j + yhalo ∧ j + yhalo ≤ jec') →
            n' = n := by
  obtain ⟨xs, hx, hxl, hxp⟩ := C01_extents_partition ni l0 h0 h0'
  obtain ⟨ys, hy, hyl, hyp⟩ := C01_extents_partition nj l1 h1 h1'
  refine ⟨_, by unfold defineDomain2D; rw [hx, hy], ?_, ?_⟩
  · simp only [length_flatMap_map, hxl, hyl, Nat.mul_comm]
  · intro i j hi0 hi1 hj0 hj1
    obtain ⟨a, x, hax, hx1, hx2⟩ := hxp.cover i hi0 (by omega)
    obtain ⟨b, y, hby, hy1, hy2⟩ := hyp.cover j hj0 (by omega)
    have hal : a < xs.length := (List.getElem?_eq_some_iff.1 hax).1
    refine ⟨b * xs.length + a, x.1 + xhalo, x.2 + xhalo, y.1 + yhalo, y.2 + yhalo, ?_,
      by omega, ?_⟩
    · simp only []
      rw [getElem?_flatMap_map (fun (y x : Int × Int) =>
        (x.1 + xhalo, x.2 + xhalo, y.1 + yhalo, y.2 + yhalo)) xs ys b a hal, hby, hax]
      simp
    · intro n' isc' iec' jsc' jec' hn' hin
      simp only [] at hn'
      have hpos : 0 < xs.length := by omega
      have hdm : n' = (n' / xs.length) * xs.length + n' % xs.length := by
        rw [Nat.mul_comm]; exact (Nat.div_add_mod _ _).symm
      rw [hdm, getElem?_flatMap_map (fun (y x : Int × Int) =>
        (x.1 + xhalo, x.2 + xhalo, y.1 + yhalo, y.2 + yhalo)) xs ys _ _
        (Nat.mod_lt _ hpos)] at hn'
      cases hy' : ys[n' / xs.length]? with
      | none => rw [hy'] at hn'; simp at hn'
      | some y1 =>
        cases hx' : xs[n' % xs.length]? with
        | none => rw [hy', hx'] at hn'; simp at hn'
        | some x1 =>
          rw [hy', hx'] at hn'
          simp at hn'
          obtain ⟨e1, e2, e3, e4⟩ := hn'
          have ea := hxp.unique i _ _ x1 x hx' hax (by omega) (by omega) hx1 hx2
          have eb := hyp.unique j _ _ y1 y hy' hby (by omega) (by omega) hy1 hy2
          rw [hdm, ea, eb]

example : ∃ d, defineDomain2D 10 6 3 2 0 0 = .ok d ∧ d.pes.length = 6 :=
  ⟨_, rfl, by decide⟩

/-! ### C07 -/

/-- C07. With an I/O layout that divides the layout, the extents used for the files are an ordered
partition of the axis into `ndivio` intervals, each the union of `ndiv/ndivio` consecutive compute
extents (it starts where the first of them starts and ends where the last of them ends). -/
theorem C07_io_layout_partition (len ndiv ndivio : Nat) (h1 : 1 ≤ ndiv) (h2 : ndiv ≤ len)
    (h3 : 1 ≤ ndivio) (hdvd : ndiv % ndivio = 0) :
    ∃ ext io, mppComputeExtent len ndiv = .ok ext ∧
      scatterDimExtents len ndiv ndivio = .ok io ∧ io.length = ndivio ∧
      OrderedPartition 0 (len - 1) io ∧
      ∀ k, k < ndivio → ∃ a b, ext[k * (ndiv / ndivio)]? = some a ∧
        ext[k * (ndiv / ndivio) + ndiv / ndivio - 1]? = some b ∧ io[k]? = some (a.1, b.2) := by
  obtain ⟨ext, he, hm, hl, hp⟩ := C01_scatter_extents_partition len ndiv h1 h2
  have hmul : ndivio * (ndiv / ndivio) = ndiv := Nat.mul_div_cancel' (Nat.dvd_of_mod_eq_zero hdvd)
  have hstep : 1 ≤ ndiv / ndivio := by
    rcases Nat.eq_zero_or_pos (ndiv / ndivio) with h | h
    · rw [h] at hmul; omega
    · exact h
  have hle : ndivio ≤ ndiv := by
    calc ndivio = ndivio * 1 := by omega
      _ ≤ ndivio * (ndiv / ndivio) := Nat.mul_le_mul_left _ hstep
      _ = ndiv := hmul
  obtain ⟨io, hio, hiol, hiop, hiok⟩ := ioCoarsen_partition (ndiv / ndivio) hstep (len - 1) ndivio
    ndiv ext 0 (by rw [hl]; exact hmul.symm) hle hp
  refine ⟨ext, io, hm, ?_, hiol, hiop, hiok⟩
  unfold scatterDimExtents
  rw [he]
  simp only [show ¬ ndivio = 0 by omega, if_false, hdvd, ne_eq, not_true, hio]

/-- C07, refusal: an I/O layout that does not divide the layout is refused. -/
theorem C07_io_layout_refused (len ndiv ndivio : Nat) (h1 : 1 ≤ ndiv) (h2 : ndiv ≤ len)
    (h3 : 1 ≤ ndivio) (hnd : ndiv % ndivio ≠ 0) :
    scatterDimExtents len ndiv ndivio = .error .notSpan := by
  obtain ⟨ext, he, _⟩ := C01_scatter_extents_partition len ndiv h1 h2
  unfold scatterDimExtents
  rw [he]
  simp only [show ¬ ndivio = 0 by omega, if_false, hnd, ne_eq, not_false_iff, if_true]

example : scatterDimExtents 10 4 2 = .ok [(0, 4), (5, 9)] := by decide

end Verif
