import Verif.Spec.CouplerGrid
import Verif.Lemmas.CouplerTile
import Mathlib.Algebra.Order.Ring.Rat
import Mathlib.Algebra.Field.Rat
import Mathlib.Tactic.NormNum
import Mathlib.Tactic.Linarith
/-
C73 and C76: the southern row of the ocean grid and the nested tile of make_coupler_mosaic.
Specification: `Verif/Spec/CouplerGrid.lean`.
-/
namespace Verif

open CouplerGrid Spec Spec.CGrid

/-! ### C73: the row added in the south -/

section south
variable {K : Type} [Field K] [LinearOrder K]

/-- C73, the cells of the file keep their corners and their mask, `southExt` rows further north. -/
theorem C73_cells_kept {d2r tiny : K} {ntiles nx ny : Nat} {x y areaFrac : Nat → K} :
    let ext := southExt d2r tiny ntiles y
    (∀ i j, i ≤ nx → j ≤ ny →
      lonOcn d2r ext nx x ((j + ext) * (nx + 1) + i) = x (j * (nx + 1) + i) * d2r
      ∧ latOcn d2r ext nx y ((j + ext) * (nx + 1) + i) = y (j * (nx + 1) + i) * d2r)
    ∧ (∀ i j, i < nx → j < ny → maskOcn ext nx ny areaFrac ((j + ext) * nx + i) = areaFrac (j * nx + i)
      ∧ ∀ (depth : Nat → K) (seaLevel : K), maskDepth ext nx ny depth seaLevel ((j + ext) * nx + i)
          = if depth (j * nx + i) > seaLevel then 1 else 0) := by
  intro ext
  have hext : ext = 0 ∨ ext = 1 := by
    show southExt d2r tiny ntiles y = 0 ∨ southExt d2r tiny ntiles y = 1
    unfold southExt
    split
    · split <;> simp
    · simp
  have split1 : ∀ i j n : Nat, (j + ext) * n + i = (j * n + i) + ext * n := fun i j n => by
    rw [Nat.add_mul]; omega
  constructor
  · intro i j hi hj
    have hn : ¬ (ext = 1 ∧ (j + ext) * (nx + 1) + i < nx + 1) := by
      rintro ⟨h1, h2⟩
      rw [h1, Nat.add_mul] at h2
      omega
    unfold lonOcn latOcn
    rw [if_neg hn, if_neg hn, split1, Nat.add_sub_cancel]
    exact ⟨rfl, rfl⟩
  · intro i j hi hj
    unfold maskOcn maskDepth
    have : j * nx + i < nx * ny := by
      calc j * nx + i < j * nx + nx := by omega
        _ = (j + 1) * nx := by rw [Nat.add_mul, Nat.one_mul]
        _ ≤ ny * nx := Nat.mul_le_mul_right _ hj
        _ = nx * ny := Nat.mul_comm _ _
    have hin : ext * nx ≤ (j + ext) * nx + i ∧ (j + ext) * nx + i < ext * nx + nx * ny := by
      rw [split1]; constructor <;> omega
    rw [if_pos hin, split1, Nat.add_sub_cancel]
    refine ⟨rfl, fun depth sl => ?_⟩
    rw [if_pos (by rw [← split1]; exact hin)]

/-- C73, the indices written. Every exchange cell of an atmosphere cell with the ocean refers to a cell of the ocean
file: its written indices are between 1 and the size of the file, and name the file cell whose mask was used. -/
theorem C73_indices {d2r tiny : K} {ntiles nx ny : Nat} {y areaFrac : Nat → K} {L : Type}
    {g : CouplerTile.Geometry K L (Nat × Nat)} [IsStrictOrderedRing K] {thresh : K} {mx : Nat} {lnds : List L}
    {ocns : List (Nat × Nat)} {axo : List ((Nat × Nat) × K)} {axl : List (L × K)}
    (hocn : ∀ c ∈ ocns, c.1 < nx ∧ c.2 < ny + southExt d2r tiny ntiles y)
    (hfrac : ∀ c : Nat × Nat, g.frac c = maskOcn (southExt d2r tiny ntiles y) nx ny areaFrac (c.2 * nx + c.1))
    (h : CouplerTile.cellXgrid g thresh mx lnds ocns = .ok (axo, axl)) {c : Nat × Nat} {a : K} (hc : (c, a) ∈ axo) :
    ∃ i j : Nat, i < nx ∧ j < ny ∧ writtenIndex (southExt d2r tiny ntiles y) c = ((i : Int) + 1, (j : Int) + 1)
      ∧ g.frac c = areaFrac (j * nx + i) ∧ areaFrac (j * nx + i) > 1 / 10000 := by
  obtain ⟨rfl, -⟩ := CouplerTile.cellXgrid_eq h
  obtain ⟨o, ho, he⟩ := List.mem_filterMap.mp hc
  have hfst := CouplerTile.ocnOf_fst he
  simp only at hfst
  subst hfst
  have hpos : g.frac c > 1 / 10000 := by
    unfold CouplerTile.ocnOf at he
    split at he
    · rename_i hh; exact hh.1
    · cases he
  obtain ⟨h1, h2⟩ := hocn c ho
  generalize southExt d2r tiny ntiles y = ext at *
  have hge : ext ≤ c.2 := by
    by_contra hlt
    have hm := hfrac c
    unfold maskOcn at hm
    rw [if_neg] at hm
    · rw [hm] at hpos
      have : (0 : K) < 1 / 10000 := by norm_num
      exact absurd hpos (not_lt.mpr this.le)
    · rintro ⟨h3, -⟩
      have : (c.2 + 1) * nx ≤ ext * nx := Nat.mul_le_mul_right _ (by omega)
      rw [Nat.add_mul] at this
      omega
  obtain ⟨j, hj⟩ := Nat.exists_eq_add_of_le hge
  have hm : g.frac c = areaFrac (j * nx + c.1) := by
    rw [hfrac c]
    unfold maskOcn
    have e : c.2 * nx + c.1 = (j * nx + c.1) + ext * nx := by rw [hj, Nat.add_mul]; omega
    have : j * nx + c.1 < nx * ny := by
      calc j * nx + c.1 < j * nx + nx := by omega
        _ = (j + 1) * nx := by rw [Nat.add_mul, Nat.one_mul]
        _ ≤ ny * nx := Nat.mul_le_mul_right _ (by omega)
        _ = nx * ny := Nat.mul_comm _ _
    rw [e, if_pos ⟨by omega, by omega⟩, Nat.add_sub_cancel]
  refine ⟨c.1, j, h1, by omega, ?_, hm, by rw [← hm]; exact hpos⟩
  unfold writtenIndex
  rw [hj]
  push_cast
  congr 1
  omega

/-- C73, the reach of the grid. If the latitude is the same along the southern row of a single tile, the southern
boundary of the grid used is at the pole, or nearer to it than `tiny`. Missing: other grids, see
`C73_reach_wrong`. -/
theorem C73_reach_partial [IsStrictOrderedRing K] {d2r tiny : K} (ht : 0 ≤ tiny) {nx : Nat} {y : Nat → K}
    (huni : ∀ i, i ≤ nx → y i = y 0) {i : Nat} (hi : i ≤ nx) :
    latOcn d2r (southExt d2r tiny 1 y) nx y i ≤ -90 * d2r + tiny := by
  unfold southExt
  rw [if_pos rfl]
  split
  · unfold latOcn
    rw [if_pos ⟨rfl, by omega⟩]
    linarith
  · rename_i h
    unfold latOcn
    rw [if_neg (by omega), Nat.zero_mul, Nat.sub_zero, huni i hi]
    exact not_lt.mp h

/-- C73 fails for a southern row whose first point is at the pole and whose other points are not: no row is added,
although the grid reaches only to 60 degrees south there. -/
theorem C73_reach_wrong :
    let y : Nat → ℚ := fun l => if l = 0 then -90 else if l ≤ 2 then -60 else -30
    southExt 1 (1 / 10000000) 1 y = 0 ∧ latOcn 1 0 2 y 1 = -60 := by
  decide +kernel

/- Test: a grid from 60 degrees south gets a row, and the mask of the file moves up by it. -/
example : southExt (1 : ℚ) (1 / 10000000) 1 (fun l => if l ≤ 2 then -60 else -30) = 1
    ∧ latOcn (1 : ℚ) 1 2 (fun l => if l ≤ 2 then -60 else -30) 1 = -90
    ∧ maskOcn (K := ℚ) 1 2 1 (fun l => if l = 1 then 1 else 0) 3 = 1
    ∧ maskOcn (K := ℚ) 1 2 1 (fun _ => 1) 1 = 0
    ∧ writtenIndex 1 (1, 1) = (2, 1) := by
  decide +kernel

end south

/-! ### C76: the nested tile -/

theorem CouplerGrid.remNonzero_false {a b : Int} (h : remNonzero a b = some false) : b ≠ 0 ∧ ∃ r, a = r * b := by
  unfold remNonzero at h
  split at h
  · cases h
  · rename_i hb
    simp only [Option.some.injEq, decide_eq_false_iff_not, not_not] at h
    obtain ⟨r, hr⟩ := Int.dvd_of_tmod_eq_zero h
    exact ⟨hb, r, by rw [hr, Int.mul_comm]⟩

theorem CouplerGrid.notMultiple_false {a1 b1 a2 b2 : Int} (h : notMultiple a1 b1 a2 b2 = some false) :
    (b1 ≠ 0 ∧ b2 ≠ 0) ∧ (∃ r, a1 = r * b1) ∧ ∃ r, a2 = r * b2 := by
  unfold notMultiple at h
  split at h
  · cases h
  · cases h
  · rename_i h1
    have c1 := remNonzero_false h1
    have c2 := remNonzero_false h
    exact ⟨⟨c1.1, c2.1⟩, c1.2, c2.2⟩

/-- One round: what a successful round does. -/
theorem CouplerGrid.nestStep_ok {nx ny : Nat → Int} {s r : Option Nest} {c : Contact}
    (h : nestStep nx ny s c = .ok r) :
    (¬ Nesting nx ny c ∧ r = s) ∨ (Nesting nx ny c ∧ s = none ∧ ∃ n, r = some n ∧ Sides c n ∧ Refines n) := by
  unfold nestStep at h
  split at h
  · rename_i he
    exact Or.inl ⟨fun hn => hn.1 he, by cases h; rfl⟩
  · rename_i he
    simp only at h
    split at h
    · rename_i hw
      refine Or.inl ⟨?_, by cases h; rfl⟩
      rintro ⟨-, h1 | h1⟩
      · exact hw.1.elim (· h1.1) (· h1.2)
      · exact hw.2.elim (· h1.1) (· h1.2)
    · rename_i hw
      have hnest : Nesting nx ny c := by
        refine ⟨he, ?_⟩
        by_cases h1 : nx (c.tile1 - 1) = width c.is1 c.ie1 ∧ ny (c.tile1 - 1) = width c.js1 c.je1
        · exact Or.inl h1
        · refine Or.inr ⟨?_, ?_⟩
          · by_contra h2
            apply hw
            refine ⟨?_, Or.inl h2⟩
            by_cases h3 : nx (c.tile1 - 1) = width c.is1 c.ie1
            · exact Or.inr fun h4 => h1 ⟨h3, h4⟩
            · exact Or.inl h3
          · by_contra h2
            apply hw
            refine ⟨?_, Or.inr h2⟩
            by_cases h3 : nx (c.tile1 - 1) = width c.is1 c.ie1
            · exact Or.inr fun h4 => h1 ⟨h3, h4⟩
            · exact Or.inl h3
      split at h
      · cases h
      · rename_i hdiff
        split at h
        · cases h
        · rename_i hs
          have hs : s = none := by simpa using hs
          refine Or.inr ⟨hnest, hs, ?_⟩
          split at h
          · rename_i hgt
            cases hm : notMultiple (c.ie2 - c.is2 + 1) (c.ie1 - c.is1 + 1) (c.je2 - c.js2 + 1) (c.je1 - c.js1 + 1) with
            | none => rw [hm] at h; cases h
            | some b =>
              cases b with
              | true => rw [hm] at h; cases h
              | false =>
                rw [hm] at h
                cases h
                obtain ⟨-, ⟨rx, hx⟩, ⟨ry, hy⟩⟩ := notMultiple_false hm
                refine ⟨_, rfl, Or.inl rfl, rx, ry, hx, hy, le_of_lt hgt, ?_⟩
                rintro ⟨rfl, rfl⟩
                apply hdiff
                rw [Int.one_mul] at hx hy
                exact ⟨hx.symm, hy.symm⟩
          · rename_i hgt
            cases hm : notMultiple (c.ie1 - c.is1 + 1) (c.ie2 - c.is2 + 1) (c.je1 - c.js1 + 1) (c.je2 - c.js2 + 1) with
            | none => rw [hm] at h; cases h
            | some b =>
              cases b with
              | true => rw [hm] at h; cases h
              | false =>
                rw [hm] at h
                cases h
                obtain ⟨-, ⟨rx, hx⟩, ⟨ry, hy⟩⟩ := notMultiple_false hm
                refine ⟨_, rfl, Or.inr rfl, rx, ry, hx, hy, not_lt.mp hgt, ?_⟩
                rintro ⟨rfl, rfl⟩
                apply hdiff
                rw [Int.one_mul] at hx hy
                exact ⟨hx, hy⟩

/-- C76. When the search for a nest succeeds, at most one contact says that one tile lies inside another; without
such a contact no nest is returned, with one the nest and its parent are the two sides of that contact, and the
nest refines its part of the parent by whole numbers. Missing: that the nest is the side whose whole tile is in
the contact, see `C76_side_wrong`. -/
theorem C76_nest_partial {nx ny : Nat → Int} {cs : List Contact} {r : Option Nest} (h : getNest nx ny cs = .ok r) :
    (r = none ∧ ∀ c ∈ cs, ¬ Nesting nx ny c)
    ∨ ∃ n c l1 l2, r = some n ∧ cs = l1 ++ c :: l2 ∧ Nesting nx ny c ∧ Sides c n ∧ Refines n
        ∧ ∀ d ∈ l1 ++ l2, ¬ Nesting nx ny d := by
  have key : ∀ (cs : List Contact) (s r : Option Nest), cs.foldlM (nestStep nx ny) s = .ok r →
      (r = s ∧ ∀ c ∈ cs, ¬ Nesting nx ny c)
      ∨ (s = none ∧ ∃ n c l1 l2, r = some n ∧ cs = l1 ++ c :: l2 ∧ Nesting nx ny c ∧ Sides c n ∧ Refines n
        ∧ ∀ d ∈ l1 ++ l2, ¬ Nesting nx ny d) := by
    intro cs
    induction cs with
    | nil =>
      intro s r h
      simp only [List.foldlM_nil] at h
      cases h
      exact Or.inl ⟨rfl, by simp⟩
    | cons c cs ih =>
      intro s r h
      rw [List.foldlM_cons] at h
      cases hs : nestStep nx ny s c with
      | error e => rw [hs] at h; cases h
      | ok s' =>
        rw [hs] at h
        have h := ih s' r h
        rcases nestStep_ok hs with ⟨hno, rfl⟩ | ⟨hyes, hnone, n, rfl, hsides, href⟩
        · rcases h with ⟨h1, h2⟩ | ⟨h0, n, d, l1, l2, h1, h2, h3, h4, h5, h6⟩
          · refine Or.inl ⟨h1, ?_⟩
            intro d hd
            rcases List.mem_cons.mp hd with rfl | hd
            · exact hno
            · exact h2 d hd
          · refine Or.inr ⟨h0, n, d, c :: l1, l2, h1, by rw [h2]; rfl, h3, h4, h5, ?_⟩
            intro e he
            rcases List.mem_cons.mp he with rfl | he
            · exact hno
            · exact h6 e he
        · rcases h with ⟨h1, h2⟩ | ⟨h0, -⟩
          · exact Or.inr ⟨hnone, n, c, [], cs, h1, rfl, hyes, hsides, href, by simpa using h2⟩
          · cases h0
  rcases key cs none r h with ⟨h1, h2⟩ | ⟨-, h⟩
  · exact Or.inl ⟨h1, h2⟩
  · exact Or.inr h

theorem CouplerGrid.nest_skip {nx ny : Nat → Int} {cs : List Contact} (h : ∀ c ∈ cs, ¬ Nesting nx ny c) (s : Option Nest) :
    cs.foldlM (nestStep nx ny) s = .ok s := by
  induction cs with
  | nil => rfl
  | cons c cs ih =>
    rw [List.foldlM_cons]
    have hc := h c (List.mem_cons_self ..)
    have : nestStep nx ny s c = .ok s := by
      unfold nestStep
      by_cases he : c.tile1 = c.tile2
      · rw [if_pos he]
      · rw [if_neg he]
        simp only
        rw [if_pos]
        refine ⟨?_, ?_⟩
        · by_contra h1
          apply hc
          refine ⟨he, Or.inl ⟨?_, ?_⟩⟩ <;> by_contra h2
          · exact h1 (Or.inl h2)
          · exact h1 (Or.inr h2)
        · by_contra h1
          apply hc
          refine ⟨he, Or.inr ⟨?_, ?_⟩⟩ <;> by_contra h2
          · exact h1 (Or.inl h2)
          · exact h1 (Or.inr h2)
    rw [this]
    exact ih fun d hd => h d (List.mem_cons_of_mem _ hd)

/-- C76, a nest is found. If exactly one contact says that one tile lies inside another, and its second side refines
the first by whole numbers, the search returns it. -/
theorem C76_found {nx ny : Nat → Int} {l1 l2 : List Contact} {c : Contact} (hc : Nesting nx ny c)
    (hothers : ∀ d ∈ l1 ++ l2, ¬ Nesting nx ny d) {rx ry : Int} (hrx : 1 ≤ rx) (hry : 1 ≤ ry) (hr : ¬ (rx = 1 ∧ ry = 1))
    (hx : 0 < width c.is1 c.ie1) (hy : 0 < width c.js1 c.je1)
    (h2x : width c.is2 c.ie2 = rx * width c.is1 c.ie1) (h2y : width c.js2 c.je2 = ry * width c.js1 c.je1) :
    getNest nx ny (l1 ++ c :: l2)
      = .ok (some ⟨c.tile2 - 1, c.is2, c.ie2, c.js2, c.je2, c.tile1 - 1, c.is1, c.ie1, c.js1, c.je1⟩) := by
  unfold getNest
  rw [List.foldlM_append, nest_skip fun d hd => hothers d (List.mem_append_left _ hd)]
  simp only [bind, Except.bind, List.foldlM_cons]
  have key : nestStep nx ny none c
      = .ok (some ⟨c.tile2 - 1, c.is2, c.ie2, c.js2, c.je2, c.tile1 - 1, c.is1, c.ie1, c.js1, c.je1⟩) := by
    unfold nestStep
    rw [if_neg hc.1]
    simp only
    rw [if_neg]
    · unfold width at *
      rw [if_neg, if_neg (by simp), if_pos, h2x, h2y]
      · have e1 : remNonzero (rx * (c.ie1 - c.is1 + 1)) (c.ie1 - c.is1 + 1) = some false := by
          unfold remNonzero
          rw [if_neg (by omega)]
          simp
        have e2 : remNonzero (ry * (c.je1 - c.js1 + 1)) (c.je1 - c.js1 + 1) = some false := by
          unfold remNonzero
          rw [if_neg (by omega)]
          simp
        simp only [notMultiple, e1, e2]
      · rw [h2x, h2y]
        have h3 : 0 < (c.ie1 - c.is1 + 1) * (c.je1 - c.js1 + 1) := Int.mul_pos hx hy
        have h4 : 1 < rx * ry := by
          rcases Int.lt_or_le 1 rx with h | h
          · nlinarith
          · have : rx = 1 := by omega
            subst this
            have : ry ≠ 1 := fun h => hr ⟨rfl, h⟩
            omega
        nlinarith
      · rintro ⟨h3, h4⟩
        apply hr
        constructor
        · nlinarith
        · nlinarith
    · rintro ⟨h3, h4⟩
      rcases hc.2 with h5 | h5
      · exact h3.elim (· h5.1) (· h5.2)
      · exact h4.elim (· h5.1) (· h5.2)
  rw [key]
  exact nest_skip (fun d hd => hothers d (List.mem_append_right _ hd)) _

/-- Test sizes: tile 1 is 8 by 8, tile 2 is 4 by 4. -/
def nestSize : Nat → Int := fun t => if t = 0 then 8 else 4

/- Test: tile 2 lies inside the 2 by 2 part of tile 1. -/
example : (getNest nestSize nestSize [⟨1, 2, 3, 4, 3, 4, 1, 4, 1, 4⟩]).toOption
    = some (some ⟨1, 1, 4, 1, 4, 0, 3, 4, 3, 4⟩) := by decide +kernel

/-- C76 fails for a contact of the whole 4 by 4 tile 2 with a part of tile 1 that has more cells: tile 1 is taken as
the nest, although the contact has only part of it. -/
theorem C76_side_wrong :
    (getNest nestSize nestSize [⟨1, 2, 1, 8, 1, 4, 1, 4, 1, 4⟩]).toOption = some (some ⟨0, 1, 8, 1, 4, 1, 1, 4, 1, 4⟩)
    ∧ nestSize 0 = 8 ∧ width 1 4 = 4 := by
  decide +kernel

end Verif
