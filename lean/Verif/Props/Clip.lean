import Verif.Lemmas.Convex
import Verif.Spec.Conserve
import Mathlib.Tactic.NormNum
import Mathlib.Data.Rat.Lemmas
import Mathlib.Algebra.Order.Field.Rat
/-
C28: clipping a polygon to a box.
-/
namespace Verif
open Clip Spec

variable {K : Type} [Field K] [LinearOrder K] [IsStrictOrderedRing K]

omit [IsStrictOrderedRing K] in
theorem clip_some {l r : List (Pt K)} {ll ur : Pt K} (h : clip l ll ur = some r) :
    r = top ur.2 (bottom ll.2 (right ur.1 (left ll.1 l))) := by
  unfold clip at h
  split at h
  · cases h
  · unfold fits at h
    by_cases h1 : (left ll.1 l).length ≤ MV
    · rw [if_pos h1] at h
      simp only [Option.bind_eq_bind, Option.bind_some] at h
      by_cases e1 : left ll.1 l = []
      · rw [if_pos e1] at h
        have : r = [] := (Option.some.inj h).symm
        rw [this, e1]; rfl
      · rw [if_neg e1] at h
        by_cases h2 : (right ur.1 (left ll.1 l)).length ≤ MV
        · rw [if_pos h2] at h
          simp only [Option.bind_some] at h
          by_cases e2 : right ur.1 (left ll.1 l) = []
          · rw [if_pos e2] at h
            have : r = [] := (Option.some.inj h).symm
            rw [this, e2]; rfl
          · rw [if_neg e2] at h
            by_cases h3 : (bottom ll.2 (right ur.1 (left ll.1 l))).length ≤ MV
            · rw [if_pos h3] at h
              simp only [Option.bind_some] at h
              by_cases e3 : bottom ll.2 (right ur.1 (left ll.1 l)) = []
              · rw [if_pos e3] at h
                have : r = [] := (Option.some.inj h).symm
                rw [this, e3]; rfl
              · rw [if_neg e3] at h
                by_cases h4 : (top ur.2 (bottom ll.2 (right ur.1 (left ll.1 l)))).length ≤ MV
                · rw [if_pos h4] at h
                  exact (Option.some.inj h).symm
                · rw [if_neg h4] at h; cases h
            · rw [if_neg h3] at h; cases h
        · rw [if_neg h2] at h; cases h
    · rw [if_neg h1] at h; cases h

/-- C28. The arrays are never overrun for polygons of up to 10 vertices (grid cells have 4, and at most
8 after `fix_lon`). -/
theorem C28_fits (l : List (Pt K)) (ll ur : Pt K) (h0 : l ≠ []) (h : l.length ≤ 10) :
    ∃ r, clip l ll ur = some r ∧ 16 * r.length ≤ 81 * l.length := by
  have h1 := pass_length (fun p : Pt K => decide (p.1 ≥ ll.1)) (crossX ll.1) l
  have h2 := pass_length (fun p : Pt K => decide (p.1 ≤ ur.1)) (crossX ur.1) (left ll.1 l)
  have h3 := pass_length (fun p : Pt K => decide (p.2 ≥ ll.2)) (crossY ll.2) (right ur.1 (left ll.1 l))
  have h4 := pass_length (fun p : Pt K => decide (p.2 ≤ ur.2)) (crossY ur.2)
    (bottom ll.2 (right ur.1 (left ll.1 l)))
  change 2 * (left ll.1 l).length ≤ _ at h1
  change 2 * (right ur.1 (left ll.1 l)).length ≤ _ at h2
  change 2 * (bottom ll.2 (right ur.1 (left ll.1 l))).length ≤ _ at h3
  change 2 * (top ur.2 (bottom ll.2 (right ur.1 (left ll.1 l)))).length ≤ _ at h4
  have hr : ∃ r, clip l ll ur = some r := by
    unfold clip fits MV
    rw [if_neg h0, if_pos (by omega)]
    simp only [Option.bind_eq_bind, Option.bind_some]
    split
    · exact ⟨_, rfl⟩
    · rw [if_pos (by omega)]
      simp only [Option.bind_some]
      split
      · exact ⟨_, rfl⟩
      · rw [if_pos (by omega)]
        simp only [Option.bind_some]
        split
        · exact ⟨_, rfl⟩
        · rw [if_pos (by omega)]
          exact ⟨_, rfl⟩
  obtain ⟨r, hr⟩ := hr
  refine ⟨r, hr, ?_⟩
  rw [clip_some hr]
  omega

/-- C28. Every vertex of the result is in the box and in the convex hull of the polygon. -/
theorem C28_inside (l r : List (Pt K)) (ll ur : Pt K) (h : clip l ll ur = some r) (hx : ll.1 ≤ ur.1)
    (hy : ll.2 ≤ ur.2) (q : Pt K) (hq : q ∈ r) : InBox ll ur q ∧ InHull l q := by
  rw [clip_some h] at hq
  have half : ∀ a b c : K, (∀ p ∈ l, a * p.1 + b * p.2 ≤ c) →
      ∀ p ∈ top ur.2 (bottom ll.2 (right ur.1 (left ll.1 l))), a * p.1 + b * p.2 ≤ c := by
    intro a b c hl
    rw [top_eq, bottom_eq, right_eq, left_eq]
    exact gpass_half (gpass_half (gpass_half (gpass_half hl)))
  refine ⟨⟨?_, ?_, ?_, ?_⟩, fun a b c hl => half a b c hl q hq⟩
  · have h1 : ∀ p ∈ left ll.1 l, (-1) * p.1 + 0 * p.2 ≤ -ll.1 := by
      intro p hp
      rw [left_eq] at hp
      have := gpass_in (isLin_lin 1 0 0) p hp
      unfold lin at this
      linarith
    rw [top_eq, bottom_eq, right_eq] at hq
    have := gpass_half (gpass_half (gpass_half h1)) q hq
    linarith
  · have h1 : ∀ p ∈ right ur.1 (left ll.1 l), 1 * p.1 + 0 * p.2 ≤ ur.1 := by
      intro p hp
      rw [right_eq] at hp
      have := gpass_in (isLin_lin (-1) (-0) (-0)) p hp
      unfold lin at this
      linarith
    rw [top_eq, bottom_eq] at hq
    have := gpass_half (gpass_half h1) q hq
    linarith
  · have h1 : ∀ p ∈ bottom ll.2 (right ur.1 (left ll.1 l)), 0 * p.1 + (-1) * p.2 ≤ -ll.2 := by
      intro p hp
      rw [bottom_eq] at hp
      have := gpass_in (isLin_lin 0 1 0) p hp
      unfold lin at this
      linarith
    rw [top_eq] at hq
    have := gpass_half h1 q hq
    linarith
  · rw [top_eq] at hq
    have := gpass_in (isLin_lin (-0) (-1) (-0)) q hq
    unfold lin at this
    linarith

/-- C28. A polygon inside the box comes back unchanged. -/
theorem C28_unchanged (l : List (Pt K)) (ll ur : Pt K) (h0 : l ≠ []) (hn : l.length ≤ 50)
    (h : ∀ p ∈ l, InBox ll ur p) : clip l ll ur = some l := by
  have e1 : left ll.1 l = l := pass_id _ _ l fun p hp => by simpa using (h p hp).1
  have e2 : right ur.1 l = l := pass_id _ _ l fun p hp => by simpa using (h p hp).2.1
  have e3 : bottom ll.2 l = l := pass_id _ _ l fun p hp => by simpa using (h p hp).2.2.1
  have e4 : top ur.2 l = l := pass_id _ _ l fun p hp => by simpa using (h p hp).2.2.2
  unfold clip
  rw [if_neg h0, e1]
  have hf : fits l = some l := if_pos hn
  rw [hf]
  simp only [Option.bind_eq_bind, Option.bind_some]
  rw [if_neg h0, e2, hf]
  simp only [Option.bind_some]
  rw [if_neg h0, e3, hf]
  simp only [Option.bind_some]
  rw [if_neg h0, e4, hf]

/-- C28. A polygon strictly beyond one side of the box gives an empty result. -/
theorem C28_outside (l r : List (Pt K)) (ll ur : Pt K) (h : clip l ll ur = some r)
    (hx : ll.1 ≤ ur.1) (hy : ll.2 ≤ ur.2)
    (ho : (∀ p ∈ l, p.1 < ll.1) ∨ (∀ p ∈ l, ur.1 < p.1) ∨ (∀ p ∈ l, p.2 < ll.2) ∨ (∀ p ∈ l, ur.2 < p.2)) :
    r = [] := by
  -- the strict bound is kept by some margin: the hull of a finite list
  have strict : ∀ (f : Pt K → K) (c : K) (l : List (Pt K)), l ≠ [] → (∀ p ∈ l, f p < c) →
      ∃ d, d < c ∧ ∀ p ∈ l, f p ≤ d := by
    intro f c l
    induction l with
    | nil => intro h; exact absurd rfl h
    | cons a l ih =>
      intro _ hl
      by_cases hne : l = []
      · subst hne
        exact ⟨f a, hl a (by simp), by simp⟩
      · obtain ⟨d, hd, hd2⟩ := ih hne fun p hp => hl p (List.mem_cons_of_mem _ hp)
        refine ⟨max d (f a), max_lt hd (hl a (by simp)), ?_⟩
        intro p hp
        rcases List.mem_cons.1 hp with rfl | hp
        · exact le_max_right _ _
        · exact le_trans (hd2 p hp) (le_max_left _ _)
  have h0 : l ≠ [] := by
    intro e; rw [e] at h; cases h
  rw [List.eq_nil_iff_forall_not_mem]
  intro q hq
  obtain ⟨hb, hh⟩ := C28_inside l r ll ur h hx hy q hq
  rcases ho with ho | ho | ho | ho
  · obtain ⟨d, hd, hd2⟩ := strict (fun p => p.1) ll.1 l h0 ho
    have := hh 1 0 d fun p hp => by have := hd2 p hp; linarith
    have := hb.1
    linarith
  · obtain ⟨d, hd, hd2⟩ := strict (fun p => -p.1) (-ur.1) l h0 fun p hp => by have := ho p hp; linarith
    have := hh (-1) 0 d fun p hp => by have := hd2 p hp; linarith
    have := hb.2.1
    linarith
  · obtain ⟨d, hd, hd2⟩ := strict (fun p => p.2) ll.2 l h0 ho
    have := hh 0 1 d fun p hp => by have := hd2 p hp; linarith
    have := hb.2.2.1
    linarith
  · obtain ⟨d, hd, hd2⟩ := strict (fun p => -p.2) (-ur.2) l h0 fun p hp => by have := ho p hp; linarith
    have := hh 0 (-1) d fun p hp => by have := hd2 p hp; linarith
    have := hb.2.2.2
    linarith

/-- C28. A convex polygon listed counter-clockwise gives one. -/
theorem C28_convex (l r : List (Pt K)) (ll ur : Pt K) (h : clip l ll ur = some r) (hl : Convex l) : Convex r := by
  rw [clip_some h, top_eq, bottom_eq, right_eq, left_eq]
  exact gpass_convex _ _ _ _ _ (gpass_convex _ _ _ _ _ (gpass_convex _ _ _ _ _ (gpass_convex _ _ _ _ _ hl)))

omit [LinearOrder K] [IsStrictOrderedRing K] in
theorem telescope (g : Nat → K) (n : Nat) :
    ((List.range n).map fun i => g i - g (i + 1)).sum = g 0 - g n := by
  induction n with
  | zero => simp
  | succ n ih => rw [List.range_succ, List.map_append, List.sum_append, ih]; simp

/-- C28. Clipping to the cells of a rectangular grid loses and duplicates nothing: the pieces of any
polygon that lies in the grid have together the same value of every line integral around the boundary,
as is (signed) area. -/
theorem C28_tiling (E : Pt K → Pt K → K) (hE : Additive E) (l : List (Pt K)) (x y : Nat → K) (nx ny : Nat)
    (hx : ∀ i, i < nx → x i ≤ x (i + 1)) (hy : ∀ j, j < ny → y j ≤ y (j + 1))
    (hl : ∀ p ∈ l, InBox (x 0, y 0) (x nx, y ny) p) (piece : Nat → Nat → List (Pt K))
    (hp : ∀ i j, i < nx → j < ny → clip l (x i, y j) (x (i + 1), y (j + 1)) = some (piece i j)) :
    gridSum ny nx (fun j i => cyc E (piece i j)) = cyc E l := by
  have hX : (1 : K) ≠ 0 ∨ (0 : K) ≠ 0 := Or.inl one_ne_zero
  have hY : (0 : K) ≠ 0 ∨ (1 : K) ≠ 0 := Or.inr one_ne_zero
  unfold gridSum
  have col : ∀ i, i < nx → ((List.range ny).map fun j => cyc E (piece i j)).sum =
      cyc E (left (x i) l) - cyc E (left (x (i + 1)) l) := by
    intro i hi
    have hq : ∀ j, j < ny → cyc E (piece i j) =
        cyc E (bottom (y j) (right (x (i + 1)) (left (x i) l))) -
        cyc E (bottom (y (j + 1)) (right (x (i + 1)) (left (x i) l))) := by
      intro j hj
      rw [clip_some (hp i j hi hj)]
      simp only []
      rw [top_eq, bottom_eq, bottom_eq]
      exact strip hY hE (y j) (y (j + 1)) (hy j hj) _
    have : ((List.range ny).map fun j => cyc E (piece i j)) =
        (List.range ny).map fun j => cyc E (bottom (y j) (right (x (i + 1)) (left (x i) l))) -
        cyc E (bottom (y (j + 1)) (right (x (i + 1)) (left (x i) l))) := by
      apply List.map_congr_left
      intro j hj
      exact hq j (List.mem_range.1 hj)
    rw [this, telescope (fun j => cyc E (bottom (y j) (right (x (i + 1)) (left (x i) l))))]
    -- the lowest and the highest line
    have hb : ∀ p ∈ right (x (i + 1)) (left (x i) l), y 0 ≤ p.2 ∧ p.2 ≤ y ny := by
      intro p hp
      rw [right_eq, left_eq] at hp
      have a1 := gpass_half (gpass_half (a := 0) (b := -1) (c := -y 0)
        (fun p hp => by have := (hl p hp).2.2.1; linarith)) p hp
      have a2 := gpass_half (gpass_half (a := 0) (b := 1) (c := y ny)
        (fun p hp => by have := (hl p hp).2.2.2; linarith)) p hp
      constructor <;> linarith
    have e0 : bottom (y 0) (right (x (i + 1)) (left (x i) l)) = right (x (i + 1)) (left (x i) l) :=
      pass_id _ _ _ fun p hp => by simpa using (hb p hp).1
    have en : cyc E (bottom (y ny) (right (x (i + 1)) (left (x i) l))) = 0 := by
      rw [bottom_eq]
      apply beyond hY hE
      intro p hp
      have := (hb p hp).2
      unfold lin
      linarith
    rw [e0, en, sub_zero, right_eq, left_eq, left_eq]
    exact strip hX hE (x i) (x (i + 1)) (hx i hi) l
  have : ((List.range nx).map fun i => ((List.range ny).map fun j => cyc E (piece i j)).sum) =
      (List.range nx).map fun i => cyc E (left (x i) l) - cyc E (left (x (i + 1)) l) := by
    apply List.map_congr_left
    intro i hi
    exact col i (List.mem_range.1 hi)
  rw [this, telescope (fun i => cyc E (left (x i) l))]
  have e0 : left (x 0) l = l := pass_id _ _ _ fun p hp => by simpa using (hl p hp).1
  have en : cyc E (left (x nx) l) = 0 := by
    rw [left_eq]
    apply beyond hX hE
    intro p hp
    have := (hl p hp).2.1
    unfold lin
    simp only [] at this
    linarith
  rw [e0, en, sub_zero]

omit [LinearOrder K] [IsStrictOrderedRing K] in
theorem cross2_additive : Additive (cross2 : K × K → K × K → K) := by
  intro p q r h
  unfold OnLine at h
  unfold cross2
  linear_combination h

/-- C28. The areas of the pieces add up to the area of the polygon. -/
theorem C28_area (l : List (Pt K)) (x y : Nat → K) (nx ny : Nat)
    (hx : ∀ i, i < nx → x i ≤ x (i + 1)) (hy : ∀ j, j < ny → y j ≤ y (j + 1))
    (hl : ∀ p ∈ l, InBox (x 0, y 0) (x nx, y ny) p) (piece : Nat → Nat → List (Pt K))
    (hp : ∀ i j, i < nx → j < ny → clip l (x i, y j) (x (i + 1), y (j + 1)) = some (piece i j)) :
    gridSum ny nx (fun j i => area (piece i j)) = area l := by
  have := C28_tiling cross2 cross2_additive l x y nx ny hx hy hl piece hp
  unfold area
  rw [← this]
  unfold gridSum
  have hs : ∀ L : List K, (L.map fun a => a / 2).sum = L.sum / 2 := by
    intro L
    induction L with
    | nil => simp
    | cons a L ih => rw [List.map_cons, List.sum_cons, List.sum_cons, ih]; ring
  rw [← hs, List.map_map]
  congr 1
  apply List.map_congr_left
  intro i _
  show _ = (_ : K) / 2
  rw [← hs, List.map_map]
  rfl

/-! ### Concrete case: a triangle and a grid of two by two cells. -/

def exTri : List (ℚ × ℚ) := [(0, 0), (4, 0), (1, 4)]

example : clip exTri (0, 0) (2, 2) = some [(1 / 2, 2), (0, 0), (2, 0), (2, 2)] := by decide +kernel
example : clip exTri (2, 0) (4, 2) = some [(2, 2), (2, 0), (4, 0), (5 / 2, 2)] := by decide +kernel
example : clip exTri (0, 2) (2, 4) = some [(1 / 2, 2), (2, 2), (2, 8 / 3), (1, 4)] := by decide +kernel
example : clip exTri (2, 2) (4, 4) = some [(2, 2), (5 / 2, 2), (2, 8 / 3)] := by decide +kernel
example : area exTri = 8 ∧ area [((1 : ℚ) / 2, (2 : ℚ)), (0, 0), (2, 0), (2, 2)] = 7 / 2 := by decide +kernel
example : Convex exTri := by unfold Convex; decide +kernel
example : ∀ p ∈ exTri, InBox (0, 0) (4, 4) p := by unfold InBox; decide +kernel

end Verif
