import Verif.Lemmas.Refine
import Verif.Props.Nest
import Verif.Props.CubeGrid
/-
C86: global refinement of a cubed sphere grid.
-/
namespace Verif

open Verif.Vec3 Verif.CubeGrid Verif.Nest Verif.Spec Verif.Spec.Nest Verif.Spec.Cube

/-- C86: a refined tile has `n * r` cells along each side, and every `r`-th point is a corner of the coarse tile. -/
theorem C86_aligned (e : Eps) (n r : Nat) (hn : 1 ≤ n) (hr : 1 ≤ r) (c : Nat → LonLat)
    (hlon : ∀ k, 0 ≤ (c k).1 ∧ (c k).1 ≤ 2 * Real.pi) (t : Nat) (g : List (List LonLat)) (hg : refine e n r c t = .ok g) :
    (g.length = n * r + 1 ∧ ∀ l ∈ g, l.length = n * r + 1)
    ∧ ∀ j i, j ≤ n → i ≤ n → nestAt g (j * r) (i * r) = some (c (t * (n + 1) * (n + 1) + j * (n + 1) + i)) := by
  refine ⟨C85_size _ _ _ _ _ _ _ _ _ _ _ g hg, fun j i hj hi => ?_⟩
  have := C85_aligned e n n _ 0 r 1 n 1 n true hr (Or.inr rfl) (by omega) (fun k => hlon _) g hg j i (by omega) (by omega)
  rw [this]
  congr 2
  simp only [Nat.sub_self, Nat.zero_add]
  omega

theorem refine_line (e : Eps) (n r : Nat) (hr : 1 ≤ r) (c : Nat → LonLat) (t : Nat) (g : List (List LonLat))
    (hg : refine e n r c t = .ok g) (j i : Nat) (hj : j ≤ n * r) (hi : i ≤ n * r) (h : j % r = 0 ∨ i % r = 0) :
    ∃ q, nestAt g j i = some (wrap q) ∧ linePoint r (fun x => Except.ok x) (fun k x y => slerp e ((k : ℝ) / r) x y)
      (fun j i => c (idx (n + 1) t j i)) j i = .ok q := by
  unfold refine at hg
  obtain ⟨-, -, -, hp⟩ := nest_setup hg
  obtain ⟨p, hp1, hp2⟩ := hp j i hj hi
  obtain ⟨j1, j2⟩ := nest_div hr hj
  obtain ⟨i1, i2⟩ := nest_div hr hi
  rw [point_eq e _ (by omega) (fun h => by have := j2 h; omega) (by omega) (Or.inr rfl)] at hp2
  have hx : ∀ j i, t * (n + 1) * (n + 1) + (j * (n + 1) + i) = idx (n + 1) t j i := by
    intro j i; unfold idx; omega
  simp only [Nat.sub_self, Nat.zero_add, hx] at hp2
  unfold linePoint
  by_cases a : j % r = 0
  · simp only [a, if_true] at hp2 ⊢
    by_cases b : i % r = 0
    · simp only [b, if_true] at hp2 ⊢
      exact ⟨_, by rw [hp1]; simp at hp2; rw [hp2], rfl⟩
    · simp only [b, if_false] at hp2 ⊢
      have hmin : min (i / r + 1) n = i / r + 1 := by have := i2 b; omega
      rw [hmin] at hp2
      cases hs : slerp e (((i % r : Nat) : ℝ) / r) (c (idx (n + 1) t (j / r) (i / r))) (c (idx (n + 1) t (j / r) (i / r + 1))) with
      | error x => rw [hs] at hp2; simp at hp2
      | ok q =>
        rw [hs] at hp2
        simp at hp2
        exact ⟨q, by rw [hp1, hp2], rfl⟩
  · have b : i % r = 0 := by rcases h with h | h; exact absurd h a; exact h
    simp only [a, b, if_true, if_false] at hp2 ⊢
    cases hs : slerp e (((j % r : Nat) : ℝ) / r) (c (idx (n + 1) t (j / r) (i / r))) (c (idx (n + 1) t (j / r + 1) (i / r))) with
    | error x => rw [hs] at hp2; simp at hp2
    | ok q =>
      rw [hs] at hp2
      split at hp2
      · rename_i h1 h2
        simp at h1 hp2
        subst h1
        exact ⟨q, by rw [hp1, hp2], rfl⟩
      · simp at hp2
      · simp at hp2

theorem refine_inner {N t j i t' j' i' : Nat} (ht : t < 6) (hj : 0 < j ∧ j < N) (hi : 0 < i ∧ i < N) (ht' : t' < 6)
    (hj' : j' ≤ N) (hi' : i' ≤ N) (h : place N t j i = place N t' j' i') : t = t' ∧ j = j' ∧ i = i' := by
  interval_cases t <;> interval_cases t' <;> simp only [place, Prod.mk.injEq] at h <;> omega

/-- Neighbouring corners of the coarse tiles are apart. -/
def CoarseApart (e : Eps) (n : Nat) (c : Nat → LonLat) : Prop :=
  ∀ t j i, t < 6 →
    (j ≤ n → i < n → Apart e.e5 e.e8 (c (t * (n + 1) * (n + 1) + j * (n + 1) + i)) (c (t * (n + 1) * (n + 1) + j * (n + 1) + (i + 1))))
    ∧ (j < n → i ≤ n → Apart e.e5 e.e8 (c (t * (n + 1) * (n + 1) + j * (n + 1) + i)) (c (t * (n + 1) * (n + 1) + (j + 1) * (n + 1) + i)))

/-- C86: if the coarse tiles have the same corners wherever they are the same place of the cube, so have the refined
tiles. -/
theorem C86_edges_agree (e : Eps) (n r : Nat) (hr : 1 ≤ r) (c : Nat → LonLat)
    (hc : ∀ t j i t' j' i', t < 6 → j ≤ n → i ≤ n → t' < 6 → j' ≤ n → i' ≤ n → place n t j i = place n t' j' i' →
      c (t * (n + 1) * (n + 1) + j * (n + 1) + i) = c (t' * (n + 1) * (n + 1) + j' * (n + 1) + i'))
    (hap : CoarseApart e n c) (t j i t' j' i' : Nat) (ht : t < 6) (hj : j ≤ n * r) (hi : i ≤ n * r) (ht' : t' < 6)
    (hj' : j' ≤ n * r) (hi' : i' ≤ n * r) (h : place (n * r) t j i = place (n * r) t' j' i')
    (g g' : List (List LonLat)) (hg : refine e n r c t = .ok g) (hg' : refine e n r c t' = .ok g') :
    nestAt g j i = nestAt g' j' i' := by
  classical
  have inner : ∀ x, x ≤ n * r → x % r ≠ 0 → 0 < x ∧ x < n * r := by
    intro x hx hm
    refine ⟨Nat.pos_of_ne_zero fun h0 => hm (by rw [h0, Nat.zero_mod]), lt_of_le_of_ne hx fun h0 => hm ?_⟩
    rw [h0, Nat.mul_mod_left]
  have same : ∀ t j i t' j' i' (g g' : List (List LonLat)), t = t' ∧ j = j' ∧ i = i' → refine e n r c t = .ok g →
      refine e n r c t' = .ok g' → nestAt g j i = nestAt g' j' i' := by
    rintro t j i t' j' i' g g' ⟨rfl, rfl, rfl⟩ h1 h2
    rw [h1] at h2
    simp at h2
    rw [h2]
  by_cases a : j % r ≠ 0 ∧ i % r ≠ 0
  · exact same _ _ _ _ _ _ _ _ (refine_inner ht (inner j hj a.1) (inner i hi a.2) ht' hj' hi' h) hg hg'
  by_cases a' : j' % r ≠ 0 ∧ i' % r ≠ 0
  · exact (same _ _ _ _ _ _ _ _ (refine_inner ht' (inner j' hj' a'.1) (inner i' hi' a'.2) ht hj hi h.symm) hg' hg).symm
  · let f : Nat × Nat × Nat → LonLat := fun q =>
      if h : ∃ k : Nat × Nat × Nat, k.1 < 6 ∧ k.2.1 ≤ n ∧ k.2.2 ≤ n ∧ place n k.1 k.2.1 k.2.2 = q then
        c (idx (n + 1) h.choose.1 h.choose.2.1 h.choose.2.2) else (0, 0)
    have hf : ∀ t j i, t < 6 → j ≤ n → i ≤ n → c (idx (n + 1) t j i) = f (place n t j i) := by
      intro t j i ht hj hi
      have hex : ∃ k : Nat × Nat × Nat, k.1 < 6 ∧ k.2.1 ≤ n ∧ k.2.2 ≤ n ∧ place n k.1 k.2.1 k.2.2 = place n t j i :=
        ⟨(t, j, i), ht, hj, hi, rfl⟩
      dsimp only [f]
      rw [dif_pos hex]
      have hs := hex.choose_spec
      exact hc _ _ _ _ _ _ ht hj hi hs.1 hs.2.1 hs.2.2.1 hs.2.2.2.symm
    have hr0 : (r : ℝ) ≠ 0 := by exact_mod_cast (by omega : r ≠ 0)
    have hpart : ∀ k, k < r → ((r - k : Nat) : ℝ) / r = 1 - (k : ℝ) / r := by
      intro k hk
      rw [Nat.cast_sub hk.le, sub_div, div_self hr0]
    have hrow : ∀ t j i k, t < 6 → j ≤ n → i < n → 0 < k → k < r →
        slerp e ((k : ℝ) / r) (c (idx (n + 1) t j i)) (c (idx (n + 1) t j (i + 1)))
          = slerp e (((r - k : Nat) : ℝ) / r) (c (idx (n + 1) t j (i + 1))) (c (idx (n + 1) t j i)) := by
      intro t j i k ht hj hi _ hk
      rw [hpart k hk]
      exact slerp_symm ((hap t j i ht).1 hj hi) _
    have hcol : ∀ t j i k, t < 6 → j < n → i ≤ n → 0 < k → k < r →
        slerp e ((k : ℝ) / r) (c (idx (n + 1) t j i)) (c (idx (n + 1) t (j + 1) i))
          = slerp e (((r - k : Nat) : ℝ) / r) (c (idx (n + 1) t (j + 1) i)) (c (idx (n + 1) t j i)) := by
      intro t j i k ht hj hi _ hk
      rw [hpart k hk]
      exact slerp_symm ((hap t j i ht).2 hj hi) _
    have a1 : j % r = 0 ∨ i % r = 0 := by omega
    have a2 : j' % r = 0 ∨ i' % r = 0 := by omega
    obtain ⟨q, k1, k2⟩ := refine_line e n r hr c t g hg j i hj hi a1
    obtain ⟨q', k1', k2'⟩ := refine_line e n r hr c t' g' hg' j' i' hj' hi' a2
    have l1 := line_place n r hr (fun x : LonLat => (Except.ok x : Except Err LonLat)) (fun k x y => slerp e ((k : ℝ) / r) x y)
      (fun t j i => c (idx (n + 1) t j i)) f hf hrow hcol t j i ht hj hi a1
    have l2 := line_place n r hr (fun x : LonLat => (Except.ok x : Except Err LonLat)) (fun k x y => slerp e ((k : ℝ) / r) x y)
      (fun t j i => c (idx (n + 1) t j i)) f hf hrow hcol t' j' i' ht' hj' hi' a2
    rw [k2] at l1
    rw [k2', ← h, ← l1] at l2
    simp at l2
    rw [k1, k1', l2]

/-- C86: the grid which make_hgrid refines: the coarse corners after the copies between tiles and the transformation. -/
theorem C86_refined_grid (p : Par) (hni : 0 < p.ni) (a : Nat → LonLat) (e : Eps) (r : Nat) (hr : 1 ≤ r)
    (hap : CoarseApart e p.ni (fun k => transform p (consistent p.ni a k)))
    (t j i t' j' i' : Nat) (ht : t < 6) (hj : j ≤ p.ni * r) (hi : i ≤ p.ni * r) (ht' : t' < 6)
    (hj' : j' ≤ p.ni * r) (hi' : i' ≤ p.ni * r) (h : place (p.ni * r) t j i = place (p.ni * r) t' j' i')
    (g g' : List (List LonLat)) (hg : refine e p.ni r (fun k => transform p (consistent p.ni a k)) t = .ok g)
    (hg' : refine e p.ni r (fun k => transform p (consistent p.ni a k)) t' = .ok g') :
    nestAt g j i = nestAt g' j' i' :=
  C86_edges_agree e p.ni r hr _ (fun t j i t' j' i' ht hj hi ht' hj' hi' h => congrArg (transform p)
    (C81_corners_agree p.ni hni a t j i t' j' i' ht hj hi ht' hj' hi' h)) hap t j i t' j' i' ht hj hi ht' hj' hi' h g g' hg hg'

/-! A coarse grid for the examples: one cell for each tile. -/

/-- The corner at a place of the cube with one cell -/
noncomputable def refPoint (q : Nat × Nat × Nat) : LonLat :=
  ((q.1 : ℝ) * (Real.pi / 2) + (q.2.1 : ℝ) * (Real.pi / 4), (q.2.2 : ℝ) * (Real.pi / 4))

noncomputable def refGrid (k : Nat) : LonLat := refPoint (place 1 (k / 4) (k % 4 / 2) (k % 2))

theorem ref_apart {p q : LonLat} (hd : Real.pi / 4 ≤ |p.1 - q.1| ∨ Real.pi / 4 ≤ |p.2 - q.2|)
    (h1 : -1 < inner3 (spherePoint p) (spherePoint q)) (h2 : inner3 (spherePoint p) (spherePoint q) < 1) :
    Apart nestEps.e5 nestEps.e8 p q ∧ Apart nestEps.e5 nestEps.e8 q p := by
  have key : ∀ p q : LonLat, (Real.pi / 4 ≤ |p.1 - q.1| ∨ Real.pi / 4 ≤ |p.2 - q.2|) →
      -1 < inner3 (spherePoint p) (spherePoint q) → inner3 (spherePoint p) (spherePoint q) < 1 →
      Apart nestEps.e5 nestEps.e8 p q := by
    intro p q hd h1 h2
    have hpos : 0 < angle (spherePoint p) (spherePoint q) := Real.arccos_pos.2 h2
    have hpi := Real.two_le_pi
    refine ⟨?_, hpos.le, hpos, ?_⟩
    · rintro ⟨a, b⟩
      norm_num [nestEps] at a b
      rcases hd with hd | hd <;> linarith
    · rw [angle, Real.arccos_lt_pi]
      exact h1
  refine ⟨key p q hd h1 h2, key q p ?_ ?_ ?_⟩
  · rwa [abs_sub_comm q.1, abs_sub_comm q.2]
  · rwa [inner_comm]
  · rwa [inner_comm]

theorem ref_inner (p q : LonLat) : inner3 (spherePoint p) (spherePoint q)
    = Real.sin p.2 * Real.sin q.2 + Real.cos p.2 * Real.cos q.2 * Real.cos (p.1 - q.1) := by
  rw [Real.cos_sub]
  unfold inner3 spherePoint
  simp only [Matrix.cons_val_zero, Matrix.cons_val_one, Matrix.cons_val]
  ring

theorem ref_neighbours (a b : Nat) (ha : a ≤ 1) (hb : b ≤ 1) :
    (Apart nestEps.e5 nestEps.e8 (refPoint (0, a, b)) (refPoint (1, a, b)) ∧ Apart nestEps.e5 nestEps.e8 (refPoint (1, a, b)) (refPoint (0, a, b)))
    ∧ (Apart nestEps.e5 nestEps.e8 (refPoint (a, 0, b)) (refPoint (a, 1, b)) ∧ Apart nestEps.e5 nestEps.e8 (refPoint (a, 1, b)) (refPoint (a, 0, b)))
    ∧ (Apart nestEps.e5 nestEps.e8 (refPoint (a, b, 0)) (refPoint (a, b, 1)) ∧ Apart nestEps.e5 nestEps.e8 (refPoint (a, b, 1)) (refPoint (a, b, 0))) := by
  have hpi := Real.pi_pos
  have hs2 : √2 * √2 = (2 : ℝ) := Real.mul_self_sqrt (by norm_num)
  have hs0 : (0 : ℝ) ≤ √2 := Real.sqrt_nonneg 2
  have hs1 : √2 < (2 : ℝ) := by nlinarith
  have hc : Real.cos (-(Real.pi / 4)) = √2 / 2 := by rw [Real.cos_neg, Real.cos_pi_div_four]
  have hc2 : Real.cos (-(Real.pi / 2)) = 0 := by rw [Real.cos_neg, Real.cos_pi_div_two]
  have hab : |-(Real.pi / 4)| = Real.pi / 4 := by rw [abs_neg, abs_of_pos (by positivity)]
  have hab2 : Real.pi / 4 ≤ |-(Real.pi / 2)| := by rw [abs_neg, abs_of_pos (by positivity)]; linarith
  have e1 : ∀ y : ℝ, 0 * (Real.pi / 2) + y - (1 * (Real.pi / 2) + y) = -(Real.pi / 2) := by intro y; ring
  have e2 : ∀ y : ℝ, y + 0 * (Real.pi / 4) - (y + 1 * (Real.pi / 4)) = -(Real.pi / 4) := by intro y; ring
  have e3 : (0 : ℝ) * (Real.pi / 4) - 1 * (Real.pi / 4) = -(Real.pi / 4) := by ring
  refine ⟨?_, ?_, ?_⟩
  · apply ref_apart
    · left
      simp only [refPoint, Nat.cast_zero, Nat.cast_one, e1]
      exact hab2
    all_goals
      rw [ref_inner]
      simp only [refPoint, Nat.cast_zero, Nat.cast_one, e1, hc2]
      interval_cases b <;> simp [Real.sin_pi_div_four] <;> nlinarith
  · apply ref_apart
    · left
      simp only [refPoint, Nat.cast_zero, Nat.cast_one, e2]
      exact hab.ge
    all_goals
      rw [ref_inner]
      simp only [refPoint, Nat.cast_zero, Nat.cast_one, e2, hc]
      interval_cases b <;> simp [Real.sin_pi_div_four, Real.cos_pi_div_four] <;> nlinarith
  · apply ref_apart
    · right
      simp only [refPoint, Nat.cast_zero, Nat.cast_one, e3]
      exact hab.ge
    all_goals
      rw [ref_inner]
      simp only [refPoint, Nat.cast_zero, Nat.cast_one, sub_self, Real.cos_zero]
      simp [Real.cos_pi_div_four]
      nlinarith

theorem ref_near (p q : Nat × Nat × Nat) (a b : Nat) (ha : a ≤ 1) (hb : b ≤ 1)
    (h : (p = (0, a, b) ∧ q = (1, a, b)) ∨ (p = (1, a, b) ∧ q = (0, a, b)) ∨ (p = (a, 0, b) ∧ q = (a, 1, b))
      ∨ (p = (a, 1, b) ∧ q = (a, 0, b)) ∨ (p = (a, b, 0) ∧ q = (a, b, 1)) ∨ (p = (a, b, 1) ∧ q = (a, b, 0))) :
    Apart nestEps.e5 nestEps.e8 (refPoint p) (refPoint q) := by
  obtain ⟨⟨hx, hx'⟩, ⟨hy, hy'⟩, hz, hz'⟩ := ref_neighbours a b ha hb
  rcases h with ⟨rfl, rfl⟩ | ⟨rfl, rfl⟩ | ⟨rfl, rfl⟩ | ⟨rfl, rfl⟩ | ⟨rfl, rfl⟩ | ⟨rfl, rfl⟩ <;> assumption

set_option synthInstance.maxSize 1024 in
set_option synthInstance.maxHeartbeats 200000 in
theorem ref_pairs : ∀ t < 6, ∀ s < 2, ∀ p q : Nat × Nat × Nat,
    (p = place 1 t s 0 ∧ q = place 1 t s 1) ∨ (p = place 1 t 0 s ∧ q = place 1 t 1 s) →
    ∃ a ∈ [0, 1], ∃ b ∈ [0, 1], (p = (0, a, b) ∧ q = (1, a, b)) ∨ (p = (1, a, b) ∧ q = (0, a, b)) ∨ (p = (a, 0, b) ∧ q = (a, 1, b))
      ∨ (p = (a, 1, b) ∧ q = (a, 0, b)) ∨ (p = (a, b, 0) ∧ q = (a, b, 1)) ∨ (p = (a, b, 1) ∧ q = (a, b, 0)) := by
  intro t ht s hs p q h
  rcases h with ⟨rfl, rfl⟩ | ⟨rfl, rfl⟩ <;> revert s <;> revert t <;> decide

theorem ref_coarse_apart : CoarseApart nestEps 1 refGrid := by
  have hg : ∀ t j i, j ≤ 1 → i ≤ 1 → refGrid (t * (1 + 1) * (1 + 1) + j * (1 + 1) + i) = refPoint (place 1 t j i) := by
    intro t j i hj hi
    unfold refGrid
    rw [show (t * (1 + 1) * (1 + 1) + j * (1 + 1) + i) / 4 = t by omega,
      show (t * (1 + 1) * (1 + 1) + j * (1 + 1) + i) % 4 / 2 = j by omega,
      show (t * (1 + 1) * (1 + 1) + j * (1 + 1) + i) % 2 = i by omega]
  intro t j i ht
  constructor
  · intro hj hi
    have hi0 : i = 0 := by omega
    subst hi0
    rw [hg _ _ _ hj (by omega), hg _ _ _ hj (by omega)]
    obtain ⟨a, ha, b, hb, h⟩ := ref_pairs t ht j (by omega) _ _ (Or.inl ⟨rfl, rfl⟩)
    simp only [List.mem_cons, List.not_mem_nil, or_false] at ha hb
    exact ref_near _ _ a b (by omega) (by omega) h
  · intro hj hi
    have hj0 : j = 0 := by omega
    subst hj0
    rw [hg _ _ _ (by omega) hi, hg _ _ _ (by omega) hi]
    obtain ⟨a, ha, b, hb, h⟩ := ref_pairs t ht i (by omega) _ _ (Or.inr ⟨rfl, rfl⟩)
    simp only [List.mem_cons, List.not_mem_nil, or_false] at ha hb
    exact ref_near _ _ a b (by omega) (by omega) h

/-- The first third of the east edge of tile 1 and of the west edge of tile 2 -/
example : ∃ g g', refine nestEps 1 3 refGrid 0 = .ok g ∧ refine nestEps 1 3 refGrid 1 = .ok g'
    ∧ nestAt g 1 3 = nestAt g' 1 0 ∧ nestAt g 0 3 = some (Real.pi / 2 + Real.pi / 4, 0) := by
  have ok : ∀ t, ∃ g, refine nestEps 1 3 refGrid t = .ok g := fun t =>
    nest_total nestEps (le_refl _) 1 1 _ 0 3 1 1 1 1 true (by omega) (Or.inr rfl) (by omega) (by unfold NestInside; omega)
  obtain ⟨g, hg⟩ := ok 0
  obtain ⟨g', hg'⟩ := ok 1
  have hpi := Real.pi_pos
  refine ⟨g, g', hg, hg', ?_, ?_⟩
  · refine C86_edges_agree nestEps 1 3 (by omega) refGrid ?_ ref_coarse_apart 0 1 3 1 1 0 (by omega) (by omega)
      (by omega) (by omega) (by omega) (by omega) rfl g g' hg hg'
    intro t j i t' j' i' ht hj hi ht' hj' hi' h
    unfold refGrid
    rw [show (t * (1 + 1) * (1 + 1) + j * (1 + 1) + i) / 4 = t by omega,
      show (t * (1 + 1) * (1 + 1) + j * (1 + 1) + i) % 4 / 2 = j by omega,
      show (t * (1 + 1) * (1 + 1) + j * (1 + 1) + i) % 2 = i by omega,
      show (t' * (1 + 1) * (1 + 1) + j' * (1 + 1) + i') / 4 = t' by omega,
      show (t' * (1 + 1) * (1 + 1) + j' * (1 + 1) + i') % 4 / 2 = j' by omega,
      show (t' * (1 + 1) * (1 + 1) + j' * (1 + 1) + i') % 2 = i' by omega, h]
  · have := (C86_aligned nestEps 1 3 (by omega) (by omega) refGrid ?_ 0 g hg).2 0 1 (by omega) (by omega)
    · simp [refGrid, refPoint, place] at this
      rw [this]
    · intro k
      have hb : ∀ t j i, j ≤ 1 → i ≤ 1 → (place 1 t j i).1 ≤ 1 ∧ (place 1 t j i).2.1 ≤ 1 := by
        intro t j i hj hi
        unfold place
        split <;> dsimp only <;> omega
      obtain ⟨h1, h2⟩ := hb (k / 4) (k % 4 / 2) (k % 2) (by omega) (by omega)
      unfold refGrid refPoint
      dsimp only
      have h1' : (((place 1 (k / 4) (k % 4 / 2) (k % 2)).1 : ℕ) : ℝ) ≤ 1 := by exact_mod_cast h1
      have h2' : (((place 1 (k / 4) (k % 4 / 2) (k % 2)).2.1 : ℕ) : ℝ) ≤ 1 := by exact_mod_cast h2
      exact ⟨by positivity, by nlinarith⟩

end Verif
