import Verif.Lemmas.BilinearSearch
import Mathlib.Tactic.NormNum
import Mathlib.Tactic.IntervalCases
/-
C122: the search for the cell of an output point in the bilinear interpolation of fregrid.
-/
namespace Verif

open BilSearch Bilinear Spec.Bil Vec3

theorem inSector_comm (eps : ℝ) (v a b p : Fin 3 → ℝ) : inSector eps v a b p ↔ inSector eps v b a p := by
  have : sphericalAngle eps v a b = sphericalAngle eps v b a := by
    rw [sphericalAngle_eq, sphericalAngle_eq]
    have e : dot3 (cross v a) (cross v b) = dot3 (cross v b) (cross v a) := by unfold dot3; ring
    rw [e, mul_comm (dot3 (cross v a) (cross v a))]
  unfold inSector
  rw [max_comm, this]

theorem det_cyc (a b c : Fin 3 → ℝ) : det a b c = det b c a := by unfold det; ring
theorem det_swap (a b c : Fin 3 → ℝ) : det a b c = -det a c b := by unfold det; ring

/-- The condition of an inner test that is chosen by an outer one. -/
theorem ite_test {α : Type} {c P Q : Prop} {_ : Decidable c} {_ : Decidable (if c then P else Q)} (x y : α) (z : α)
    (h : (if (if c then P else Q) then x else y) = z) : (c ∧ P ∧ x = z) ∨ (c ∧ ¬P ∧ y = z) ∨ (¬c ∧ Q ∧ x = z) ∨ (¬c ∧ ¬Q ∧ y = z) := by
  by_cases hc : c <;> by_cases hh : (if c then P else Q)
  · rw [if_pos hh] at h; rw [if_pos hc] at hh; exact Or.inl ⟨hc, hh, h⟩
  · rw [if_neg hh] at h; rw [if_pos hc] at hh; exact Or.inr (Or.inl ⟨hc, hh, h⟩)
  · rw [if_pos hh] at h; rw [if_neg hc] at hh; exact Or.inr (Or.inr (Or.inl ⟨hc, hh, h⟩))
  · rw [if_neg hh] at h; rw [if_neg hc] at hh; exact Or.inr (Or.inr (Or.inr ⟨hc, hh, h⟩))

section closest

variable {eps : ℝ} {nx ny : Nat} {g : Nat → Nat → Fin 3 → ℝ} {i j : Nat}

/-- The corner at `(i, j)` of the cell to the upper right. -/
theorem corner_ur (ok : TileOK eps nx ny g) (hi : 1 ≤ i) (hi' : i ≤ nx) (hj : 1 ≤ j) (hj' : j ≤ ny) :
    Corner eps (g i j) (g (i + 1) j) (g i (j + 1)) := by
  by_cases h : i = nx ∧ j = ny
  · rw [h.1, h.2]; exact ok.neTri1
  · exact ok.sw i j hi' hj' ⟨h, by omega, by omega, by omega⟩

theorem corner_ul (ok : TileOK eps nx ny g) (hi : 1 ≤ i) (hi' : i ≤ nx) (hj : 1 ≤ j) (hj' : j ≤ ny) :
    Corner eps (g i j) (g i (j + 1)) (g (i - 1) j) := by
  by_cases h : i = 1 ∧ j = ny
  · rw [h.1, h.2]; exact ok.nwTri1
  · have := ok.se (i - 1) j (by omega) hj' ⟨by omega, by omega, by omega, by omega⟩
    rwa [show i - 1 + 1 = i by omega] at this

theorem corner_ll (ok : TileOK eps nx ny g) (hi : 1 < i) (hi' : i ≤ nx) (hj : 1 < j) (hj' : j ≤ ny) :
    Corner eps (g i j) (g (i - 1) j) (g i (j - 1)) := by
  have := ok.ne (i - 1) (j - 1) (by omega) (by omega) ⟨by omega, by omega, by omega, by omega⟩
  rwa [show i - 1 + 1 = i by omega, show j - 1 + 1 = j by omega] at this

theorem corner_lr (ok : TileOK eps nx ny g) (hi : 1 ≤ i) (hi' : i ≤ nx) (hj : 1 ≤ j) (hj' : j ≤ ny) :
    Corner eps (g i j) (g i (j - 1)) (g (i + 1) j) := by
  by_cases h : i = nx ∧ j = 1
  · rw [h.1, h.2]; exact ok.seTri1
  · have := ok.nw i (j - 1) hi' (by omega) ⟨by omega, by omega, by omega, by omega⟩
    rwa [show j - 1 + 1 = j by omega] at this

/-- C122. The cell that `get_closest_index` finds holds the point: its corners are in the tile or its halo, and the point is on the
inner side of each of its sides. -/
theorem C122_sound (he : 0 < eps) (he2 : eps ≤ 1 / 2) (ok : TileOK eps nx ny g) (hi : 1 ≤ i) (hi' : i ≤ nx)
    (hj : 1 ≤ j) (hj' : j ≤ ny) (p : Fin 3 → ℝ) (ic jc : Nat) (h : closest eps nx ny g i j p = some (ic, jc)) :
    ic ≤ nx ∧ jc ≤ ny ∧ InCell nx ny g ic jc p := by
  unfold closest at h
  dsimp only at h
  by_cases h1 : inSector eps (g i j) (g (i + 1) j) (g i (j + 1)) p
  · rw [if_pos h1] at h
    rw [inSector_iff he he2 (corner_ur ok hi hi' hj hj')] at h1
    rcases ite_test _ _ _ h with ⟨hc, h2, h⟩ | ⟨_, _, h⟩ | ⟨hc, h2, h⟩ | ⟨_, _, h⟩
    · skip
      obtain ⟨rfl, rfl⟩ : i = ic ∧ j = jc := by simpa using h
      obtain ⟨rfl, rfl⟩ := hc
      rw [inSector_iff he he2 ok.neTri2] at h2
      refine ⟨le_refl _, le_refl _, ?_⟩
      unfold InCell
      rw [if_pos ⟨rfl, rfl⟩]
      exact ⟨h1.1, h2.1, by unfold LeftOf; rw [det_cyc]; exact h1.2⟩
    · cases h
    · skip
      obtain ⟨rfl, rfl⟩ : i = ic ∧ j = jc := by simpa using h
      have hf : Four nx ny i j := ⟨hc, by omega, by omega, by omega⟩
      rw [inSector_iff he he2 (ok.ne i j hi' hj' hf)] at h2
      refine ⟨hi', hj', ?_⟩
      unfold InCell
      rw [if_neg hc, if_neg (by omega), if_neg (by omega)]
      refine ⟨h1.1, ?_, h2.1, ?_⟩
      · unfold LeftOf; rw [det_cyc]; exact h2.2
      · unfold LeftOf; rw [det_cyc]; exact h1.2
    · cases h
  · rw [if_neg h1] at h
    by_cases h2 : inSector eps (g i j) (g i (j + 1)) (g (i - 1) j) p
    · rw [if_pos h2] at h
      rw [inSector_iff he he2 (corner_ul ok hi hi' hj hj')] at h2
      rcases ite_test _ _ _ h with ⟨hc, h3, h⟩ | ⟨_, _, h⟩ | ⟨hc, h3, h⟩ | ⟨_, _, h⟩
      · skip
        obtain ⟨rfl, rfl⟩ : i - 1 = ic ∧ j = jc := by simpa using h
        obtain ⟨rfl, rfl⟩ := hc
        rw [inSector_comm, inSector_iff he he2 ok.nwTri2] at h3
        refine ⟨Nat.zero_le _, le_refl _, ?_⟩
        unfold InCell
        rw [if_neg (by omega), if_pos ⟨by omega, rfl⟩]
        refine ⟨?_, h2.1, h3.1⟩
        unfold LeftOf; rw [det_cyc]; exact h2.2
      · cases h
      · skip
        obtain ⟨rfl, rfl⟩ : i - 1 = ic ∧ j = jc := by simpa using h
        have cn := ok.nw (i - 1) j (by omega) hj' ⟨by omega, by omega, by omega, by omega⟩
        rw [show i - 1 + 1 = i by omega] at cn
        rw [inSector_comm, inSector_iff he he2 cn] at h3
        refine ⟨by omega, hj', ?_⟩
        unfold InCell
        rw [if_neg (by omega), if_neg (by omega), if_neg (by omega), show i - 1 + 1 = i by omega]
        refine ⟨?_, h2.1, ?_, h3.1⟩
        · unfold LeftOf; rw [det_cyc]; exact h2.2
        · unfold LeftOf; rw [det_cyc]; exact h3.2
      · cases h
    · rw [if_neg h2] at h
      by_cases h3 : inSector eps (g i j) (g (i - 1) j) (g i (j - 1)) p ∧ i > 1 ∧ j > 1
      · rw [if_pos h3] at h
        obtain ⟨h3, gi, gj⟩ := h3
        rw [inSector_iff he he2 (corner_ll ok gi hi' gj hj')] at h3
        by_cases h4 : inSector eps (g (i - 1) (j - 1)) (g i (j - 1)) (g (i - 1) j) p
        · rw [if_pos h4] at h
          obtain ⟨rfl, rfl⟩ : i - 1 = ic ∧ j - 1 = jc := by simpa using h
          have cn := ok.sw (i - 1) (j - 1) (by omega) (by omega) ⟨by omega, by omega, by omega, by omega⟩
          rw [show i - 1 + 1 = i by omega, show j - 1 + 1 = j by omega] at cn
          rw [inSector_iff he he2 cn] at h4
          refine ⟨by omega, by omega, ?_⟩
          unfold InCell
          rw [if_neg (by omega), if_neg (by omega), if_neg (by omega), show i - 1 + 1 = i by omega,
            show j - 1 + 1 = j by omega]
          refine ⟨h4.1, ?_, h3.1, ?_⟩
          · unfold LeftOf; rw [det_cyc]; exact h3.2
          · unfold LeftOf; rw [det_cyc]; exact h4.2
        · rw [if_neg h4] at h; cases h
      · rw [if_neg h3] at h
        by_cases h4 : inSector eps (g i j) (g i (j - 1)) (g (i + 1) j) p
        · rw [if_pos h4] at h
          rw [inSector_iff he he2 (corner_lr ok hi hi' hj hj')] at h4
          rcases ite_test _ _ _ h with ⟨hc, h5, h⟩ | ⟨_, _, h⟩ | ⟨hc, h5, h⟩ | ⟨_, _, h⟩
          · skip
            obtain ⟨rfl, rfl⟩ : i = ic ∧ j - 1 = jc := by simpa using h
            obtain ⟨rfl, rfl⟩ := hc
            rw [inSector_iff he he2 ok.seTri2] at h5
            refine ⟨le_refl _, by omega, ?_⟩
            unfold InCell
            rw [if_neg (by omega), if_neg (by omega), if_pos ⟨rfl, by omega⟩]
            refine ⟨?_, h5.1, h4.1⟩
            unfold LeftOf; rw [det_cyc]; exact h5.2
          · cases h
          · skip
            obtain ⟨rfl, rfl⟩ : i = ic ∧ j - 1 = jc := by simpa using h
            have cn := ok.se i (j - 1) hi' (by omega) ⟨by omega, by omega, by omega, by omega⟩
            rw [show j - 1 + 1 = j by omega] at cn
            rw [inSector_iff he he2 cn] at h5
            refine ⟨hi', by omega, ?_⟩
            unfold InCell
            rw [if_neg (by omega), if_neg (by omega), if_neg (by omega), show j - 1 + 1 = j by omega]
            refine ⟨?_, h5.1, ?_, h4.1⟩
            · unfold LeftOf; rw [det_cyc]; exact h5.2
            · unfold LeftOf; rw [det_cyc]; exact h4.2
          · cases h
        · rw [if_neg h4] at h; cases h

/-- A direction strictly inside one of four sectors around a point is not in the opposite one. -/
theorem opposite {v a b c d r : Fin 3 → ℝ} (hab : 0 < det v a b) (hbc : 0 < det v b c) (hcd : 0 < det v c d)
    (hda : 0 < det v d a) (hcr : 0 < det v c r) (hrd : 0 < det v r d) : ¬(0 ≤ det v a r ∧ 0 ≤ det v r b) := by
  rintro ⟨har, hrb⟩
  have i1 : det v a r * det v b c + det v a b * det v c r + det v a c * det v r b = 0 := by unfold det; ring
  have i2 : det v d a * det v r b + det v r d * det v a b + det v d b * det v a r = 0 := by unfold det; ring
  have i3 : det v c d * det v r b - det v c r * det v d b + det v b c * det v r d = 0 := by unfold det; ring
  have p1 := mul_pos hbc hrd
  have p2 := mul_nonneg hcd.le hrb
  have p3 := mul_nonneg hda.le hrb
  have p4 := mul_pos hrd hab
  have hdb : det v d b < 0 := by
    by_contra h
    have := mul_nonneg (not_lt.1 h) har
    linarith
  have := mul_neg_of_pos_of_neg hcr hdb
  linarith

/-- C122. A point strictly inside one of the cells around the centre `(i, j)` is found there; of the cells to the lower left only those
that do not reach into the halo are looked at. -/
theorem C122_complete (he : 0 < eps) (he2 : eps ≤ 1 / 2) (ok : TileOK eps nx ny g) (hi : 1 ≤ i) (hi' : i ≤ nx)
    (hj : 1 ≤ j) (hj' : j ≤ ny) (p : Fin 3 → ℝ) :
    (Four nx ny i j → Inside g i j p → closest eps nx ny g i j p = some (i, j)) ∧
    (Four nx ny (i - 1) j → Inside g (i - 1) j p → closest eps nx ny g i j p = some (i - 1, j)) ∧
    (Four nx ny i (j - 1) → Inside g i (j - 1) p → closest eps nx ny g i j p = some (i, j - 1)) ∧
    (1 < i → 1 < j → Inside g (i - 1) (j - 1) p → closest eps nx ny g i j p = some (i - 1, j - 1)) := by
  have ei : i - 1 + 1 = i := by omega
  have ej : j - 1 + 1 = j := by omega
  have cur := corner_ur ok hi hi' hj hj'
  have cul := corner_ul ok hi hi' hj hj'
  have clr := corner_lr ok hi hi' hj hj'
  have dll : 0 < det (g i j) (g (i - 1) j) (g i (j - 1)) := by
    by_cases h1 : 1 < i ∧ 1 < j
    · exact (corner_ll ok h1.1 hi' h1.2 hj').1
    · by_cases h2 : i = 1 ∧ j = 1
      · rw [h2.1, h2.2]; exact ok.swTri
      · have := (ok.ne (i - 1) (j - 1) (by omega) (by omega) ⟨by omega, by omega, by omega, by omega⟩).1
        rwa [ei, ej] at this
  have sur := inSector_iff he he2 cur p
  have sul := inSector_iff he he2 cul p
  have slr := inSector_iff he he2 clr p
  unfold closest
  dsimp only
  refine ⟨?_, ?_, ?_, ?_⟩
  · rintro hf ⟨h1, h2, h3, h4⟩
    rw [if_pos (sur.2 ⟨h1.le, by rw [← det_cyc]; exact h4.le⟩)]
    refine if_pos ?_
    rw [if_neg hf.1]
    exact (inSector_iff he he2 (ok.ne i j hi' hj' hf) p).2 ⟨h3.le, by rw [← det_cyc]; exact h2.le⟩
  · rintro hf ⟨h1, h2, h3, h4⟩
    rw [ei] at h1 h2 h3
    have cn := ok.nw (i - 1) j (by omega) hj' hf
    rw [ei] at cn
    rw [if_neg (fun h => by
      have := (sur.1 h).2
      rw [det_swap] at this
      linarith), if_pos (sul.2 ⟨h2.le, by rw [← det_cyc]; exact h1.le⟩)]
    refine if_pos ?_
    rw [if_neg (by have := hf.2.1; omega), inSector_comm]
    exact (inSector_iff he he2 cn p).2 ⟨h4.le, by rw [← det_cyc]; exact h3.le⟩
  · rintro hf ⟨h1, h2, h3, h4⟩
    rw [ej] at h2 h3 h4
    have cn := ok.se i (j - 1) hi' (by omega) hf
    rw [ej] at cn
    have q1 : 0 < det (g i j) p (g (i + 1) j) := by rw [← det_cyc]; exact h3
    have nur : ¬ inSector eps (g i j) (g (i + 1) j) (g i (j + 1)) p := fun h => by
      have := (sur.1 h).1
      rw [det_swap] at this
      linarith
    have nul : ¬ inSector eps (g i j) (g i (j + 1)) (g (i - 1) j) p := fun h =>
      opposite cul.1 dll clr.1 cur.1 h4 q1 (sul.1 h)
    have nll : ¬ (inSector eps (g i j) (g (i - 1) j) (g i (j - 1)) p ∧ i > 1 ∧ j > 1) := fun h => by
      have := ((inSector_iff he he2 (corner_ll ok h.2.1 hi' h.2.2 hj') p).1 h.1).2
      rw [det_swap] at this
      linarith
    rw [if_neg nur, if_neg nul, if_neg nll, if_pos (slr.2 ⟨h4.le, q1.le⟩)]
    refine if_pos ?_
    rw [if_neg (by have := hf.2.2.1; omega)]
    exact (inSector_iff he he2 cn p).2 ⟨h2.le, by rw [← det_cyc]; exact h1.le⟩
  · rintro gi gj ⟨h1, h2, h3, h4⟩
    rw [ei] at h1 h2 h3
    rw [ej] at h2 h3 h4
    have cn := ok.sw (i - 1) (j - 1) (by omega) (by omega) ⟨by omega, by omega, by omega, by omega⟩
    rw [ei, ej] at cn
    have cll := corner_ll ok gi hi' gj hj'
    have q1 : 0 < det (g i j) p (g i (j - 1)) := by rw [← det_cyc]; exact h2
    have nur : ¬ inSector eps (g i j) (g (i + 1) j) (g i (j + 1)) p := fun h =>
      opposite cur.1 cul.1 cll.1 clr.1 h3 q1 (sur.1 h)
    have nul : ¬ inSector eps (g i j) (g i (j + 1)) (g (i - 1) j) p := fun h => by
      have := (sul.1 h).2
      rw [det_swap] at this
      linarith
    rw [if_neg nur, if_neg nul, if_pos ⟨(inSector_iff he he2 cll p).2 ⟨h3.le, q1.le⟩, gi, gj⟩]
    refine if_pos ((inSector_iff he he2 cn p).2 ⟨h1.le, ?_⟩)
    rw [← det_cyc]; exact h4.le

end closest

/-! ### The nearest centre -/

theorem greatCircle_lt (a b : Fin 3 → ℝ) : greatCircle a b < Real.pi + Real.pi := by
  have h1 := Real.arccos_le_pi
  have := Real.pi_pos
  unfold greatCircle
  dsimp only
  refine lt_of_le_of_lt (h1 _) (by linarith)

open Classical in
theorem fold_nearest (d : Nat × Nat → ℝ) (L : List (Nat × Nat)) : ∀ s : ℝ × Nat × Nat,
    (let r := L.foldl (fun (s : ℝ × Nat × Nat) c => if d c < s.1 then (d c, c) else s) s
     r.1 ≤ s.1 ∧ (∀ c ∈ L, r.1 ≤ d c) ∧ (r = s ∨ (r.2 ∈ L ∧ r.1 = d r.2))) := by
  induction L with
  | nil => intro s; exact ⟨le_refl _, by simp, Or.inl rfl⟩
  | cons a t ih =>
    intro s
    by_cases h : d a < s.1
    · obtain ⟨h1, h2, h3⟩ := ih (d a, a)
      simp only [List.foldl_cons, if_pos h]
      refine ⟨le_trans h1 h.le, ?_, ?_⟩
      · intro c hc
        rcases List.mem_cons.1 hc with rfl | hc
        · exact h1
        · exact h2 c hc
      · right
        rcases h3 with h3 | ⟨h3, h4⟩
        · rw [h3]; exact ⟨List.mem_cons_self, rfl⟩
        · exact ⟨List.mem_cons_of_mem _ h3, h4⟩
    · obtain ⟨h1, h2, h3⟩ := ih s
      simp only [List.foldl_cons, if_neg h]
      refine ⟨h1, ?_, ?_⟩
      · intro c hc
        rcases List.mem_cons.1 hc with rfl | hc
        · exact le_trans h1 (not_lt.1 h)
        · exact h2 c hc
      · rcases h3 with h3 | ⟨h3, h4⟩
        · exact Or.inl h3
        · exact Or.inr ⟨List.mem_cons_of_mem _ h3, h4⟩

theorem mem_candidates (nx ny ic jc : Nat) (c : Nat × Nat) (hi : ic ≤ nx) (hj : jc ≤ ny) :
    c ∈ candidates nx ny ic jc ↔ (ic ≤ c.1 ∧ c.1 ≤ ic + 1 ∧ c.1 ≤ nx) ∧ (jc ≤ c.2 ∧ c.2 ≤ jc + 1 ∧ c.2 ≤ ny) := by
  obtain ⟨a, b⟩ := c
  unfold candidates
  simp only [List.mem_flatMap, List.mem_map, Prod.mk.injEq]
  constructor
  · rintro ⟨y, hy, x, hx, rfl, rfl⟩
    constructor
    · by_cases h : ic + 1 ≤ nx
      · rw [if_pos h] at hx; simp at hx; omega
      · rw [if_neg h] at hx; simp at hx; omega
    · by_cases h : jc + 1 ≤ ny
      · rw [if_pos h] at hy; simp at hy; omega
      · rw [if_neg h] at hy; simp at hy; omega
  · rintro ⟨⟨a1, a2, a3⟩, b1, b2, b3⟩
    refine ⟨b, ?_, a, ?_, rfl, rfl⟩
    · by_cases h : jc + 1 ≤ ny
      · rw [if_pos h]; simp; omega
      · rw [if_neg h]; simp; omega
    · by_cases h : ic + 1 ≤ nx
      · rw [if_pos h]; simp; omega
      · rw [if_neg h]; simp; omega

/-- C122. The centre the search starts from is a corner of the cell `(ic, jc)` within the tile, and no other such corner is nearer to
the point. -/
theorem C122_nearest (nx ny ic jc : Nat) (g : Nat → Nat → Fin 3 → ℝ) (p : Fin 3 → ℝ) (hi : ic ≤ nx) (hj : jc ≤ ny) :
    (∃ i j, nearest nx ny g ic jc p = (i, j) ∧ (i = ic ∨ i = ic + 1) ∧ i ≤ nx ∧ (j = jc ∨ j = jc + 1) ∧ j ≤ ny ∧
      ∀ i' j', (i' = ic ∨ i' = ic + 1) → i' ≤ nx → (j' = jc ∨ j' = jc + 1) → j' ≤ ny →
        greatCircle (g i j) p ≤ greatCircle (g i' j') p) := by
  have key := fold_nearest (fun c => greatCircle (g c.1 c.2) p) (candidates nx ny ic jc) (Real.pi + Real.pi, 0, 0)
  obtain ⟨r, hr, h2, h3⟩ : ∃ r : ℝ × Nat × Nat, nearest nx ny g ic jc p = r.2 ∧
      (∀ c ∈ candidates nx ny ic jc, r.1 ≤ greatCircle (g c.1 c.2) p) ∧
      (r = (Real.pi + Real.pi, 0, 0) ∨ (r.2 ∈ candidates nx ny ic jc ∧ r.1 = greatCircle (g r.2.1 r.2.2) p)) :=
    ⟨_, rfl, key.2.1, key.2.2⟩
  have hm : (ic, jc) ∈ candidates nx ny ic jc := (mem_candidates nx ny ic jc (ic, jc) hi hj).2 (by simp; omega)
  rw [hr]
  rcases h3 with h3 | ⟨h3, h4⟩
  · exfalso
    have := h2 _ hm
    rw [h3] at this
    exact absurd (greatCircle_lt (g ic jc) p) (not_lt.2 this)
  · have h5 := (mem_candidates nx ny ic jc _ hi hj).1 h3
    refine ⟨r.2.1, r.2.2, rfl, by omega, h5.1.2.2, by omega, h5.2.2.2, ?_⟩
    intro i' j' a1 a2 b1 b2
    have := h2 (i', j') ((mem_candidates nx ny ic jc (i', j') hi hj).2 (by dsimp only; omega))
    rw [h4] at this
    exact this

/-! ### The search -/

/-- All tiles meet the conditions. -/
structure SettingOK (s : Setting) : Prop where
  eps : 0 < s.eps
  eps2 : s.eps ≤ 1 / 2
  tile : ∀ l < s.ntiles, TileOK s.eps s.nx s.ny (s.g l)

/-- What is recorded is right. -/
def GoodFound (s : Setting) (f : Found) : Prop :=
  ∀ n ic jc l, f n = some (ic, jc, l) → n < s.nxOut * s.nyOut ∧ l < s.ntiles ∧ ic ≤ s.nx ∧ jc ≤ s.ny ∧
    InCell s.nx s.ny (s.g l) ic jc (s.out n)

/-- `f'` has all entries of `f`. -/
def Ext (f f' : Found) : Prop := ∀ n r, f n = some r → f' n = some r

theorem Ext.refl (f : Found) : Ext f f := fun _ _ h => h
theorem Ext.trans {a b c : Found} (h : Ext a b) (k : Ext b c) : Ext a c := fun n r x => k n r (h n r x)

theorem mem_loop (r : Int × Int) (h : 1 ≤ r.1) (x : Nat) : x ∈ loop r ↔ r.1 - 1 ≤ (x : Int) ∧ (x : Int) < r.2 := by
  unfold loop
  simp only [List.mem_map, List.mem_range]
  constructor
  · rintro ⟨k, hk, rfl⟩; omega
  · rintro ⟨a, b⟩
    exact ⟨x - (r.1 - 1).toNat, by omega, by omega⟩

theorem jRange_low (s : Setting) (iter l jc ic : Nat) : 1 ≤ (jRange s iter l jc ic).1 := by
  unfold jRange; exact le_max_left _ _
theorem jRange_high (s : Setting) (iter l jc ic : Nat) : (jRange s iter l jc ic).2 ≤ s.nyOut := by
  unfold jRange; exact min_le_left _ _
theorem iRange_low (s : Setting) (iter l jc ic : Nat) : 1 ≤ (iRange s iter l jc ic).1 := by
  unfold iRange
  dsimp only
  by_cases h : (jRange s iter l jc ic).1 = 1 ∨ (jRange s iter l jc ic).2 = s.nyOut
  · rw [if_pos h]
  · rw [if_neg h]; exact le_max_left _ _
theorem iRange_high (s : Setting) (iter l jc ic : Nat) : (iRange s iter l jc ic).2 ≤ s.nxOut := by
  unfold iRange
  dsimp only
  by_cases h : (jRange s iter l jc ic).1 = 1 ∨ (jRange s iter l jc ic).2 = s.nyOut
  · rw [if_pos h]
  · rw [if_neg h]; exact min_le_left _ _

theorem points_lt (s : Setting) (iter l jc ic n : Nat) (h : n ∈ points s iter l jc ic) : n < s.nxOut * s.nyOut := by
  unfold points at h
  simp only [List.mem_flatMap, List.mem_map] at h
  obtain ⟨y, hy, x, hx, rfl⟩ := h
  have a := (mem_loop _ (jRange_low s iter l jc ic) y).1 hy
  have b := (mem_loop _ (iRange_low s iter l jc ic) x).1 hx
  have c := jRange_high s iter l jc ic
  have d := iRange_high s iter l jc ic
  have hy' : y + 1 ≤ s.nyOut := by omega
  have hx' : x < s.nxOut := by omega
  calc y * s.nxOut + x < y * s.nxOut + s.nxOut := by omega
    _ = (y + 1) * s.nxOut := by ring
    _ ≤ s.nyOut * s.nxOut := Nat.mul_le_mul_right _ hy'
    _ = s.nxOut * s.nyOut := Nat.mul_comm _ _

theorem visit_good {s : Setting} (ok : SettingOK s) {l jc ic : Nat} (hl : l < s.ntiles) (hj : 1 ≤ jc) (hj' : jc ≤ s.ny)
    (hi : 1 ≤ ic) (hi' : ic ≤ s.nx) {f : Found} (hf : GoodFound s f) {n0 : Nat} (hn : n0 < s.nxOut * s.nyOut) :
    GoodFound s (visit s l jc ic f n0) ∧ Ext f (visit s l jc ic f n0) := by
  unfold visit
  cases h : f n0 with
  | some r => exact ⟨hf, Ext.refl f⟩
  | none =>
    dsimp only
    constructor
    · intro n a b c hh
      dsimp only at hh
      by_cases e : n = n0
      · rw [if_pos e] at hh
        obtain ⟨i, j, hc, i1, i2, j1, j2, _⟩ := C122_nearest s.nx s.ny ic jc (s.g l) (s.out n0) hi' hj'
        rw [hc] at hh
        simp only [Option.map_eq_some_iff, Prod.mk.injEq] at hh
        obtain ⟨⟨x, y⟩, hx, rfl, rfl, rfl⟩ := hh
        obtain ⟨q1, q2, q3⟩ := C122_sound ok.eps ok.eps2 (ok.tile l hl) (by omega) i2 (by omega) j2 _ x y hx
        rw [e]
        exact ⟨hn, hl, q1, q2, q3⟩
      · rw [if_neg e] at hh; exact hf n a b c hh
    · intro n r hr
      have e : n ≠ n0 := by rintro rfl; rw [h] at hr; cases hr
      simp only [if_neg e]; exact hr

/-- A fold keeps what each step keeps. -/
theorem fold_good {s : Setting} {α : Type} (L : List α) (step : Found → α → Found)
    (hs : ∀ a ∈ L, ∀ f, GoodFound s f → GoodFound s (step f a) ∧ Ext f (step f a)) :
    ∀ f, GoodFound s f → GoodFound s (L.foldl step f) ∧ Ext f (L.foldl step f) := by
  induction L with
  | nil => intro f hf; exact ⟨hf, Ext.refl f⟩
  | cons a t ih =>
    intro f hf
    obtain ⟨h1, h2⟩ := hs a List.mem_cons_self f hf
    obtain ⟨h3, h4⟩ := ih (fun b hb => hs b (List.mem_cons_of_mem _ hb)) _ h1
    exact ⟨h3, h2.trans h4⟩

/-- A fold reaches what one step reaches. -/
theorem fold_reach {s : Setting} {α : Type} (L : List α) (step : Found → α → Found) (n : Nat)
    (hs : ∀ a ∈ L, ∀ f, GoodFound s f → GoodFound s (step f a) ∧ Ext f (step f a))
    (a : α) (ha : a ∈ L) (hr : ∀ f, GoodFound s f → ∃ r, step f a n = some r) :
    ∀ f, GoodFound s f → ∃ r, L.foldl step f n = some r := by
  induction L with
  | nil => cases ha
  | cons b t ih =>
    intro f hf
    obtain ⟨h1, _⟩ := hs b List.mem_cons_self f hf
    have hs' := fun c hc => hs c (List.mem_cons_of_mem b hc)
    rcases List.mem_cons.1 ha with rfl | ha
    · obtain ⟨r, hr⟩ := hr f hf
      exact ⟨r, (fold_good t step hs' _ h1).2 n r hr⟩
    · exact ih hs' ha _ h1

theorem cell_good {s : Setting} (ok : SettingOK s) (iter : Nat) {l : Nat} (hl : l < s.ntiles) {jj ii : Nat} (hj : jj < s.ny) (hi : ii < s.nx)
    (f : Found) (hf : GoodFound s f) :
    GoodFound s ((points s iter l (jj + 1) (ii + 1)).foldl (visit s l (jj + 1) (ii + 1)) f) ∧
      Ext f ((points s iter l (jj + 1) (ii + 1)).foldl (visit s l (jj + 1) (ii + 1)) f) :=
  fold_good _ _ (fun n hn f hf => visit_good ok hl (by omega) (by omega) (by omega) (by omega) hf
    (points_lt s iter l _ _ n hn)) f hf

theorem sweep_good {s : Setting} (ok : SettingOK s) (iter : Nat) (f : Found) (hf : GoodFound s f) :
    GoodFound s (sweep s iter f) ∧ Ext f (sweep s iter f) := by
  unfold sweep
  refine fold_good _ _ (fun l hl f hf => ?_) f hf
  refine fold_good _ _ (fun jj hj f hf => ?_) f hf
  refine fold_good _ _ (fun ii hi f hf => ?_) f hf
  exact cell_good ok iter (List.mem_range.1 hl) (List.mem_range.1 hj) (List.mem_range.1 hi) f hf

theorem rounds_good {s : Setting} (ok : SettingOK s) : ∀ (k iter : Nat) (f : Found), GoodFound s f →
    GoodFound s (rounds s k iter f) ∧ Ext f (rounds s k iter f) := by
  intro k
  induction k with
  | zero => intro _ f hf; exact ⟨hf, Ext.refl f⟩
  | succ k ih =>
    intro iter f hf
    obtain ⟨h1, h2⟩ := sweep_good ok iter f hf
    unfold rounds
    dsimp only
    by_cases h : iter > 1 ∧ allDone s (sweep s iter f) = true
    · rw [if_pos h]; exact ⟨h1, h2⟩
    · rw [if_neg h]
      obtain ⟨h3, h4⟩ := ih (iter + 1) _ h1
      exact ⟨h3, h2.trans h4⟩

/-- C122. Whatever the search records for an output point is right: the tile exists, the corners of the cell lie in the tile or its
halo, and the point is on the inner side of each side of the cell. Nothing is recorded for numbers that are not output points. -/
theorem C122_search (s : Setting) (ok : SettingOK s) (n ic jc l : Nat) (h : search s n = some (ic, jc, l)) :
    n < s.nxOut * s.nyOut ∧ l < s.ntiles ∧ ic ≤ s.nx ∧ jc ≤ s.ny ∧ InCell s.nx s.ny (s.g l) ic jc (s.out n) :=
  (rounds_good ok 10 1 (fun _ => none) (fun _ _ _ _ h => by cases h)).1 n ic jc l h

/-- From any corner of a cell that lies in the tile a point strictly inside the cell is found. -/
theorem closest_cell {eps : ℝ} {nx ny : Nat} {g : Nat → Nat → Fin 3 → ℝ} (he : 0 < eps) (he2 : eps ≤ 1 / 2) (ok : TileOK eps nx ny g)
    {ic jc i j : Nat} (hi : 1 ≤ ic) (hj : 1 ≤ jc) (hf : Four nx ny ic jc) {p : Fin 3 → ℝ} (hp : Inside g ic jc p)
    (i1 : i = ic ∨ i = ic + 1) (i2 : i ≤ nx) (j1 : j = jc ∨ j = jc + 1) (j2 : j ≤ ny) :
    closest eps nx ny g i j p = some (ic, jc) := by
  obtain ⟨h1, h2, h3, h4⟩ := C122_complete he he2 ok (i := i) (j := j) (by omega) i2 (by omega) j2 p
  rcases i1 with rfl | rfl <;> rcases j1 with rfl | rfl
  · exact h1 hf hp
  · exact h3 hf hp
  · exact h2 hf hp
  · exact h4 (by omega) (by omega) hp

theorem visit_reach {s : Setting} (ok : SettingOK s) {l jc ic : Nat} (hl : l < s.ntiles) (hj : 1 ≤ jc) (hj' : jc ≤ s.ny)
    (hi : 1 ≤ ic) (hi' : ic ≤ s.nx) {n : Nat} (hf : Four s.nx s.ny ic jc) (hp : Inside (s.g l) ic jc (s.out n)) (f : Found) :
    ∃ r, visit s l jc ic f n n = some r := by
  unfold visit
  cases h : f n with
  | some r => exact ⟨r, h⟩
  | none =>
    dsimp only
    obtain ⟨i, j, hc, i1, i2, j1, j2, _⟩ := C122_nearest s.nx s.ny ic jc (s.g l) (s.out n) hi' hj'
    rw [if_pos rfl, hc, closest_cell ok.eps ok.eps2 (ok.tile l hl) hi hj hf hp i1 i2 j1 j2]
    exact ⟨_, rfl⟩

theorem rounds_reach {s : Setting} (ok : SettingOK s) (n : Nat) (hn : n < s.nxOut * s.nyOut) (it : Nat)
    (hr : ∀ f, GoodFound s f → ∃ r, sweep s it f n = some r) : ∀ (k iter : Nat), iter ≤ it → it < iter + k → ∀ f, GoodFound s f →
    ∃ r, rounds s k iter f n = some r := by
  intro k
  induction k with
  | zero => intro iter h1 h2; omega
  | succ k ih =>
    intro iter h1 h2 f hf
    unfold rounds
    dsimp only
    have hg := (sweep_good ok iter f hf).1
    by_cases h : iter > 1 ∧ allDone s (sweep s iter f) = true
    · rw [if_pos h]
      have := List.all_eq_true.1 h.2 n (List.mem_range.2 hn)
      exact Option.isSome_iff_exists.1 this
    · rw [if_neg h]
      by_cases e : iter = it
      · subst e
        obtain ⟨r, hr⟩ := hr f hf
        exact ⟨r, (rounds_good ok k (iter + 1) _ hg).2 n r hr⟩
      · exact ih (iter + 1) (by omega) (by omega) _ hg

/-- C122. An output point strictly inside a cell of a tile is found, if it is among the points looked at for that cell in one of the
ten rounds. -/
theorem C122_found (s : Setting) (ok : SettingOK s) (iter l jc ic n : Nat) (h1 : 1 ≤ iter) (h10 : iter ≤ 10) (hl : l < s.ntiles)
    (hj : 1 ≤ jc) (hj' : jc ≤ s.ny) (hi : 1 ≤ ic) (hi' : ic ≤ s.nx) (hf : Four s.nx s.ny ic jc)
    (hn : n ∈ points s iter l jc ic) (hp : Inside (s.g l) ic jc (s.out n)) : ∃ r, search s n = some r := by
  refine rounds_reach ok n (points_lt s iter l jc ic n hn) iter ?_ 10 1 h1 (by omega) _ (fun _ _ _ _ h => by cases h)
  intro f hg
  unfold sweep
  have c1 : ∀ l' ∈ List.range s.ntiles, ∀ jj ∈ List.range s.ny, ∀ ii ∈ List.range s.nx, ∀ f, GoodFound s f →
      GoodFound s ((points s iter l' (jj + 1) (ii + 1)).foldl (visit s l' (jj + 1) (ii + 1)) f) ∧
      Ext f ((points s iter l' (jj + 1) (ii + 1)).foldl (visit s l' (jj + 1) (ii + 1)) f) := fun l' a jj b ii c f hf =>
    cell_good ok iter (List.mem_range.1 a) (List.mem_range.1 b) (List.mem_range.1 c) f hf
  refine fold_reach _ _ n (fun l' hl' f hf => fold_good _ _ (fun jj hj f hf => fold_good _ _ (fun ii hi f hf =>
    c1 l' hl' jj hj ii hi f hf) f hf) f hf) l (List.mem_range.2 hl) (fun f hf' => ?_) f hg
  refine fold_reach _ _ n (fun jj hj f hf => fold_good _ _ (fun ii hi f hf =>
    c1 l (List.mem_range.2 hl) jj hj ii hi f hf) f hf) (jc - 1) (List.mem_range.2 (by omega)) (fun f hf' => ?_) f hf'
  refine fold_reach _ _ n (fun ii hi f hf =>
    c1 l (List.mem_range.2 hl) (jc - 1) (List.mem_range.2 (by omega)) ii hi f hf) (ic - 1) (List.mem_range.2 (by omega)) (fun f hf' => ?_) f hf'
  rw [show jc - 1 + 1 = jc by omega, show ic - 1 + 1 = ic by omega]
  exact fold_reach _ _ n (fun m hm f hf => visit_good ok hl hj hj' hi hi' hf (points_lt s iter l jc ic m hm)) n hn
    (fun f _ => visit_reach ok hl hj hj' hi hi' hf hp f) f hf'

/-- C122. The rows looked at for a cell are all those whose centre is, in latitude, not farther from the corner `(ic, jc)` than the
diagonal of the cell. -/
theorem C122_rows (s : Setting) (iter l jc ic jo : Nat) (h1 : 1 ≤ iter) (hd : 0 < s.dlat) (hjo : jo < s.nyOut)
    (h : |s.latbegin + (jo + 1 / 2) * s.dlat - s.latt l ic jc| ≤ greatCircle (s.g l ic jc) (s.g l (ic + 1) (jc + 1))) :
    jo ∈ loop (jRange s iter l jc ic) := by
  rw [mem_loop _ (jRange_low s iter l jc ic)]
  unfold jRange
  dsimp only
  set D := greatCircle (s.g l ic jc) (s.g l (ic + 1) (jc + 1)) with hD
  have hD0 : 0 ≤ D := le_trans (abs_nonneg _) h
  have hit : (1 : ℝ) ≤ iter := by exact_mod_cast h1
  have hDi : D ≤ iter * D := by nlinarith
  obtain ⟨ha, hb⟩ := abs_le.1 h
  have x1 : (s.latt l ic jc - iter * D - s.latbegin) / s.dlat ≤ jo + 1 / 2 := by
    rw [div_le_iff₀ hd]; linarith
  have x2 : (jo : ℝ) + 1 / 2 ≤ (s.latt l ic jc + iter * D - s.latbegin) / s.dlat := by
    rw [le_div_iff₀ hd]; linarith
  have f1 : ⌊(s.latt l ic jc - iter * D - s.latbegin) / s.dlat⌋ ≤ jo := by
    have : ⌊(s.latt l ic jc - iter * D - s.latbegin) / s.dlat⌋ ≤ ⌊(jo : ℝ) + 1 / 2⌋ := Int.floor_le_floor x1
    have e : ⌊(jo : ℝ) + 1 / 2⌋ = (jo : Int) := by
      rw [Int.floor_eq_iff]; push_cast; constructor <;> linarith
    omega
  have f2 : (jo : Int) < ⌈(s.latt l ic jc + iter * D - s.latbegin) / s.dlat⌉ := by
    rw [Int.lt_ceil]; push_cast; linarith
  constructor
  · have : max (1 : Int) (⌊(s.latt l ic jc - iter * D - s.latbegin) / s.dlat⌋ - iter + 1) ≤ jo + 1 := by
      apply max_le <;> omega
    omega
  · apply lt_min <;> omega

/-! ### The parts of the global sweep -/

/-- C122, found wrong: `sort_index` is called with an array for `ntiles` integers and writes three per tile. -/
theorem C122_sort_size_wrong {K : Type} [LinearOrder K] (big : K) (ntiles : Nat) (h : 1 ≤ ntiles) (index : Nat → Int) (shortest : Nat → K) :
    sortIndex big ntiles ntiles index shortest = none := by
  unfold sortIndex
  rw [if_pos (by omega)]

/-- The nearest cells of two tiles, the second the nearer one. -/
def bsIndex : Nat → Int := fun n => [1, 2, 0, 3, 4, 1].getD n 0
def bsShort : Nat → Nat := fun n => [2, 1].getD n 0

/-- C122, found wrong: also with enough room the cells are not sorted. The entries that make room for a nearer cell are moved by one
place instead of by three, so the cell of the first tile, `(1, 2)` of tile 0, is not in the result. -/
theorem C122_sort_wrong : ((sortIndex 1000 6 2 bsIndex bsShort).map fun r => (List.range 6).map r.1) = some [3, 4, 1, 0, 0, 0] := by
  decide +kernel

/-! ### An example -/

/-- Centres on a plane: a tile of two by two cells with its halo. -/
def bsTile : Nat → Nat → Fin 3 → ℝ := fun i j => ![2 * i - 3, 2 * j - 3, 10]

/-- The numerator of the cosine and the squares of the factors of its denominator. -/
theorem bs_corner (a b c : Fin 3 → ℝ) (N P Q : ℝ) (h : 0 < det a b c)
    (hN : (a 1 * b 2 - a 2 * b 1) * (a 1 * c 2 - a 2 * c 1) + (a 2 * b 0 - a 0 * b 2) * (a 2 * c 0 - a 0 * c 2)
      + (a 0 * b 1 - a 1 * b 0) * (a 0 * c 1 - a 1 * c 0) = N)
    (hP : (a 1 * b 2 - a 2 * b 1) ^ 2 + (a 2 * b 0 - a 0 * b 2) ^ 2 + (a 0 * b 1 - a 1 * b 0) ^ 2 = P)
    (hQ : (a 1 * c 2 - a 2 * c 1) ^ 2 + (a 2 * c 0 - a 0 * c 2) ^ 2 + (a 0 * c 1 - a 1 * c 0) ^ 2 = Q)
    (h1 : 0 ≤ N ∨ 4 * N ^ 2 < P * Q) (h2 : 100 * N ^ 2 ≤ 81 * (P * Q)) (hPQ : 0 < P * Q) : Corner (1 / 10) a b c := by
  refine ⟨h, ?_, ?_⟩
  all_goals
    unfold cosAt
    rw [hN]
    have e : area a b * area a c = Real.sqrt (P * Q) := by
      unfold area
      rw [Real.sqrt_mul (by rw [← hP]; positivity), ← hP, ← hQ]
    rw [e]
    have hs := Real.sqrt_pos.2 hPQ
    have hq := Real.sq_sqrt hPQ.le
  · rw [lt_div_iff₀ hs]
    rcases h1 with h1 | h1
    · linarith
    · by_contra hh
      have : Real.sqrt (P * Q) ≤ -(2 * N) := by linarith
      nlinarith
  · rw [div_le_iff₀ hs]
    by_contra hh
    have : (9 / 10) * Real.sqrt (P * Q) < N := by linarith
    nlinarith

theorem bs_ok : TileOK (1 / 10) 2 2 bsTile := by
  constructor
  case sw | se | ne | nw =>
    intro i j hi hj hf
    have hf' := hf
    unfold Four at hf'
    refine bs_corner _ _ _ _ _ _ ?_ rfl rfl rfl ?_ ?_ ?_ <;> interval_cases i <;> interval_cases j <;> simp at hf' <;>
      simp [det, bsTile] <;> norm_num
  case swTri => simp [det, bsTile]; norm_num
  all_goals
    refine bs_corner _ _ _ _ _ _ ?_ rfl rfl rfl ?_ ?_ ?_ <;> simp [det, bsTile] <;> norm_num

/-- One output point, at the middle of the tile. -/
noncomputable def bsSet : Setting := ⟨1 / 10, 1, 2, 2, 1, 1, fun _ => bsTile, fun _ _ _ => 1 / 2, fun _ _ _ => 1 / 2, fun _ => ![0, 0, 1], 1, 1, 0, 0⟩

theorem bs_set_ok : SettingOK bsSet := ⟨by norm_num [bsSet], by norm_num [bsSet], fun _ _ => bs_ok⟩

theorem bs_inside : Inside bsTile 1 1 ![0, 0, 1] := by
  unfold Inside
  refine ⟨?_, ?_, ?_, ?_⟩ <;> simp [det, bsTile] <;> norm_num

/-- The upper right of the four cells around the centre `(1, 1)`, the lower left of those around `(2, 2)`. -/
example : closest (1 / 10) 2 2 bsTile 1 1 ![0, 0, 1] = some (1, 1) ∧ closest (1 / 10) 2 2 bsTile 2 2 ![0, 0, 1] = some (1, 1) :=
  ⟨(C122_complete (by norm_num) (by norm_num) bs_ok (by omega) (by omega) (by omega) (by omega) _).1 (by unfold Four; omega) bs_inside,
    (C122_complete (i := 2) (j := 2) (by norm_num) (by norm_num) bs_ok (by omega) (by omega) (by omega) (by omega) _).2.2.2
      (by omega) (by omega) bs_inside⟩

theorem bs_points : 0 ∈ points bsSet 1 0 1 1 := by
  have hr := C122_rows bsSet 1 0 1 1 0 (le_refl _) (by norm_num [bsSet]) (by norm_num [bsSet]) (by
    have : (0 : ℝ) ≤ greatCircle (bsSet.g 0 1 1) (bsSet.g 0 (1 + 1) (1 + 1)) := Real.arccos_nonneg _
    refine le_trans (le_of_eq ?_) this
    norm_num [bsSet])
  have h1 := (mem_loop _ (jRange_low bsSet 1 0 1 1) 0).1 hr
  have h2 := jRange_low bsSet 1 0 1 1
  have hi : iRange bsSet 1 0 1 1 = (1, 1) := by
    unfold iRange
    dsimp only
    rw [if_pos (Or.inl (by omega))]
    rfl
  unfold points
  simp only [List.mem_flatMap, List.mem_map]
  refine ⟨0, hr, 0, ?_, rfl⟩
  rw [hi, mem_loop _ (by omega)]
  norm_num

example : ∃ r, search bsSet 0 = some r :=
  C122_found bsSet bs_set_ok 1 0 1 1 0 (by omega) (by omega) (by decide) (by omega) (by decide) (by omega) (by decide)
    (by unfold Four; decide) bs_points bs_inside

end Verif
