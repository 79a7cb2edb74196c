import Verif.Props.HydrogIter
import Verif.Lemmas.HydrogCross
/-
C105: crossing rivers in rmv_parallel_rivers.
-/
namespace Verif.Hydrog

open Spec.Hydrog

/-- What is reported as crossing: exactly the pairs of neighbours inside a tile that flow along the two diagonals of one square, each
pair once, the lower or left cell first. The halo of the network is missing, as it is after the iterations. -/
theorem C105_crossings {g : Grid} {toc : Pos → Int} (hout : ∀ p, ¬ g.inside p → toc p = mval) (p q : Pos) :
    (p, q) ∈ crossings g toc ↔ Cross g toc p q ∧ (q = ⟨p.x, p.y + 1, p.n⟩ ∨ q = ⟨p.x + 1, p.y, p.n⟩) := by
  rw [mem_crossings hout]
  constructor
  · rintro ⟨hp, hq, h | h⟩
    · obtain ⟨rfl, h⟩ := h
      refine ⟨⟨hp, hq, rfl, by simp, ?_⟩, .inl rfl⟩
      rcases h with ⟨h1, h2⟩ | ⟨h1, h2⟩
      · exact ⟨(1, 1), (1, -1), by rw [h1]; decide, by rw [h2]; decide, by decide, by decide, by decide, by decide, rfl, by dsimp only; omega⟩
      · exact ⟨(-1, 1), (-1, -1), by rw [h1]; decide, by rw [h2]; decide, by decide, by decide, by decide, by decide, rfl,
          by dsimp only; omega⟩
    · obtain ⟨rfl, h⟩ := h
      refine ⟨⟨hp, hq, rfl, by simp, ?_⟩, .inr rfl⟩
      rcases h with ⟨h1, h2⟩ | ⟨h1, h2⟩
      · exact ⟨(1, -1), (-1, -1), by rw [h1]; decide, by rw [h2]; decide, by decide, by decide, by decide, by decide,
          by dsimp only; omega, rfl⟩
      · exact ⟨(1, 1), (-1, 1), by rw [h1]; decide, by rw [h2]; decide, by decide, by decide, by decide, by decide,
          by dsimp only; omega, rfl⟩
  · rintro ⟨⟨hp, hq, -, -, e, f, h1, h2, h3, h4, h5, h6, h7, h8⟩, h⟩
    refine ⟨hp, hq, ?_⟩
    have he := dirs_diag h1 h3 h4
    have hf := dirs_diag h2 h5 h6
    rcases h with rfl | rfl
    · refine .inl ⟨rfl, ?_⟩
      rcases he with ⟨rfl, he⟩ | ⟨rfl, he⟩ | ⟨rfl, he⟩ | ⟨rfl, he⟩ <;> rcases hf with ⟨rfl, hf⟩ | ⟨rfl, hf⟩ | ⟨rfl, hf⟩ | ⟨rfl, hf⟩ <;>
        first | (exfalso; dsimp only at h7 h8; omega) | exact .inl ⟨he, hf⟩ | exact .inr ⟨he, hf⟩
    · refine .inr ⟨rfl, ?_⟩
      rcases he with ⟨rfl, he⟩ | ⟨rfl, he⟩ | ⟨rfl, he⟩ | ⟨rfl, he⟩ <;> rcases hf with ⟨rfl, hf⟩ | ⟨rfl, hf⟩ | ⟨rfl, hf⟩ | ⟨rfl, hf⟩ <;>
        first | (exfalso; dsimp only at h7 h8; omega) | exact .inl ⟨he, hf⟩ | exact .inr ⟨he, hf⟩

theorem _root_.Verif.Spec.Hydrog.Cross.symm {g : Grid} {toc : Pos → Int} {p q : Pos} (h : Cross g toc p q) : Cross g toc q p := by
  obtain ⟨h1, h2, h3, h4, e, f, k1, k2, k3, k4, k5, k6, k7, k8⟩ := h
  refine ⟨h2, h1, h3.symm, ?_, f, e, k2, k1, k5, k6, k3, k4, k7.symm, k8.symm⟩
  rw [abs_sub_comm q.x, abs_sub_comm q.y]
  exact h4

/-- The four cells of the square -/
theorem cross_square {g : Grid} {toc : Pos → Int} {p q : Pos} (h : Cross g toc p q) :
    ∃ e f, (e, toc p) ∈ dirs ∧ (f, toc q) ∈ dirs ∧ (e.1 = 1 ∨ e.1 = -1) ∧ (e.2 = 1 ∨ e.2 = -1) ∧
      ((q = p.move (e.1, 0) ∧ q.move f = p.move (0, e.2)) ∨ (q = p.move (0, e.2) ∧ q.move f = p.move (e.1, 0))) := by
  obtain ⟨h1, h2, h3, h4, e, f, k1, k2, k3, k4, k5, k6, k7, k8⟩ := h
  obtain ⟨x, y, n⟩ := p
  obtain ⟨x', y', n'⟩ := q
  obtain ⟨a, b⟩ := e
  obtain ⟨a', b'⟩ := f
  have u := dirs_unit k1
  have u' := dirs_unit k2
  dsimp only at *
  subst h3
  refine ⟨(a, b), (a', b'), k1, k2, by dsimp only; omega, by dsimp only; omega, ?_⟩
  unfold Pos.move
  simp only [Pos.mk.injEq, and_true]
  have hx : |x - x'| = 0 ∨ |y - y'| = 0 := by
    have := abs_nonneg (x - x')
    have := abs_nonneg (y - y')
    omega
  rcases hx with hx | hx
  · right
    rw [hx] at h4
    rw [abs_eq_zero] at hx
    rcases abs_cases (y - y') with ⟨h, _⟩ | ⟨h, _⟩ <;> omega
  · left
    rw [hx] at h4
    rw [abs_eq_zero] at hx
    rcases abs_cases (x - x') with ⟨h, _⟩ | ⟨h, _⟩ <;> omega

theorem C105_complete {g : Grid} {toc : Pos → Int} (hout : ∀ p, ¬ g.inside p → toc p = mval) {p q : Pos} (h : Cross g toc p q) :
    (p, q) ∈ crossings g toc ∨ (q, p) ∈ crossings g toc := by
  obtain ⟨e, f, -, -, h1, h2, h3⟩ := cross_square h
  rw [C105_crossings hout, C105_crossings hout]
  have hs := h.symm
  have hq : q = ⟨p.x, p.y + 1, p.n⟩ ∨ q = ⟨p.x + 1, p.y, p.n⟩ ∨ p = ⟨q.x, q.y + 1, q.n⟩ ∨ p = ⟨q.x + 1, q.y, q.n⟩ := by
    obtain ⟨x, y, n⟩ := p
    obtain ⟨x', y', n'⟩ := q
    unfold Pos.move at h3
    simp only [Pos.mk.injEq] at h3 ⊢
    omega
  rcases hq with hq | hq | hq | hq
  · exact .inl ⟨h, .inl hq⟩
  · exact .inl ⟨h, .inr hq⟩
  · exact .inr ⟨hs, .inl hq⟩
  · exact .inr ⟨hs, .inr hq⟩

theorem wrap_inside {g : Grid} {p : Pos} (hp : g.inside p) : wrap g p = p := by
  have h := source_wrap (h := 2) (by decide) hp (e := (0, 0)) (by decide) (by
    right
    unfold Corner Pos.move
    unfold Grid.inside at hp
    dsimp only
    omega)
  have h0 : p.move (0, 0) = p := by simp [Pos.move]
  rw [h0, source_inside hp] at h
  exact h.symm

variable {R : Type} [Field R] [LinearOrder R] [IsStrictOrderedRing R]

theorem consistent_grow {g : Grid} {w : Pos → R} {s : Net R} (hs : Consistent g w s)
    (hw : ∀ c, g.inside c → s.toc c ≠ mval → 0 < w c) {p : Pos} (hp : g.inside p) {e : Int × Int} (he : (e, s.toc p) ∈ dirs)
    (hz : s.toc p ≠ 0) : 0 ≤ s.sub p ∧ s.sub p < s.sub (wrap g (p.move e)) := by
  have hm : s.toc p ≠ mval := fun h => dirs_mval (h ▸ he)
  obtain ⟨e', he', -, -, h1, h2⟩ := consistent_next hs hw hp hm hz
  rw [dirs_inj he he']
  exact ⟨h1, h2⟩

theorem cross_ne_zero {g : Grid} {toc : Pos → Int} {p q : Pos} (h : Cross g toc p q) : toc p ≠ 0 := by
  obtain ⟨e, f, h1, -, h2, -⟩ := cross_square h
  intro h0
  have := (dirs_zero h1).mpr h0
  subst this
  simp at h2

/-- A river crosses one other river at most -/
theorem cross_unique {g : Grid} {w : Pos → R} {s : Net R} (hs : Consistent g w s)
    (hw : ∀ c, g.inside c → s.toc c ≠ mval → 0 < w c) {p q r : Pos} (hq : Cross g s.toc p q) (hr : Cross g s.toc p r) : q = r := by
  obtain ⟨e, f, h1, h2, h3, h4, h5⟩ := cross_square hq
  obtain ⟨e', f', k1, k2, -, -, k5⟩ := cross_square hr
  have := dirs_inj h1 k1
  subst this
  have key : ∀ q r f f', g.inside q → g.inside r → (f, s.toc q) ∈ dirs → (f', s.toc r) ∈ dirs → s.toc q ≠ 0 → s.toc r ≠ 0 →
      q.move f = r → r.move f' = q → False := by
    intro q r f f' hq hr hf hf' hz hz' h h'
    have g1 := (consistent_grow hs hw hq hf hz).2
    have g2 := (consistent_grow hs hw hr hf' hz').2
    rw [h, wrap_inside hr] at g1
    rw [h', wrap_inside hq] at g2
    exact absurd (g1.trans g2) (lt_irrefl _)
  rcases h5 with ⟨h5, h6⟩ | ⟨h5, h6⟩ <;> rcases k5 with ⟨k5, k6⟩ | ⟨k5, k6⟩
  · rw [h5, k5]
  · exact absurd (key q r f f' hq.2.1 hr.2.1 h2 k2 (cross_ne_zero hq.symm) (cross_ne_zero hr.symm) (h6.trans k5.symm) (k6.trans h5.symm))
      id
  · exact absurd (key q r f f' hq.2.1 hr.2.1 h2 k2 (cross_ne_zero hq.symm) (cross_ne_zero hr.symm) (h6.trans k5.symm) (k6.trans h5.symm))
      id
  · rw [h5, k5]

theorem cross_ne {g : Grid} {toc : Pos → Int} {p q : Pos} (h : Cross g toc p q) : p ≠ q := by
  rintro rfl
  have := h.2.2.2.1
  simp at this

/-- The values after the correction -/
theorem fix_pair {g : Grid} {w : Pos → R} {s : Net R} (hs : Consistent g w s)
    (hw : ∀ c, g.inside c → s.toc c ≠ mval → 0 < w c) {p q : Pos} (h : (p, q) ∈ crossings g s.toc) :
    fixCrossings g s.sub s.toc p = fixOne s.sub s.toc (p, q) p ∧ fixCrossings g s.sub s.toc q = fixOne s.sub s.toc (p, q) q := by
  have hc := (C105_crossings hs.outside p q).mp h
  obtain ⟨h1, h2⟩ := fixAll_pair (sub := s.sub) (cross_ne hc.1) (crossings g s.toc) s.toc (by
    rintro ⟨p', q'⟩ hx
    have hc' := (C105_crossings hs.outside p' q').mp hx
    by_cases hpq : (p', q') = (p, q)
    · exact .inl hpq
    · right
      refine ⟨?_, ?_, ?_, ?_⟩
      · rintro rfl
        exact hpq (by rw [cross_unique hs hw hc.1 hc'.1])
      · rintro rfl
        have := cross_unique hs hw hc.1 hc'.1.symm
        subst this
        have a1 := hc.2
        have a2 := hc'.2
        obtain ⟨x, y, n⟩ := p
        obtain ⟨x', y', n'⟩ := q
        simp only [Pos.mk.injEq] at a1 a2
        omega
      · rintro rfl
        have := cross_unique hs hw hc.1.symm hc'.1
        subst this
        have a1 := hc.2
        have a2 := hc'.2
        obtain ⟨x, y, n⟩ := p
        obtain ⟨x', y', n'⟩ := q
        simp only [Pos.mk.injEq] at a1 a2
        omega
      · rintro rfl
        exact hpq (by rw [cross_unique hs hw hc.1.symm hc'.1.symm]))
  rw [if_pos h] at h1 h2
  exact ⟨h1, h2⟩

/-- The correction of crossing rivers. `e` and `f` are the steps of two crossing rivers at `p` and `q`. If the cell to which `q` flows has
the larger area, then `p` is led to this cell and `q` is kept. If the areas are the same, both are kept. All other cells are
kept. -/
theorem C105_fix {g : Grid} {w : Pos → R} {s : Net R} (hs : Consistent g w s)
    (hw : ∀ c, g.inside c → s.toc c ≠ mval → 0 < w c) :
    (∀ p q e f, Cross g s.toc p q → (e, s.toc p) ∈ dirs → (f, s.toc q) ∈ dirs → s.sub (p.move e) < s.sub (q.move f) →
      fixCrossings g s.sub s.toc q = s.toc q ∧
      ∃ e', (e', fixCrossings g s.sub s.toc p) ∈ dirs ∧ p.move e' = q.move f ∧ e' ≠ (0, 0) ∧ (e'.1 = 0 ∨ e'.2 = 0)) ∧
    (∀ p q e f, Cross g s.toc p q → (e, s.toc p) ∈ dirs → (f, s.toc q) ∈ dirs → s.sub (p.move e) = s.sub (q.move f) →
      fixCrossings g s.sub s.toc p = s.toc p) ∧
    (∀ p, (∀ q, ¬ Cross g s.toc p q) → fixCrossings g s.sub s.toc p = s.toc p) := by
  refine ⟨?_, ?_, ?_⟩
  · intro p q e f hc he hf hlt
    obtain ⟨e0, f0, k1, k2, k3, k4, k5⟩ := cross_square hc
    have := dirs_inj he k1
    subst this
    have := dirs_inj hf k2
    subst this
    have hne := cross_ne hc
    have hv : ∃ e' d, (e', d) ∈ dirs ∧ p.move e' = q.move f ∧ e' ≠ (0, 0) ∧ (e'.1 = 0 ∨ e'.2 = 0) := by
      obtain ⟨a, b⟩ := e
      dsimp only at k3 k4 k5
      rcases k5 with ⟨-, k6⟩ | ⟨-, k6⟩
      · rcases k4 with rfl | rfl
        · exact ⟨(0, 1), 64, by decide, k6.symm, by decide, by decide⟩
        · exact ⟨(0, -1), 4, by decide, k6.symm, by decide, by decide⟩
      · rcases k3 with rfl | rfl
        · exact ⟨(1, 0), 1, by decide, k6.symm, by decide, by decide⟩
        · exact ⟨(-1, 0), 16, by decide, k6.symm, by decide, by decide⟩
    obtain ⟨e', d, v1, v2, v3, v4⟩ := hv
    have hd : dirTo p (q.move f) = some d := by
      rw [← v2]
      exact dirTo_move v1
    have hl : lead s.toc p (q.move f) = Function.update s.toc p d := by
      unfold lead
      rw [hd]
    have hp' : lead s.toc p (q.move f) p = d := by rw [hl, Function.update_self]
    have hq' : lead s.toc p (q.move f) q = s.toc q := lead_other hne.symm
    have hval : fixCrossings g s.sub s.toc p = d ∧ fixCrossings g s.sub s.toc q = s.toc q := by
      rcases C105_complete hs.outside hc with h | h
      · obtain ⟨i1, i2⟩ := fix_pair hs hw h
        rw [i1, i2, fixOne_eq (offset_iff.mpr he) (offset_iff.mpr hf), if_pos hlt]
        exact ⟨hp', hq'⟩
      · obtain ⟨i1, i2⟩ := fix_pair hs hw h
        rw [i1, i2, fixOne_eq (offset_iff.mpr hf) (offset_iff.mpr he), if_neg (not_lt.mpr hlt.le), if_pos hlt]
        exact ⟨hp', hq'⟩
    refine ⟨hval.2, e', ?_, v2, v3, v4⟩
    rw [hval.1]
    exact v1
  · intro p q e f hc he hf heq
    have hn : ¬ s.sub (p.move e) < s.sub (q.move f) := by rw [heq]; exact lt_irrefl _
    have hn' : ¬ s.sub (q.move f) < s.sub (p.move e) := by rw [heq]; exact lt_irrefl _
    rcases C105_complete hs.outside hc with h | h
    · rw [(fix_pair hs hw h).1, fixOne_eq (offset_iff.mpr he) (offset_iff.mpr hf), if_neg hn, if_neg hn']
    · rw [(fix_pair hs hw h).2, fixOne_eq (offset_iff.mpr hf) (offset_iff.mpr he), if_neg hn', if_neg hn]
  · intro p hc
    refine fixAll_other _ _ ?_
    rintro ⟨a, b⟩ hx
    have hx := ((C105_crossings hs.outside a b).mp hx).1
    refine ⟨?_, ?_⟩
    · rintro rfl
      exact hc b hx
    · rintro rfl
      exact hc a hx.symm

/-- Every cell is either kept, or it was led to the cell of the river that it crossed -/
theorem fix_cases {g : Grid} {w : Pos → R} {s : Net R} (hs : Consistent g w s)
    (hw : ∀ c, g.inside c → s.toc c ≠ mval → 0 < w c) (p : Pos) : fixCrossings g s.sub s.toc p = s.toc p ∨
      ∃ q e f e', Cross g s.toc p q ∧ (e, s.toc p) ∈ dirs ∧ (f, s.toc q) ∈ dirs ∧ s.sub (p.move e) < s.sub (q.move f) ∧
        (e', fixCrossings g s.sub s.toc p) ∈ dirs ∧ p.move e' = q.move f ∧ e' ≠ (0, 0) ∧ (e'.1 = 0 ∨ e'.2 = 0) := by
  obtain ⟨h1, h2, h3⟩ := C105_fix hs hw
  by_cases hc : ∃ q, Cross g s.toc p q
  · obtain ⟨q, hc⟩ := hc
    obtain ⟨e, f, he, hf, -⟩ := cross_square hc
    rcases lt_trichotomy (s.sub (p.move e)) (s.sub (q.move f)) with h | h | h
    · obtain ⟨-, e', k⟩ := h1 p q e f hc he hf h
      exact .inr ⟨q, e, f, e', hc, he, hf, h, k⟩
    · exact .inl (h2 p q e f hc he hf h)
    · exact .inl (h1 q p f e hc.symm hf he h).1
  · exact .inl (h3 p fun q h => hc ⟨q, h⟩)

/-- The crossings that remain are those with the same area in both cells to which the rivers flow, and no new ones. -/
theorem C105_remaining {g : Grid} {w : Pos → R} {s : Net R} (hs : Consistent g w s)
    (hw : ∀ c, g.inside c → s.toc c ≠ mval → 0 < w c) (p q : Pos) :
    Cross g (fixCrossings g s.sub s.toc) p q ↔
      Cross g s.toc p q ∧ ∀ e f, (e, s.toc p) ∈ dirs → (f, s.toc q) ∈ dirs → s.sub (p.move e) = s.sub (q.move f) := by
  have hkeep : ∀ p q, Cross g (fixCrossings g s.sub s.toc) p q → fixCrossings g s.sub s.toc p = s.toc p := by
    intro p q h
    rcases fix_cases hs hw p with h' | ⟨-, -, -, e', -, -, -, -, k1, -, -, k2⟩
    · exact h'
    · obtain ⟨e, -, k3, -, k4, k5, -⟩ := cross_square h
      have := dirs_inj k1 k3
      subst this
      omega
  have hcongr : ∀ {toc toc' : Pos → Int}, toc p = toc' p → toc q = toc' q → Cross g toc p q → Cross g toc' p q := by
    intro toc toc' h h' hc
    unfold Cross at hc ⊢
    rwa [h, h'] at hc
  constructor
  · intro h
    have hp := hkeep p q h
    have hq := hkeep q p h.symm
    have hc : Cross g s.toc p q := hcongr hp hq h
    refine ⟨hc, ?_⟩
    intro e f he hf
    obtain ⟨e1, f1, he1, hf1, c1, c2, -⟩ := cross_square hc
    obtain ⟨f2, -, hf2, -, c3, c4, -⟩ := cross_square hc.symm
    rw [dirs_inj he1 he] at c1 c2
    rw [dirs_inj hf2 hf] at c3 c4
    rcases lt_trichotomy (s.sub (p.move e)) (s.sub (q.move f)) with h' | h' | h'
    · obtain ⟨-, e', k1, -, -, k2⟩ := (C105_fix hs hw).1 p q e f hc he hf h'
      rw [hp] at k1
      have := dirs_inj k1 he
      subst this
      omega
    · exact h'
    · obtain ⟨-, e', k1, -, -, k2⟩ := (C105_fix hs hw).1 q p f e hc.symm hf he h'
      rw [hq] at k1
      have := dirs_inj k1 hf
      subst this
      omega
  · rintro ⟨hc, h⟩
    obtain ⟨e, f, he, hf, -⟩ := cross_square hc
    have heq := h e f he hf
    exact hcongr ((C105_fix hs hw).2.1 p q e f hc he hf heq).symm ((C105_fix hs hw).2.1 q p f e hc.symm hf he heq.symm).symm hc

/-- After the correction all rivers still end in an outlet. -/
theorem C105_drains {g : Grid} {w : Pos → R} {s : Net R} (hs : Consistent g w s)
    (hw : ∀ c, g.inside c → s.toc c ≠ mval → 0 < w c) :
    Drains g (fixCrossings g s.sub s.toc) ∧
    (∀ p, fixCrossings g s.sub s.toc p = mval ↔ s.toc p = mval) ∧ (∀ p, fixCrossings g s.sub s.toc p = 0 ↔ s.toc p = 0) := by
  have hm : ∀ p, fixCrossings g s.sub s.toc p = mval ↔ s.toc p = mval := by
    intro p
    rcases fix_cases hs hw p with h | ⟨q, e, f, e', hc, k1, -, -, k2, -⟩
    · rw [h]
    · exact ⟨fun h => absurd (h ▸ k2) dirs_mval, fun h => absurd (h ▸ k1) dirs_mval⟩
  have hz : ∀ p, fixCrossings g s.sub s.toc p = 0 ↔ s.toc p = 0 := by
    intro p
    rcases fix_cases hs hw p with h | ⟨q, e, f, e', hc, k1, -, -, k2, -, k3, -⟩
    · rw [h]
    · exact ⟨fun h => absurd ((dirs_zero k2).mpr h) k3, fun h => absurd h (cross_ne_zero hc)⟩
  refine ⟨?_, hm, hz⟩
  have hout : ∀ c, ¬ g.inside c → s.sub c = (mval : R) := by
    intro c hc
    rw [hs.area, if_pos (hs.outside c hc)]
  have hends := ends_of_lt (toc := fixCrossings g s.sub s.toc) s.sub (by
    intro p hp hpm hpz
    have hpm' := fun h => hpm ((hm p).mpr h)
    have hpz' := fun h => hpz ((hz p).mpr h)
    rcases fix_cases hs hw p with h | ⟨q, e, f, e', hc, k1, k2, k3, k4, k5, -⟩
    · obtain ⟨e, he, -, -, i1, i2⟩ := consistent_next hs hw hp hpm' hpz'
      obtain ⟨j1, j2⟩ := consistent_sub hs (i1.trans i2.le)
      exact ⟨_, ⟨hpz, e, by rw [h]; exact he, rfl⟩, j1, fun h => j2 ((hm _).mp h), i2⟩
    · have hgrow := consistent_grow hs hw hp k1 hpz'
      by_cases hi : g.inside (p.move e)
      · rw [wrap_inside hi] at hgrow
        have hlt := hgrow.2.trans k3
        obtain ⟨j1, j2⟩ := consistent_sub hs (hgrow.1.trans hlt.le)
        refine ⟨q.move f, ⟨hpz, e', k4, ?_⟩, j1, fun h => j2 ((hm _).mp h), hlt⟩
        rw [k5, wrap_inside j1]
      · have hi' : ¬ g.inside (q.move f) := by
          intro hi'
          apply hi
          obtain ⟨e1, f1, c1, c2, -, -, c5⟩ := cross_square hc
          have := dirs_inj k1 c1
          subst this
          have := dirs_inj k2 c2
          subst this
          have hq := hc.2.1
          rcases c5 with ⟨c5, c6⟩ | ⟨c5, c6⟩
          · rw [c6] at hi'
            rw [c5] at hq
            unfold Grid.inside Pos.move at *
            dsimp only at *
            omega
          · rw [c6] at hi'
            rw [c5] at hq
            unfold Grid.inside Pos.move at *
            dsimp only at *
            omega
        rw [hout _ hi, hout _ hi'] at k3
        exact absurd k3 (lt_irrefl _))
  intro c hc hcm
  obtain ⟨k, o, -, ho⟩ := hends c hc hcm
  exact ⟨k, o, ho⟩

/-! ### Cases, and what is not done -/

/-- (1,1) and (2,1) flow along the two diagonals; (3,2) flows to (2,2) -/
def crossToc (p : Pos) : Int :=
  if p = ⟨1, 1, 1⟩ then 128 else if p = ⟨2, 1, 1⟩ then 32 else if p = ⟨3, 2, 1⟩ then 16
  else if p = ⟨1, 2, 1⟩ ∨ p = ⟨2, 2, 1⟩ then 0 else mval

/-- A network for the theorems above, with a crossing -/
example : ∃ s : Net ℚ, Consistent ⟨1, 4, 3⟩ ((⟨fun _ => 1, false⟩ : Areas ℚ).weight s.lfr) s ∧
    (∀ c, 0 < (⟨fun _ => 1, false⟩ : Areas ℚ).weight s.lfr c) ∧ Cross ⟨1, 4, 3⟩ s.toc ⟨1, 1, 1⟩ ⟨2, 1, 1⟩ := by
  have n1 : Next ⟨1, 4, 3⟩ crossToc ⟨1, 1, 1⟩ ⟨2, 2, 1⟩ := ⟨by decide, (1, 1), by decide, by decide⟩
  have n2 : Next ⟨1, 4, 3⟩ crossToc ⟨2, 1, 1⟩ ⟨1, 2, 1⟩ := ⟨by decide, (-1, 1), by decide, by decide⟩
  have n3 : Next ⟨1, 4, 3⟩ crossToc ⟨3, 2, 1⟩ ⟨2, 2, 1⟩ := ⟨by decide, (-1, 0), by decide, by decide⟩
  have hm : ∀ c, crossToc c ≠ mval → c = ⟨1, 1, 1⟩ ∨ c = ⟨2, 1, 1⟩ ∨ c = ⟨3, 2, 1⟩ ∨ c = ⟨1, 2, 1⟩ ∨ c = ⟨2, 2, 1⟩ := by
    intro c hc
    unfold crossToc at hc
    split_ifs at hc <;> tauto
  obtain ⟨f, hf⟩ := C103_start (g := ⟨1, 4, 3⟩) (⟨fun _ => 1, false⟩ : Areas ℚ) (toc := crossToc) (fun _ => 1) (by
    intro c hc h
    rcases hm c h with rfl | rfl | rfl | rfl | rfl
    · exact ⟨1, _, .step n1 (.here _), by decide, by decide⟩
    · exact ⟨1, _, .step n2 (.here _), by decide, by decide⟩
    · exact ⟨1, _, .step n3 (.here _), by decide, by decide⟩
    · exact ⟨0, _, .here _, by decide, by decide⟩
    · exact ⟨0, _, .here _, by decide, by decide⟩) (by
    intro p hp
    by_contra h
    apply hp
    rcases hm p h with rfl | rfl | rfl | rfl | rfl <;> decide) (.inl rfl)
  obtain ⟨t, -, h1, h2, h3⟩ := hf f le_rfl
  refine ⟨netOf ⟨1, 4, 3⟩ ⟨fun _ => 1, false⟩ t, ?_, ?_, ?_⟩
  · rw [h2]
    exact h3
  · intro c
    simp [Areas.weight]
  · rw [h1]
    exact ⟨by decide, by decide, rfl, by decide, (1, 1), (-1, 1), by decide, by decide, by decide, by decide, by decide, by decide,
      by decide, by decide⟩

/-- A crossing that is found and corrected, but the areas that are written belong to the network before the correction: at (2,2) the
area is 3, and with the corrected network it would be 4. Travel and basins are not computed again either. -/
theorem C105_stale_wrong : ∃ t t' : State ℚ, ∃ a : Areas ℚ, ∃ lfr,
    follow ⟨1, 4, 3⟩ a 5 crossToc lfr = some t ∧ (∀ c, 0 < a.weight lfr c) ∧
    crossings ⟨1, 4, 3⟩ crossToc = [(⟨1, 1, 1⟩, ⟨2, 1, 1⟩)] ∧
    crossings ⟨1, 4, 3⟩ (fixCrossings ⟨1, 4, 3⟩ (blank t).suba crossToc) = [] ∧
    follow ⟨1, 4, 3⟩ a 5 (fixCrossings ⟨1, 4, 3⟩ (blank t).suba crossToc) lfr = some t' ∧
    (blank t).suba ⟨2, 2, 1⟩ = 3 ∧ (blank t').suba ⟨2, 2, 1⟩ = 4 := by
  have h0 : (follow ⟨1, 4, 3⟩ ⟨fun _ => (1 : ℚ), false⟩ 5 crossToc (fun _ => 1)).bind (fun t =>
      (follow ⟨1, 4, 3⟩ ⟨fun _ => (1 : ℚ), false⟩ 5 (fixCrossings ⟨1, 4, 3⟩ (blank t).suba crossToc) (fun _ => 1)).map fun t' =>
      (crossings ⟨1, 4, 3⟩ (fixCrossings ⟨1, 4, 3⟩ (blank t).suba crossToc), (blank t).suba ⟨2, 2, 1⟩, (blank t').suba ⟨2, 2, 1⟩))
      = some ([], 3, 4) := by decide +kernel
  obtain ⟨t, ht, h1⟩ := Option.bind_eq_some_iff.mp h0
  obtain ⟨t', ht', h2⟩ := Option.map_eq_some_iff.mp h1
  simp only [Prod.mk.injEq] at h2
  exact ⟨t, t', _, _, ht, fun c => by simp [Areas.weight], by decide +kernel, h2.1, ht', h2.2.1, h2.2.2⟩

/-- (1,1) and (2,1) flow along the two diagonals to an outlet each -/
def evenToc (p : Pos) : Int :=
  if p = ⟨1, 1, 1⟩ then 128 else if p = ⟨2, 1, 1⟩ then 32 else if p = ⟨1, 2, 1⟩ ∨ p = ⟨2, 2, 1⟩ then 0 else mval

/-- Rivers of the same area: the crossing is found, "FIX: rivers cross" is written, and nothing is changed. -/
theorem C105_equal_wrong : ∃ t : State ℚ, ∃ a : Areas ℚ, ∃ lfr, follow ⟨1, 4, 3⟩ a 5 evenToc lfr = some t ∧ (∀ c, 0 < a.weight lfr c) ∧
    crossings ⟨1, 4, 3⟩ evenToc = [(⟨1, 1, 1⟩, ⟨2, 1, 1⟩)] ∧
    crossings ⟨1, 4, 3⟩ (fixCrossings ⟨1, 4, 3⟩ (blank t).suba evenToc) = [(⟨1, 1, 1⟩, ⟨2, 1, 1⟩)] := by
  have h0 : (follow ⟨1, 4, 3⟩ ⟨fun _ => (1 : ℚ), false⟩ 5 evenToc (fun _ => 1)).map (fun t =>
      crossings ⟨1, 4, 3⟩ (fixCrossings ⟨1, 4, 3⟩ (blank t).suba evenToc)) = some [(⟨1, 1, 1⟩, ⟨2, 1, 1⟩)] := by decide +kernel
  obtain ⟨t, ht, h1⟩ := Option.map_eq_some_iff.mp h0
  exact ⟨t, _, _, ht, fun c => by simp [Areas.weight], by decide +kernel, h1⟩

/-- (4,1) flows north-east over the date line to (1,2), and (1,1) flows north-west over it to (4,2) -/
def dateToc (p : Pos) : Int :=
  if p = ⟨4, 1, 1⟩ then 128 else if p = ⟨1, 1, 1⟩ then 32 else if p = ⟨1, 2, 1⟩ ∨ p = ⟨4, 2, 1⟩ then 0 else mval

/-- Rivers that cross at the date line (or over an edge between tiles) are not found, as the halo of the new network is missing. -/
theorem C105_edge_wrong : Drains ⟨1, 4, 2⟩ dateToc ∧ wrap ⟨1, 4, 2⟩ ((⟨4, 1, 1⟩ : Pos).move (1, 0)) = ⟨1, 1, 1⟩ ∧
    Next ⟨1, 4, 2⟩ dateToc ⟨4, 1, 1⟩ (wrap ⟨1, 4, 2⟩ ((⟨1, 1, 1⟩ : Pos).move (0, 1))) ∧
    Next ⟨1, 4, 2⟩ dateToc ⟨1, 1, 1⟩ (wrap ⟨1, 4, 2⟩ ((⟨4, 1, 1⟩ : Pos).move (0, 1))) ∧
    crossings ⟨1, 4, 2⟩ dateToc = [] ∧ crossings ⟨1, 4, 2⟩ (createHalo ⟨1, 4, 2⟩ 2 dateToc) ≠ [] := by
  have n1 : Next ⟨1, 4, 2⟩ dateToc ⟨4, 1, 1⟩ ⟨1, 2, 1⟩ := ⟨by decide, (1, 1), by decide, by decide⟩
  have n2 : Next ⟨1, 4, 2⟩ dateToc ⟨1, 1, 1⟩ ⟨4, 2, 1⟩ := ⟨by decide, (-1, 1), by decide, by decide⟩
  refine ⟨?_, by decide, n1, n2, by decide +kernel, by decide +kernel⟩
  intro c hc hm
  unfold dateToc at hm
  by_cases h1 : c = ⟨4, 1, 1⟩
  · subst h1
    exact ⟨1, _, .step n1 (.here _), by decide, by decide⟩
  by_cases h2 : c = ⟨1, 1, 1⟩
  · subst h2
    exact ⟨1, _, .step n2 (.here _), by decide, by decide⟩
  by_cases h3 : c = ⟨1, 2, 1⟩ ∨ c = ⟨4, 2, 1⟩
  · refine ⟨0, c, .here _, ?_, hc⟩
    unfold dateToc
    rw [if_neg h1, if_neg h2, if_pos h3]
  · rw [if_neg h1, if_neg h2, if_neg h3] at hm
    exact absurd rfl hm

end Verif.Hydrog
