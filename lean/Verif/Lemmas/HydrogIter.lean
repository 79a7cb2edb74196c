import Verif.Lemmas.Hydrog
import Mathlib.Algebra.BigOperators.Group.Finset.Basic
import Mathlib.Algebra.Order.BigOperators.Group.Finset
import Mathlib.Data.Finset.Card
import Mathlib.Tactic.NormNum
import Mathlib.Tactic.Linarith
/-
Halos, the choice of a direction, and areas that grow along a river.
-/
namespace Verif.Hydrog

open Spec.Hydrog

theorem dirs_unit {e : Int × Int} {d : Int} (h : (e, d) ∈ dirs) : -1 ≤ e.1 ∧ e.1 ≤ 1 ∧ -1 ≤ e.2 ∧ e.2 ≤ 1 := by
  simp only [dirs, List.mem_cons, Prod.mk.injEq, List.not_mem_nil, or_false] at h
  rcases h with ⟨rfl, -⟩ | ⟨rfl, -⟩ | ⟨rfl, -⟩ | ⟨rfl, -⟩ | ⟨rfl, -⟩ | ⟨rfl, -⟩ | ⟨rfl, -⟩ | ⟨rfl, -⟩ | ⟨rfl, -⟩ <;> decide

theorem dirs_zero {e : Int × Int} {d : Int} (h : (e, d) ∈ dirs) : e = (0, 0) ↔ d = 0 := by
  simp only [dirs, List.mem_cons, Prod.mk.injEq, List.not_mem_nil, or_false] at h
  rcases h with ⟨rfl, rfl⟩ | ⟨rfl, rfl⟩ | ⟨rfl, rfl⟩ | ⟨rfl, rfl⟩ | ⟨rfl, rfl⟩ | ⟨rfl, rfl⟩ | ⟨rfl, rfl⟩ | ⟨rfl, rfl⟩ | ⟨rfl, rfl⟩ <;>
    decide

theorem dirs_mval {e : Int × Int} : (e, mval) ∉ dirs := by
  intro h
  rw [← offset_iff, offset_mval] at h
  cases h

theorem source_inside {g : Grid} {h : Int} {p : Pos} (hp : g.inside p) : source g h p = p := by
  unfold Grid.inside at hp
  unfold source
  rw [if_neg (c := 1 - h ≤ p.x ∧ p.x ≤ 0) (by omega), if_neg (c := g.nx + 1 ≤ p.x ∧ p.x ≤ g.nx + h) (by omega),
    if_neg (c := 1 ≤ p.y ∧ p.y ≤ g.ny ∧ 1 - h ≤ p.x ∧ p.x ≤ 0) (by omega),
    if_neg (c := 1 ≤ p.y ∧ p.y ≤ g.ny ∧ g.nx + 1 ≤ p.x ∧ p.x ≤ g.nx + h) (by omega),
    if_neg (c := 1 ≤ p.x ∧ p.x ≤ g.nx ∧ 1 - h ≤ p.y ∧ p.y ≤ 0) (by omega),
    if_neg (c := 1 ≤ p.x ∧ p.x ≤ g.nx ∧ g.ny + 1 ≤ p.y ∧ p.y ≤ g.ny + h) (by omega), ite_self]

/-- Away from the corners of the cube, the halo of a neighbour has the value of the cell to which a river would flow -/
theorem source_wrap {g : Grid} {h : Int} (hh : 1 ≤ h) {p : Pos} (hp : g.inside p) {e : Int × Int}
    (he : -1 ≤ e.1 ∧ e.1 ≤ 1 ∧ -1 ≤ e.2 ∧ e.2 ≤ 1) (hc : g.nt = 1 ∨ ¬ Corner g (p.move e)) :
    source g h (p.move e) = wrap g (p.move e) := by
  obtain ⟨x, y, n⟩ := p
  obtain ⟨dx, dy⟩ := e
  unfold Grid.inside at hp
  unfold Corner Pos.move at hc
  dsimp only at hp he hc
  unfold source wrap Pos.move
  dsimp only
  by_cases h1 : g.nt = 1
  · rw [if_pos h1, if_pos h1]
    split_ifs <;> first | rfl | omega | (simp only [Pos.mk.injEq, and_true, true_and]; omega) | (refine congrArg₂ (fun a b => (⟨a, b, _⟩ : Pos)) ?_ ?_ <;> omega)
  · rw [if_neg h1, if_neg h1]
    replace hc := hc.resolve_left h1
    by_cases h2 : n % 2 = 0
    · simp only [if_pos h2]
      split_ifs <;> first | rfl | omega | (simp only [Pos.mk.injEq, and_true, true_and]; omega) | (refine congrArg₂ (fun a b => (⟨a, b, _⟩ : Pos)) ?_ ?_ <;> omega)
    · simp only [if_neg h2]
      split_ifs <;> first | rfl | omega | (simp only [Pos.mk.injEq, and_true, true_and]; omega) | (refine congrArg₂ (fun a b => (⟨a, b, _⟩ : Pos)) ?_ ?_ <;> omega)

/-- Beyond the corners of the cube the halo is not set -/
theorem source_corner {g : Grid} {h : Int} {q : Pos} (h1 : g.nt ≠ 1) (hq : Corner g q) : source g h q = q := by
  unfold Corner at hq
  unfold source
  rw [if_neg h1, if_neg (by omega), if_neg (by omega), if_neg (by omega), if_neg (by omega)]

variable {R : Type} [Field R] [LinearOrder R]

/-- The choice of a direction: the last of the best -/
theorem try_fold (toc : Pos → Int) (lfr sub bas : Pos → R) (p : Pos) : ∀ (l : List ((Int × Int) × Int)) (b : Best R),
    (l.foldl (try_ toc lfr sub bas p) b = b ∧
      ∀ e ∈ l, e.1 ≠ (0, 0) → accepts toc lfr bas p (p.move e.1) → sub (p.move e.1) < b.smax) ∨
    ∃ l1 e l2, l = l1 ++ e :: l2 ∧ e.1 ≠ (0, 0) ∧ accepts toc lfr bas p (p.move e.1) ∧
      l.foldl (try_ toc lfr sub bas p) b = ⟨sub (p.move e.1), some e.2⟩ ∧ b.smax ≤ sub (p.move e.1) ∧
      (∀ e' ∈ l1, e'.1 ≠ (0, 0) → accepts toc lfr bas p (p.move e'.1) → sub (p.move e'.1) ≤ sub (p.move e.1)) ∧
      (∀ e' ∈ l2, e'.1 ≠ (0, 0) → accepts toc lfr bas p (p.move e'.1) → sub (p.move e'.1) < sub (p.move e.1)) := by
  intro l
  induction l with
  | nil => intro b; exact .inl ⟨rfl, by simp⟩
  | cons e l ih =>
    intro b
    rw [List.foldl_cons]
    by_cases hz : e.1 ≠ (0, 0) ∧ b.smax ≤ sub (p.move e.1) ∧ accepts toc lfr bas p (p.move e.1)
    · obtain ⟨h1, h2, h3⟩ := hz
      have ht : try_ toc lfr sub bas p b e = ⟨sub (p.move e.1), some e.2⟩ := by
        unfold try_
        rw [if_neg h1]
        dsimp only
        rw [if_pos h2, if_pos h3]
      rw [ht]
      rcases ih ⟨sub (p.move e.1), some e.2⟩ with ⟨i1, i2⟩ | ⟨l1, e1, l2, rfl, i2, i3, i4, i5, i6, i7⟩
      · exact .inr ⟨[], e, l, rfl, h1, h3, i1, h2, by simp, i2⟩
      · refine .inr ⟨e :: l1, e1, l2, rfl, i2, i3, i4, h2.trans i5, ?_, i7⟩
        intro e' he' hz' ha'
        rcases List.mem_cons.mp he' with rfl | he'
        · exact i5
        · exact i6 e' he' hz' ha'
    · have ht : try_ toc lfr sub bas p b e = b := by
        unfold try_
        by_cases h1 : e.1 = (0, 0)
        · rw [if_pos h1]
        · rw [if_neg h1]
          dsimp only
          by_cases h2 : b.smax ≤ sub (p.move e.1)
          · rw [if_pos h2, if_neg fun h3 => hz ⟨h1, h2, h3⟩]
          · rw [if_neg h2]
      have hlt : e.1 ≠ (0, 0) → accepts toc lfr bas p (p.move e.1) → sub (p.move e.1) < b.smax := by
        intro h1 h3
        by_contra h2
        exact hz ⟨h1, not_lt.mp h2, h3⟩
      rw [ht]
      rcases ih b with ⟨i1, i2⟩ | ⟨l1, e1, l2, rfl, i2, i3, i4, i5, i6, i7⟩
      · refine .inl ⟨i1, ?_⟩
        intro e' he' hz' ha'
        rcases List.mem_cons.mp he' with rfl | he'
        · exact hlt hz' ha'
        · exact i2 e' he' hz' ha'
      · refine .inr ⟨e :: l1, e1, l2, rfl, i2, i3, i4, i5, ?_, i7⟩
        intro e' he' hz' ha'
        rcases List.mem_cons.mp he' with rfl | he'
        · exact (hlt hz' ha').le.trans i5
        · exact i6 e' he' hz' ha'

/-! ### Areas above a cell -/

open Classical in
theorem upstream_eq (g : Grid) (toc : Pos → Int) (w : Pos → R) (p : Pos) :
    upstream g toc w p = ∑ c ∈ (cells g).toFinset.filter (fun c => toc c ≠ mval ∧ Above g toc c p), w c := by
  unfold upstream
  rw [← List.sum_toFinset _ ((cells_nodup g).filter _)]
  congr 1
  ext c
  simp

theorem upstream_congr {g : Grid} {toc toc' : Pos → Int} {w w' : Pos → R} {p : Pos}
    (h : ∀ c, g.inside c → (toc c ≠ mval ∧ Above g toc c p ↔ toc' c ≠ mval ∧ Above g toc' c p))
    (hw : ∀ c, g.inside c → w c = w' c) : upstream g toc w p = upstream g toc' w' p := by
  rw [upstream_eq, upstream_eq]
  refine Finset.sum_congr ?_ ?_
  · ext c
    simp only [Finset.mem_filter, List.mem_toFinset, mem_cells]
    exact ⟨fun ⟨h1, h2⟩ => ⟨h1, (h c h1).mp h2⟩, fun ⟨h1, h2⟩ => ⟨h1, (h c h1).mpr h2⟩⟩
  · intro c hc
    simp only [Finset.mem_filter, List.mem_toFinset, mem_cells] at hc
    exact hw c hc.1

variable [IsStrictOrderedRing R]

theorem upstream_nonneg {g : Grid} {toc : Pos → Int} {w : Pos → R} {p : Pos}
    (hw : ∀ c, g.inside c → toc c ≠ mval → 0 < w c) : 0 ≤ upstream g toc w p := by
  rw [upstream_eq]
  refine Finset.sum_nonneg fun c hc => ?_
  simp only [Finset.mem_filter, List.mem_toFinset, mem_cells] at hc
  exact (hw c hc.1 hc.2.1).le

/-- The area grows along a river -/
theorem upstream_lt {g : Grid} {toc : Pos → Int} {w : Pos → R} {p q o : Pos} {k : Nat} (hn : Next g toc p q)
    (ho : Path g toc q k o) (hz : toc o = 0) (hq : g.inside q) (hqm : toc q ≠ mval)
    (hw : ∀ c, g.inside c → toc c ≠ mval → 0 < w c) : upstream g toc w p < upstream g toc w q := by
  classical
  rw [upstream_eq, upstream_eq]
  refine Finset.sum_lt_sum_of_subset (i := q) ?_ ?_ ?_ (hw q hq hqm) ?_
  · intro c hc
    simp only [Finset.mem_filter, List.mem_toFinset] at hc ⊢
    obtain ⟨h1, h2, i, hi⟩ := hc
    exact ⟨h1, h2, i + 1, hi.trans (.step hn (.here _))⟩
  · simp only [Finset.mem_filter, List.mem_toFinset, mem_cells]
    exact ⟨hq, hqm, 0, .here _⟩
  · simp only [Finset.mem_filter, not_and]
    exact fun _ _ => not_above_back hn ho hz
  · intro c hc _
    simp only [Finset.mem_filter, List.mem_toFinset, mem_cells] at hc
    exact (hw c hc.1 hc.2.1).le

theorem upstream_two {g : Grid} {toc : Pos → Int} {w : Pos → R} {x c : Pos} (hx : g.inside x) (hxm : toc x ≠ mval)
    (hc : g.inside c) (hcm : toc c ≠ mval) (ha : Above g toc x c) (hne : x ≠ c)
    (hw : ∀ c, g.inside c → toc c ≠ mval → 0 < w c) : w c < upstream g toc w c := by
  classical
  rw [upstream_eq, ← Finset.sum_singleton w c]
  refine Finset.sum_lt_sum_of_subset (i := x) ?_ ?_ ?_ (hw x hx hxm) ?_
  · intro y hy
    rw [Finset.mem_singleton] at hy
    subst hy
    simp only [Finset.mem_filter, List.mem_toFinset, mem_cells]
    exact ⟨hc, hcm, 0, .here _⟩
  · simp only [Finset.mem_filter, List.mem_toFinset, mem_cells]
    exact ⟨hx, hxm, ha⟩
  · rwa [Finset.mem_singleton]
  · intro y hy _
    simp only [Finset.mem_filter, List.mem_toFinset, mem_cells] at hy
    exact (hw y hy.1 hy.2.1).le

theorem path_congr {g : Grid} {toc toc' : Pos → Int} (h : ∀ p q, Next g toc p q → Next g toc' p q) {p q : Pos} {k : Nat}
    (hp : Path g toc p k q) : Path g toc' p k q := by
  induction hp with
  | here => exact .here _
  | step hn _ ih => exact .step (h _ _ hn) ih

/-- If a value grows along all rivers, the rivers end, after no more steps than there are cells -/
theorem ends_of_lt {g : Grid} {toc : Pos → Int} (v : Pos → R)
    (h : ∀ p, g.inside p → toc p ≠ mval → toc p ≠ 0 → ∃ q, Next g toc p q ∧ g.inside q ∧ toc q ≠ mval ∧ v p < v q) :
    ∀ p, g.inside p → toc p ≠ mval → ∃ k o, k ≤ (cells g).length ∧ Ends g toc p k o := by
  classical
  have key : ∀ (m : Nat) p, g.inside p → toc p ≠ mval → ((cells g).toFinset.filter fun c => v p < v c).card = m →
      ∃ k o, k ≤ m ∧ Ends g toc p k o := by
    intro m
    induction m using Nat.strong_induction_on with
    | _ m ih =>
      intro p hp hm hcard
      by_cases hz : toc p = 0
      · exact ⟨0, p, Nat.zero_le _, .here p, hz, hp⟩
      obtain ⟨q, hn, hq, hqm, hlt⟩ := h p hp hm hz
      have hc : ((cells g).toFinset.filter fun c => v q < v c).card < m := by
        rw [← hcard]
        refine Finset.card_lt_card ?_
        rw [Finset.ssubset_iff_of_subset]
        · refine ⟨q, ?_, ?_⟩
          · simp only [Finset.mem_filter, List.mem_toFinset, mem_cells]
            exact ⟨hq, hlt⟩
          · simp
        · intro c hc
          simp only [Finset.mem_filter] at hc ⊢
          exact ⟨hc.1, hlt.trans hc.2⟩
      obtain ⟨k, o, hk, ho⟩ := ih _ hc q hq hqm rfl
      exact ⟨k + 1, o, by omega, .step hn ho.1, ho.2⟩
  intro p hp hm
  obtain ⟨k, o, hk, ho⟩ := key _ p hp hm rfl
  refine ⟨k, o, hk.trans ?_, ho⟩
  exact (Finset.card_filter_le _ _).trans (List.toFinset_card_le _)

end Verif.Hydrog
