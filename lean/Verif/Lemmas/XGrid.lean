import Verif.Spec.XGrid
import Mathlib.Tactic.Linarith
import Mathlib.Data.List.Perm.Basic
/-
Lemmas for the collection of exchange cells.
-/
namespace Verif.XGrid
open Verif.Spec

variable {β : Type}

/-- What is known about the shared state: every block has entered the first part of its list. -/
def Inv (B : Nat) (L : Nat → List (Cell β)) (s : St β) : Prop :=
  ∀ m, ∃ w, L m = w ++ s.todo m ∧ s.cnt m = w.length ∧ (w = [] ∨ w.length < B) ∧
    ∀ i : Nat, i < w.length → s.mem (m * B + i) = w[i]?

theorem block_ne {B m k i j : Nat} (h : m ≠ k) (hi : i < B) (hj : j < B) : m * B + i ≠ k * B + j := by
  intro e
  rcases Nat.lt_or_gt_of_ne h with h1 | h1
  · have := Nat.mul_le_mul_right B (Nat.succ_le_of_lt h1)
    rw [Nat.succ_mul] at this; omega
  · have := Nat.mul_le_mul_right B (Nat.succ_le_of_lt h1)
    rw [Nat.succ_mul] at this; omega

theorem step_inv {maxx nb : Nat} {L : Nat → List (Cell β)} {s : St β}
    (hs : Inv (maxx / nb) L s) {m : Nat} (hm : m < nb ∨ s.todo m = []) :
    (∃ s', step maxx nb s m = .ok s' ∧ Inv (maxx / nb) L s' ∧
      ∀ k, (s'.todo k).length = (s.todo k).length - (if k = m then 1 else 0)) ∨
    (step maxx nb s m = .error .error ∧ L m ≠ [] ∧ maxx / nb ≤ (L m).length) := by
  obtain ⟨w, h1, h2, h3, h4⟩ := hs m
  cases ht : s.todo m with
  | nil =>
    left
    refine ⟨s, by simp [step, ht], hs, fun k => ?_⟩
    by_cases hk : k = m
    · subst hk; simp [ht]
    · simp [hk]
  | cons c cs =>
    have hm' : m < nb := by
      rcases hm with h | h
      · exact h
      · rw [ht] at h; cases h
    by_cases hn : s.cnt m + 1 ≥ maxx / nb
    · right
      refine ⟨by simp [step, ht, hn], ?_, ?_⟩
      · rw [h1, ht]; simp
      · rw [h1, ht]; simp; omega
    · left
      have hB : s.cnt m < maxx / nb := by omega
      have hin : m * (maxx / nb) + (s.cnt m + 1) - 1 < maxx := by
        have h5 := Nat.mul_le_mul_right (maxx / nb) (Nat.succ_le_of_lt hm')
        rw [Nat.succ_mul] at h5
        have h6 := Nat.mul_div_le maxx nb
        omega
      refine ⟨⟨upd s.cnt m (s.cnt m + 1), upd s.mem (m * (maxx / nb) + (s.cnt m + 1) - 1) (some c), upd s.todo m cs⟩,
        by simp only [step, ht, if_neg hn, if_pos hin], ?_, ?_⟩
      · intro k
        by_cases hk : k = m
        · subst hk
          refine ⟨w ++ [c], by simp [upd, h1, ht], by simp [upd, h2], Or.inr ?_, ?_⟩
          · simp; omega
          · intro i hi
            simp only [List.length_append, List.length_singleton] at hi
            have e0 : k * (maxx / nb) + (s.cnt k + 1) - 1 = k * (maxx / nb) + s.cnt k := by omega
            by_cases e : i = w.length
            · subst e; simp [upd, h2]
            · have hne : ¬ (k * (maxx / nb) + i = k * (maxx / nb) + (s.cnt k + 1) - 1) := by omega
              simp only [upd, if_neg hne]
              rw [h4 i (by omega), List.getElem?_append_left (by omega)]
        · obtain ⟨v, g1, g2, g3, g4⟩ := hs k
          refine ⟨v, by simp [upd, hk, g1], by simp [upd, hk, g2], g3, ?_⟩
          intro i hi
          have hv : v.length < maxx / nb := by
            rcases g3 with g | g
            · subst g; simp at hi
            · exact g
          have hne : ¬ (k * (maxx / nb) + i = m * (maxx / nb) + (s.cnt m + 1) - 1) := by
            have := block_ne (B := maxx / nb) (i := i) (j := s.cnt m) hk (by omega) hB
            omega
          simp only [upd, if_neg hne]
          exact g4 i hi
      · intro k
        by_cases hk : k = m
        · subst hk; simp [upd, ht]
        · simp [upd, hk]

theorem run_inv {maxx nb : Nat} {L : Nat → List (Cell β)} (hL : ∀ m, nb ≤ m → L m = []) (sched : List Nat) :
    ∀ {s : St β}, Inv (maxx / nb) L s →
    (∃ s', run maxx nb sched s = .ok s' ∧ Inv (maxx / nb) L s' ∧
      ∀ k, (s'.todo k).length = (s.todo k).length - sched.count k) ∨
    (run maxx nb sched s = .error .error ∧ ∃ m < nb, L m ≠ [] ∧ maxx / nb ≤ (L m).length) := by
  induction sched with
  | nil => intro s hs; exact Or.inl ⟨s, rfl, hs, by simp⟩
  | cons m ms ih =>
    intro s hs
    have hm : m < nb ∨ s.todo m = [] := by
      by_cases h : m < nb
      · exact Or.inl h
      · right
        obtain ⟨w, h1, _⟩ := hs m
        rw [hL m (by omega)] at h1
        have := congrArg List.length h1
        simp only [List.length_nil, List.length_append] at this
        exact List.length_eq_zero_iff.1 (by omega)
    rcases step_inv hs hm with ⟨s1, e1, i1, t1⟩ | ⟨e1, l1, l2⟩
    · rcases ih i1 with ⟨s2, e2, i2, t2⟩ | ⟨e2, h2⟩
      · left
        refine ⟨s2, ?_, i2, ?_⟩
        · simp only [run, e1]; exact e2
        · intro k
          rw [t2, t1, List.count_cons]
          by_cases hk : k = m
          · subst hk; simp; omega
          · have : (m == k) = false := by simp; exact fun h => hk h.symm
            simp [hk, this]
      · right; exact ⟨by simp only [run, e1]; exact e2, h2⟩
    · right
      refine ⟨by simp only [run, e1]; rfl, m, ?_, l1, l2⟩
      by_cases h : m < nb
      · exact h
      · exact absurd (hL m (by omega)) l1

theorem map_range_getElem? {α : Type} (w : List α) : (List.range w.length).map (fun i => w[i]?) = w.map some := by
  apply List.ext_getElem
  · simp
  · intro i h1 h2; simp at h1; simp [h1]

/-- After a run in which every block has finished the arrays hold the lists of the blocks, one after the other. -/
theorem collect_eq {maxx nb : Nat} {L : Nat → List (Cell β)} {s : St β} (hs : Inv (maxx / nb) L s)
    (hd : ∀ k < nb, s.todo k = []) :
    collect maxx nb s = ((List.range nb).flatMap L).map some := by
  rw [collect, List.map_flatMap]
  rw [List.flatMap_def, List.flatMap_def]
  congr 1
  apply List.map_congr_left
  intro m hm
  simp only [List.mem_range] at hm
  obtain ⟨w, h1, h2, _, h4⟩ := hs m
  rw [hd m hm, List.append_nil] at h1
  rw [h1, h2, ← map_range_getElem?]
  apply List.map_congr_left
  intro i hi
  exact h4 i (List.mem_range.1 hi)

/-! ### Blocks -/

theorem blockLoop_length : ∀ (b left pos : Nat), (blockLoop b left pos).length = b
  | 0, _, _ => rfl
  | b + 1, left, pos => by simp [blockLoop, blockLoop_length b]

theorem blockLoop_once {γ : Type} (X : List γ) (ij : Nat) : ∀ (b left pos : Nat),
    (blockLoop (b + 1) left pos).flatMap (fun q => if q.1 ≤ ij ∧ ij < q.1 + q.2 then X else []) =
      if pos ≤ ij ∧ ij < pos + left then X else []
  | 0, left, pos => by simp [blockLoop]
  | b + 1, left, pos => by
    rw [blockLoop, List.flatMap_cons, blockLoop_once X ij b]
    have h : left / (b + 1 + 1) ≤ left := Nat.div_le_self _ _
    generalize left / (b + 1 + 1) = my at h ⊢
    by_cases h1 : pos ≤ ij ∧ ij < pos + my
    · have h2 : ¬ (pos + my ≤ ij ∧ ij < pos + my + (left - my)) := by omega
      have h3 : pos ≤ ij ∧ ij < pos + left := by omega
      simp only [if_pos h1, if_neg h2, if_pos h3, List.append_nil]
    · by_cases h2 : pos + my ≤ ij ∧ ij < pos + my + (left - my)
      · have h3 : pos ≤ ij ∧ ij < pos + left := by omega
        simp only [if_neg h1, if_pos h2, if_pos h3, List.nil_append]
      · have h3 : ¬ (pos ≤ ij ∧ ij < pos + left) := by omega
        simp only [if_neg h1, if_neg h2, if_neg h3, List.nil_append]

theorem blockLoop_bound : ∀ (b left pos : Nat) (q : Nat × Nat), q ∈ blockLoop b left pos → q.1 + q.2 ≤ pos + left
  | 0, _, _, _, h => by simp [blockLoop] at h
  | b + 1, left, pos, q, h => by
    have hl : left / (b + 1) ≤ left := Nat.div_le_self _ _
    rw [blockLoop] at h
    rcases List.mem_cons.1 h with h | h
    · subst h; simp; omega
    · have := blockLoop_bound b _ _ q h
      omega

variable (g : Grids β)

theorem filter_targets {i2 j2 : Nat} (hi : i2 < g.nx2) (i1 j1 : Nat) (q : Nat × Nat) :
    (targets g i1 j1 q).filter (fun c => decide (c.i2 = i2 ∧ c.j2 = j2)) =
      if q.1 ≤ j2 * g.nx2 + i2 ∧ j2 * g.nx2 + i2 < q.1 + q.2 then
        ((g.hit i1 j1 (j2 * g.nx2 + i2)).map (Cell.mk i1 j1 i2 j2)).toList else [] := by
  obtain ⟨a, n⟩ := q
  have key : ∀ ij, (ij % g.nx2 = i2 ∧ ij / g.nx2 = j2) ↔ ij = j2 * g.nx2 + i2 := by
    intro ij
    constructor
    · rintro ⟨h1, h2⟩
      rw [← h1, ← h2, Nat.mul_comm]; exact (Nat.div_add_mod ij g.nx2).symm
    · rintro rfl
      constructor
      · rw [Nat.mul_comm, Nat.mul_add_mod, Nat.mod_eq_of_lt hi]
      · rw [Nat.mul_comm, Nat.mul_add_div (by omega), Nat.div_eq_of_lt hi, Nat.add_zero]
  induction n generalizing a with
  | zero => have : ¬ (a ≤ j2 * g.nx2 + i2 ∧ j2 * g.nx2 + i2 < a + 0) := by omega
            simp only [targets, if_neg this]; rfl
  | succ n ih =>
    have e : targets g i1 j1 (a, n + 1) = ((g.hit i1 j1 a).map
        (fun v => (⟨i1, j1, a % g.nx2, a / g.nx2, v⟩ : Cell β))).toList ++ targets g i1 j1 (a + 1, n) := by
      simp only [targets, List.range'_succ, List.filterMap_cons]
      cases g.hit i1 j1 a <;> simp
    rw [e, List.filter_append, ih (a + 1)]
    by_cases ha : a = j2 * g.nx2 + i2
    · have hm := (key a).2 ha
      have h1 : ¬ (a + 1 ≤ j2 * g.nx2 + i2 ∧ j2 * g.nx2 + i2 < a + 1 + n) := by omega
      have h2 : a ≤ j2 * g.nx2 + i2 ∧ j2 * g.nx2 + i2 < a + (n + 1) := by omega
      simp only [if_neg h1, if_pos h2, List.append_nil]
      rw [← ha]
      cases g.hit i1 j1 a <;> simp [hm.1, hm.2]
    · have hm : ¬ (a % g.nx2 = i2 ∧ a / g.nx2 = j2) := fun h => ha ((key a).1 h)
      have e0 : (((g.hit i1 j1 a).map (fun v => (⟨i1, j1, a % g.nx2, a / g.nx2, v⟩ : Cell β))).toList).filter
          (fun c => decide (c.i2 = i2 ∧ c.j2 = j2)) = [] := by
        cases g.hit i1 j1 a with
        | none => rfl
        | some v => simp [hm]
      rw [e0, List.nil_append]
      by_cases h1 : a + 1 ≤ j2 * g.nx2 + i2 ∧ j2 * g.nx2 + i2 < a + 1 + n
      · rw [if_pos h1, if_pos (by omega)]
      · rw [if_neg h1, if_neg (by omega)]

theorem filterMap_eq_flatMap {α γ : Type} (f : α → Option γ) (l : List α) :
    l.filterMap f = l.flatMap fun a => (f a).toList := by
  induction l with
  | nil => rfl
  | cons a l ih => simp only [List.filterMap_cons, List.flatMap_cons, ← ih]; cases f a <;> simp

theorem filter_found {i2 j2 : Nat} (hi : i2 < g.nx2) (q : Nat × Nat) :
    (found g q).filter (fun c => decide (c.i2 = i2 ∧ c.j2 = j2)) =
      if q.1 ≤ j2 * g.nx2 + i2 ∧ j2 * g.nx2 + i2 < q.1 + q.2 then cellsOf g i2 j2 else [] := by
  rw [found, List.filter_flatMap]
  have h : ∀ j1 i1, (if g.mask i1 j1 then targets g i1 j1 q else []).filter
      (fun c => decide (c.i2 = i2 ∧ c.j2 = j2)) =
      if q.1 ≤ j2 * g.nx2 + i2 ∧ j2 * g.nx2 + i2 < q.1 + q.2 then
        (if g.mask i1 j1 then (g.hit i1 j1 (j2 * g.nx2 + i2)).map (Cell.mk i1 j1 i2 j2) else none).toList else [] := by
    intro j1 i1
    by_cases hm : g.mask i1 j1
    · simp only [hm, if_true]; exact filter_targets g hi i1 j1 q
    · simp [hm]
  simp only [List.filter_flatMap, h]
  by_cases hq : q.1 ≤ j2 * g.nx2 + i2 ∧ j2 * g.nx2 + i2 < q.1 + q.2
  · simp only [if_pos hq]
    simp only [cellsOf, filterMap_eq_flatMap]
  · simp only [if_neg hq]; simp

theorem mem_found {q : Nat × Nat} {c : Cell β} (hc : c ∈ found g q) :
    ∃ ij, q.1 ≤ ij ∧ ij < q.1 + q.2 ∧ c.i2 = ij % g.nx2 ∧ c.j2 = ij / g.nx2 := by
  simp only [found, List.mem_flatMap] at hc
  obtain ⟨j1, _, i1, _, h⟩ := hc
  split at h
  · simp only [targets, List.mem_filterMap, List.mem_range'_1, Option.map_eq_some_iff] at h
    obtain ⟨ij, hij, v, _, rfl⟩ := h
    exact ⟨ij, hij.1, hij.2, rfl, rfl⟩
  · cases h

theorem flatMap_length_le {α γ : Type} (l : List α) (f : α → List γ) (n : Nat) (h : ∀ a ∈ l, (f a).length ≤ n) :
    (l.flatMap f).length ≤ l.length * n := by
  induction l with
  | nil => simp
  | cons a l ih =>
    simp only [List.flatMap_cons, List.length_append, List.length_cons, Nat.succ_mul]
    have := ih (fun b hb => h b (List.mem_cons_of_mem _ hb))
    have := h a List.mem_cons_self
    omega

theorem found_length (q : Nat × Nat) : (found g q).length ≤ g.nx1 * g.ny1 * q.2 := by
  have h1 : ∀ j1 i1, (if g.mask i1 j1 then targets g i1 j1 q else []).length ≤ q.2 := by
    intro j1 i1
    split
    · refine (List.length_filterMap_le _ _).trans ?_
      simp
    · simp
  have h2 : ∀ j1, ((List.range g.nx1).flatMap fun i1 => if g.mask i1 j1 then targets g i1 j1 q else []).length ≤
      g.nx1 * q.2 := by
    intro j1
    have := flatMap_length_le (List.range g.nx1) (fun i1 => if g.mask i1 j1 then targets g i1 j1 q else []) q.2
      (fun i1 _ => h1 j1 i1)
    rwa [List.length_range] at this
  have := flatMap_length_le (List.range g.ny1)
    (fun j1 => (List.range g.nx1).flatMap fun i1 => if g.mask i1 j1 then targets g i1 j1 q else []) (g.nx1 * q.2)
    (fun j1 _ => h2 j1)
  rw [List.length_range] at this
  have e : g.ny1 * (g.nx1 * q.2) = g.nx1 * g.ny1 * q.2 := by rw [← Nat.mul_assoc, Nat.mul_comm g.ny1]
  rw [found, ← e]; exact this

/-- All exchange cells in block order. -/
def allCells (nb : Nat) : List (Cell β) := (blocks (g.nx2 * g.ny2) nb).flatMap (found g)

theorem start_flatMap (nb : Nat) : (List.range nb).flatMap (start g nb).todo = allCells g nb := by
  have : ∀ (l : List (Nat × Nat)), (List.range l.length).flatMap
      (fun m => match l[m]? with | some b => found g b | none => []) = l.flatMap (found g) := by
    intro l
    rw [List.flatMap_def, List.flatMap_def]
    congr 1
    apply List.ext_getElem
    · simp
    · intro i h1 h2
      simp at h1
      simp [h1]
  have h := this (blocks (g.nx2 * g.ny2) nb)
  rw [blocks, blockLoop_length] at h
  exact h

theorem allCells_filter {nb i2 j2 : Nat} (hb : 0 < nb) (hi : i2 < g.nx2) (hj : j2 < g.ny2) :
    (allCells g nb).filter (fun c => decide (c.i2 = i2 ∧ c.j2 = j2)) = cellsOf g i2 j2 := by
  obtain ⟨b, rfl⟩ : ∃ b, nb = b + 1 := ⟨nb - 1, by omega⟩
  rw [allCells, List.filter_flatMap]
  simp only [filter_found g hi]
  rw [blocks, blockLoop_once, if_pos]
  have := Nat.mul_le_mul_right g.nx2 (Nat.succ_le_of_lt hj)
  rw [Nat.succ_mul, Nat.mul_comm g.ny2] at this
  omega

theorem allCells_mem {nb : Nat} {c : Cell β} (hc : c ∈ allCells g nb) : c.i2 < g.nx2 ∧ c.j2 < g.ny2 := by
  simp only [allCells, List.mem_flatMap] at hc
  obtain ⟨q, hq, h⟩ := hc
  obtain ⟨ij, h1, h2, h3, h4⟩ := mem_found g h
  have hb := blockLoop_bound _ _ _ q hq
  have hlt : ij < g.nx2 * g.ny2 := by omega
  have hpos : 0 < g.nx2 := by
    rcases Nat.eq_zero_or_pos g.nx2 with e | e
    · rw [e] at hlt; simp at hlt
    · exact e
  rw [h3, h4]
  exact ⟨Nat.mod_lt _ hpos, Nat.div_lt_of_lt_mul hlt⟩

theorem start_inv (B nb : Nat) : Inv B (start g nb).todo (start g nb) :=
  fun m => ⟨[], rfl, rfl, Or.inl rfl, by simp⟩

theorem start_empty {nb m : Nat} (h : nb ≤ m) : (start g nb).todo m = [] := by
  have : (blocks (g.nx2 * g.ny2) nb)[m]? = none := by
    rw [List.getElem?_eq_none]; rw [blocks, blockLoop_length]; exact h
  simp [start, this]

theorem start_length (nb m : Nat) : ((start g nb).todo m).length ≤ g.nx1 * g.ny1 * (g.nx2 * g.ny2) := by
  simp only [start]
  cases h : (blocks (g.nx2 * g.ny2) nb)[m]? with
  | none => simp
  | some q =>
    have hq := blockLoop_bound _ _ _ q (List.mem_of_getElem? h)
    exact (found_length g q).trans (Nat.mul_le_mul_left _ (by omega))

/-- The parts of the blocks, if no block reaches its limit, are together shorter than the arrays. -/
theorem flatMap_range_length {α : Type} (L : Nat → List α) (B : Nat) : ∀ nb,
    (∀ m < nb, (L m).length ≤ B) → ((List.range nb).flatMap L).length ≤ nb * B := by
  intro nb h
  have := flatMap_length_le (List.range nb) L B (fun m hm => h m (List.mem_range.1 hm))
  rwa [List.length_range] at this

/-- Under every schedule that lets all blocks finish, the result is the same list, or the program stops because
a block has reached its limit. -/
theorem create_eq {maxx nb : Nat} {sched : List Nat} (hf : Finishes g nb sched) :
    ((∀ m < nb, (start g nb).todo m = [] ∨ ((start g nb).todo m).length < maxx / nb) ∧
      create2dx2d g maxx nb sched = .ok ((allCells g nb).map some)) ∨
    ((∃ m < nb, (start g nb).todo m ≠ [] ∧ maxx / nb ≤ ((start g nb).todo m).length) ∧
      create2dx2d g maxx nb sched = .error .error) := by
  rcases run_inv (maxx := maxx) (nb := nb) (L := (start g nb).todo) (fun m hm => start_empty g hm) sched (start_inv g (maxx / nb) nb) with
    ⟨s, e, hi, ht⟩ | ⟨e, h⟩
  · left
    have hd : ∀ k < nb, s.todo k = [] := by
      intro k hk
      apply List.length_eq_zero_iff.1
      rw [ht]
      have := start_length g nb k
      have := hf k hk
      omega
    have hl : ∀ m < nb, (start g nb).todo m = [] ∨ ((start g nb).todo m).length < maxx / nb := by
      intro m hm
      obtain ⟨w, h1, _, h3, _⟩ := hi m
      rw [hd m hm, List.append_nil] at h1
      rw [h1]; exact h3
    refine ⟨hl, ?_⟩
    have hc := collect_eq hi hd
    rw [start_flatMap] at hc
    have hlen : (collect maxx nb s).length ≤ maxx := by
      rw [hc, List.length_map, ← start_flatMap]
      have := flatMap_range_length (start g nb).todo (maxx / nb) nb (by
        intro m hm
        rcases hl m hm with h | h
        · rw [h]; simp
        · omega)
      exact this.trans (Nat.mul_div_le maxx nb)
    rw [hc] at hlen
    simp only [create2dx2d, e, hc, if_pos hlen]
  · right
    exact ⟨h, by simp only [create2dx2d, e]⟩

/-- No schedule at all, finished or not, writes outside the arrays. -/
theorem create_not_oob {maxx nb : Nat} (sched : List Nat) : create2dx2d g maxx nb sched ≠ .error .oob := by
  rcases run_inv (maxx := maxx) (nb := nb) (L := (start g nb).todo) (fun m hm => start_empty g hm) sched (start_inv g (maxx / nb) nb) with
    ⟨s, e, hi, ht⟩ | ⟨e, h⟩
  · have hlen : (collect maxx nb s).length ≤ maxx := by
      have hx : ∀ m < nb, ((List.range (s.cnt m)).map fun i => s.mem (m * (maxx / nb) + i)).length ≤ maxx / nb := by
        intro m _
        obtain ⟨w, _, h2, h3, _⟩ := hi m
        rw [List.length_map, List.length_range, h2]
        rcases h3 with h | h
        · rw [h]; simp
        · omega
      have := flatMap_range_length _ (maxx / nb) nb hx
      exact this.trans (Nat.mul_div_le maxx nb)
    simp [create2dx2d, e, hlen]
  · simp [create2dx2d, e]

theorem perm_of_filter {α κ : Type} [DecidableEq κ] (key : α → κ) {l1 l2 : List α}
    (h : ∀ k, l1.filter (fun a => decide (key a = k)) = l2.filter (fun a => decide (key a = k))) : l1.Perm l2 := by
  classical
  rw [List.perm_iff_count]
  intro a
  have h1 : ∀ l : List α, l.count a = (l.filter (fun b => decide (key b = key a))).count a := by
    intro l
    rw [List.count_filter]; simp
  rw [h1 l1, h1 l2, h (key a)]

theorem enter_eq (maxx : Nat) : ∀ (cs acc : List (Cell β)), acc.length ≤ maxx →
    enter maxx acc cs = if acc.length + cs.length ≤ maxx then .ok (acc.reverse ++ cs) else .error .oob
  | [], acc, h => by simp [enter, h]
  | c :: cs, acc, h => by
    rw [enter]
    by_cases h1 : acc.length < maxx
    · rw [if_pos h1, if_neg (by omega), enter_eq maxx cs (c :: acc) (by simp; omega)]
      simp only [List.length_cons, List.reverse_cons, List.append_assoc, List.singleton_append]
      by_cases h2 : acc.length + (cs.length + 1) ≤ maxx
      · rw [if_pos h2, if_pos (by omega)]
      · rw [if_neg h2, if_neg (by omega)]
    · rw [if_neg h1, if_neg (by simp; omega)]

end Verif.XGrid
