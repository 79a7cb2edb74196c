import Mathlib.Order.Lattice
import Mathlib.Tactic.Tauto
import Verif.Lemmas.TopogCells
import Verif.Spec.Topog

/-! # Lemmas about `remove_isolated_cells` -/

namespace Verif.Topog

open Verif.Spec.Topo

variable {K : Type _}

section Blocks

variable {α : Type _} [LinearOrder α]

theorem le_blockMin {f : Nat → Nat → α} {cj ci : Nat} {x : α} :
    x ≤ blockMin f cj ci ↔ ∀ j i, Around cj ci j i → x ≤ f j i := by
  simp only [blockMin, le_min_iff]
  constructor
  · rintro ⟨⟨h1, h2⟩, h3, h4⟩ j i ⟨rfl | rfl, rfl | rfl⟩ <;> assumption
  · intro h
    exact ⟨⟨h _ _ ⟨.inl rfl, .inl rfl⟩, h _ _ ⟨.inl rfl, .inr rfl⟩⟩,
      h _ _ ⟨.inr rfl, .inl rfl⟩, h _ _ ⟨.inr rfl, .inr rfl⟩⟩

theorem blockMin_le {f : Nat → Nat → α} {cj ci j i : Nat} (h : Around cj ci j i) :
    blockMin f cj ci ≤ f j i := le_blockMin.1 le_rfl j i h

/-- The smallest value at a corner only depends on the four cells. -/
theorem blockMin_congr {f g : Nat → Nat → α} {cj ci : Nat}
    (h : ∀ j i, Around cj ci j i → f j i = g j i) : blockMin f cj ci = blockMin g cj ci := by
  apply le_antisymm
  · rw [le_blockMin]; intro j i ha; rw [← h j i ha]; exact blockMin_le ha
  · rw [le_blockMin]; intro j i ha; rw [h j i ha]; exact blockMin_le ha

/-- Lowering cells around a corner, but not below the smallest one, does not change the
smallest value. -/
theorem blockMin_between {f g : Nat → Nat → α} {cj ci : Nat}
    (h : ∀ j i, Around cj ci j i → g j i ≤ f j i ∧ blockMin f cj ci ≤ g j i) :
    blockMin g cj ci = blockMin f cj ci := by
  apply le_antisymm
  · rw [le_blockMin]; intro j i ha; exact (blockMin_le ha).trans (h j i ha).1
  · rw [le_blockMin]; intro j i ha; exact (h j i ha).2

/-- The corners of a cell. -/
theorem corner_cases {cj ci j i : Nat} (h : Around cj ci j i) :
    (cj = j ∨ cj = j - 1) ∧ (ci = i ∨ ci = i - 1) := by
  obtain ⟨h1, h2⟩ := h
  omega

theorem blockMin_le_bestBlock {f : Nat → Nat → α} {cj ci j i : Nat} (h : Around cj ci j i) :
    blockMin f cj ci ≤ bestBlock f j i := by
  unfold bestBlock
  obtain ⟨rfl | rfl, rfl | rfl⟩ := corner_cases h
  · exact (le_max_left _ _).trans (le_max_left _ _)
  · exact (le_max_right _ _).trans (le_max_left _ _)
  · exact (le_max_left _ _).trans (le_max_right _ _)
  · exact (le_max_right _ _).trans (le_max_right _ _)

theorem bestBlock_attained (f : Nat → Nat → α) {j i : Nat} (hj : 1 ≤ j) (hi : 1 ≤ i) :
    ∃ cj ci, Around cj ci j i ∧ bestBlock f j i = blockMin f cj ci ∧
      (cj = j ∨ cj + 1 = j) ∧ (ci = i ∨ ci + 1 = i) := by
  unfold bestBlock
  have a1 : Around j i j i := ⟨.inl rfl, .inl rfl⟩
  have a2 : Around j (i - 1) j i := ⟨.inl rfl, .inr (by omega)⟩
  have a3 : Around (j - 1) i j i := ⟨.inr (by omega), .inl rfl⟩
  have a4 : Around (j - 1) (i - 1) j i := ⟨.inr (by omega), .inr (by omega)⟩
  rcases max_choice (max (blockMin f j i) (blockMin f j (i - 1)))
    (max (blockMin f (j - 1) i) (blockMin f (j - 1) (i - 1))) with h | h <;> rw [h]
  · rcases max_choice (blockMin f j i) (blockMin f j (i - 1)) with h | h <;> rw [h]
    · exact ⟨_, _, a1, rfl, by omega, by omega⟩
    · exact ⟨_, _, a2, rfl, by omega, by omega⟩
  · rcases max_choice (blockMin f (j - 1) i) (blockMin f (j - 1) (i - 1)) with h | h <;> rw [h]
    · exact ⟨_, _, a3, rfl, by omega, by omega⟩
    · exact ⟨_, _, a4, rfl, by omega, by omega⟩

theorem bestBlock_le {f : Nat → Nat → α} {j i : Nat} (hj : 1 ≤ j) (hi : 1 ≤ i) :
    bestBlock f j i ≤ f j i := by
  obtain ⟨cj, ci, ha, he, _⟩ := bestBlock_attained f hj hi
  rw [he]
  exact blockMin_le ha

/-- `bestBlock` only depends on the smallest values at the corners. -/
theorem bestBlock_congr {f g : Nat → Nat → α} {j i : Nat} (hj : 1 ≤ j) (hi : 1 ≤ i)
    (h : ∀ cj ci, Around cj ci j i → blockMin f cj ci = blockMin g cj ci) :
    bestBlock f j i = bestBlock g j i := by
  have a1 := h j i ⟨.inl rfl, .inl rfl⟩
  have a2 := h j (i - 1) ⟨.inl rfl, .inr (by omega)⟩
  have a3 := h (j - 1) i ⟨.inr (by omega), .inl rfl⟩
  have a4 := h (j - 1) (i - 1) ⟨.inr (by omega), .inr (by omega)⟩
  unfold bestBlock
  rw [a1, a2, a3, a4]

end Blocks

theorem connected_iff {f : Nat → Nat → Int} {j i : Nat} (hj : 1 ≤ j) (hi : 1 ≤ i) :
    Connected f j i ↔ f j i ≤ bestBlock f j i := by
  constructor
  · rintro ⟨cj, ci, ha, h⟩
    exact (le_blockMin.2 h).trans (blockMin_le_bestBlock ha)
  · intro h
    obtain ⟨cj, ci, ha, he, _⟩ := bestBlock_attained f hj hi
    rw [he] at h
    exact ⟨cj, ci, ha, le_blockMin.1 h⟩

/-! ### The pass over the grid -/

section Pass

variable [LinearOrder K]

/-- What a cell ends with. -/
def target (dcl : Bool) (k0 : Nat → Nat → Int) (j i : Nat) : Int :=
  if 0 ≤ bestBlock k0 j i ∨ dcl = false then bestBlock k0 j i else k0 j i

theorem target_cases (dcl : Bool) (k0 : Nat → Nat → Int) (j i : Nat) :
    target dcl k0 j i = bestBlock k0 j i ∨ target dcl k0 j i = k0 j i := by
  unfold target
  split <;> simp

/-- A field in which some inner cells have their final value already has the smallest values at the
corners it began with. -/
theorem blockMin_partly {dcl : Bool} {k0 k : Nat → Nat → Int}
    (h : ∀ j i, k j i = k0 j i ∨ (1 ≤ j ∧ 1 ≤ i ∧ k j i = target dcl k0 j i)) (cj ci : Nat) :
    blockMin k cj ci = blockMin k0 cj ci := by
  apply blockMin_between
  intro j i ha
  rcases h j i with e | ⟨hj, hi, e⟩
  · rw [e]; exact ⟨le_rfl, blockMin_le ha⟩
  · rcases target_cases dcl k0 j i with e' | e'
    · rw [e, e']; exact ⟨bestBlock_le hj hi, blockMin_le_bestBlock ha⟩
    · rw [e, e']; exact ⟨le_rfl, blockMin_le ha⟩

theorem removeStep_kmt {dcl : Bool} {s : State K} {c : Nat × Nat} {j i : Nat} :
    (removeStep dcl s c).kmt j i = if (j, i) = c then target dcl s.kmt j i else s.kmt j i := by
  unfold removeStep
  by_cases hc : (j, i) = c
  · subst hc
    simp only [target, if_true]
    by_cases h1 : 0 ≤ bestBlock s.kmt j i ∨ dcl = false
    · by_cases h2 : s.kmt j i = bestBlock s.kmt j i
      · simp [h2]
      · rw [if_pos ⟨h1, h2⟩, if_pos h1]
        exact (set_ht_self s (j, i) _).2
    · rw [if_neg (fun h => h1 h.1), if_neg h1]
  · simp only [hc, if_false]
    split
    · exact (set_ht_ne s c _ hc).2
    · rfl

/-- After the pass the treated cells have their final value, computed from the field before the
pass, and the other ones are as before. -/
theorem fold_kmt {dcl : Bool} {k0 : Nat → Nat → Int} (dn : Nat → Nat → Prop) :
    ∀ (cs : List (Nat × Nat)) (s : State K), (∀ c ∈ cs, 1 ≤ c.1 ∧ 1 ≤ c.2) →
      (∀ j i, (dn j i → 1 ≤ j ∧ 1 ≤ i ∧ s.kmt j i = target dcl k0 j i) ∧
        (¬ dn j i → s.kmt j i = k0 j i)) →
      ∀ j i, ((dn j i ∨ (j, i) ∈ cs) →
          (cs.foldl (removeStep dcl) s).kmt j i = target dcl k0 j i) ∧
        (¬ (dn j i ∨ (j, i) ∈ cs) → (cs.foldl (removeStep dcl) s).kmt j i = k0 j i)
  | [], s, _, h, j, i => by
    simp only [List.not_mem_nil, or_false, List.foldl_nil]
    exact ⟨fun hd => ((h j i).1 hd).2.2, (h j i).2⟩
  | c :: cs, s, hc, h, j, i => by
    have ih := fold_kmt (dcl := dcl) (k0 := k0) (fun a b => dn a b ∨ (a, b) = c) cs
      (removeStep dcl s c) (fun x hx => hc x (List.mem_cons_of_mem _ hx)) ?_ j i
    · simp only [List.foldl_cons, List.mem_cons]
      constructor
      · intro hd; exact ih.1 (by tauto)
      · intro hd; exact ih.2 (by tauto)
    · have hp : ∀ j i, s.kmt j i = k0 j i ∨ (1 ≤ j ∧ 1 ≤ i ∧ s.kmt j i = target dcl k0 j i) := by
        intro j i
        by_cases hd : dn j i
        · exact .inr ((h j i).1 hd)
        · exact .inl ((h j i).2 hd)
      have hb := blockMin_partly hp
      intro a b
      rw [removeStep_kmt]
      by_cases hab : (a, b) = c
      · subst hab
        obtain ⟨ha, hb'⟩ := hc (a, b) List.mem_cons_self
        refine ⟨fun _ => ⟨ha, hb', ?_⟩, fun hn => absurd (.inr rfl) hn⟩
        have e : bestBlock s.kmt a b = bestBlock k0 a b :=
          bestBlock_congr ha hb' (fun cj ci _ => hb cj ci)
        rw [if_pos rfl]
        rcases hp a b with e' | ⟨_, _, e'⟩
        · unfold target; rw [e, e']
        · by_cases hq : 0 ≤ bestBlock k0 a b ∨ dcl = false
          · simp only [target, e]
            rw [if_pos hq, if_pos hq]
          · simp only [target, e] at e' ⊢
            rw [if_neg hq] at e' ⊢
            rw [if_neg hq]
            exact e'
      · rw [if_neg hab]
        constructor
        · rintro (hd | hd)
          · exact (h a b).1 hd
          · exact absurd hd hab
        · intro hn
          exact (h a b).2 (fun hd => hn (.inl hd))

theorem removeIsolated_kmt (ni nj : Nat) (tri dcl : Bool) (s : State K) (j i : Nat) :
    ((1 ≤ j ∧ j ≤ checkedRows nj tri ∧ 1 ≤ i ∧ i ≤ ni) →
      (removeIsolated ni nj tri true dcl s).kmt j i = target dcl s.kmt j i) ∧
    (¬ (1 ≤ j ∧ j ≤ checkedRows nj tri ∧ 1 ≤ i ∧ i ≤ ni) →
      (removeIsolated ni nj tri true dcl s).kmt j i = s.kmt j i) := by
  have h := fold_kmt (dcl := dcl) (k0 := s.kmt) (fun _ _ => False)
    (cells ni (checkedRows nj tri)) s
    (fun c hc => by have := mem_cells.1 hc; omega)
    (fun j i => ⟨fun h => h.elim, fun _ => rfl⟩) j i
  simp only [removeIsolated, if_true]
  constructor
  · intro hc
    exact h.1 (.inr (mem_cells.2 (by simp only; omega)))
  · intro hc
    refine h.2 ?_
    rintro (h | h)
    · exact h
    · have := mem_cells.1 h
      simp only at this
      omega

/-- What a step keeps cell by cell, the whole pass keeps. -/
theorem removeIsolated_induct (P : State K → Prop) {dcl : Bool}
    (step : ∀ s c, 1 ≤ c.1 → 1 ≤ c.2 → P s → P (removeStep dcl s c)) (ni nj : Nat)
    (tri fill : Bool) (s : State K) (h : P s) : P (removeIsolated ni nj tri fill dcl s) := by
  unfold removeIsolated
  split
  · have : ∀ (cs : List (Nat × Nat)) (s : State K), (∀ c ∈ cs, 1 ≤ c.1 ∧ 1 ≤ c.2) → P s →
        P (cs.foldl (removeStep dcl) s) := by
      intro cs
      induction cs with
      | nil => intro s _ h; exact h
      | cons c cs ih =>
        intro s hc h
        exact ih _ (fun x hx => hc x (List.mem_cons_of_mem _ hx))
          (step s c (hc c List.mem_cons_self).1 (hc c List.mem_cons_self).2 h)
    exact this _ _ (fun c hc => by have := mem_cells.1 hc; omega) h
  · exact h

end Pass

end Verif.Topog
