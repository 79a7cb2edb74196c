import Mathlib.Tactic.SplitIfs
import Mathlib.Data.List.Nodup
import Mathlib.Data.List.Flatten
import Verif.Model.Topog

/-! # Lemmas about loops over cells -/

namespace Verif.Topog

variable {K : Type _}

theorem mem_cells {ni nj : Nat} {c : Nat × Nat} :
    c ∈ cells ni nj ↔ (1 ≤ c.1 ∧ c.1 ≤ nj) ∧ 1 ≤ c.2 ∧ c.2 ≤ ni := by
  obtain ⟨a, b⟩ := c
  simp only [cells, List.mem_flatMap, List.mem_range, List.mem_map, Prod.mk.injEq]
  constructor
  · rintro ⟨j, hj, i, hi, rfl, rfl⟩
    omega
  · rintro ⟨⟨h1, h2⟩, h3, h4⟩
    exact ⟨a - 1, by omega, b - 1, by omega, by omega, by omega⟩

theorem nodup_cells (ni nj : Nat) : (cells ni nj).Nodup := by
  unfold cells
  rw [List.nodup_flatMap]
  refine ⟨fun j _ => ?_, ?_⟩
  · exact (List.nodup_range).map (fun a b h => by simpa using h)
  · refine List.Pairwise.imp ?_ (List.nodup_range (n := nj))
    intro a b hab
    rw [Function.onFun, List.disjoint_left]
    rintro ⟨x, y⟩ h1 h2
    simp only [List.mem_map, Prod.mk.injEq] at h1 h2
    obtain ⟨_, _, h1, _⟩ := h1
    obtain ⟨_, _, h2, _⟩ := h2
    omega

theorem set_ht_self (s : State K) (c : Nat × Nat) (r : K × Int) :
    (s.set c r).ht c.1 c.2 = r.1 ∧ (s.set c r).kmt c.1 c.2 = r.2 := by
  simp [State.set]

theorem set_ht_ne (s : State K) (c : Nat × Nat) (r : K × Int) {j i : Nat} (h : (j, i) ≠ c) :
    (s.set c r).ht j i = s.ht j i ∧ (s.set c r).kmt j i = s.kmt j i := by
  simp [State.set, h]

/-- A loop over distinct cells treats every cell once and leaves the others alone. -/
theorem eachCell_spec {f : K → Int → Except Stop (K × Int)} :
    ∀ {cs : List (Nat × Nat)} {s t : State K}, cs.Nodup → eachCell f cs s = .ok t →
      ∀ j i, ((j, i) ∈ cs → f (s.ht j i) (s.kmt j i) = .ok (t.ht j i, t.kmt j i)) ∧
        ((j, i) ∉ cs → t.ht j i = s.ht j i ∧ t.kmt j i = s.kmt j i)
  | [], s, t, _, h, j, i => by
    simp only [eachCell, Except.ok.injEq] at h
    subst h
    simp
  | c :: cs, s, t, hn, h, j, i => by
    rw [eachCell] at h
    split at h
    · cases h
    · rename_i r hr
      obtain ⟨hc, hn'⟩ := List.nodup_cons.1 hn
      have ih := eachCell_spec hn' h j i
      by_cases hji : (j, i) = c
      · subst hji
        have h2 := ih.2 hc
        have h3 := set_ht_self s (j, i) r
        refine ⟨fun _ => ?_, fun h => absurd List.mem_cons_self h⟩
        rw [hr, h2.1, h2.2]
        simp only at h3
        rw [h3.1, h3.2]
      · have h3 := set_ht_ne s c r hji
        rw [h3.1, h3.2] at ih
        constructor
        · intro hm
          rcases List.mem_cons.1 hm with h | h
          · exact absurd h hji
          · exact ih.1 h
        · intro hm
          exact ih.2 (fun h => hm (List.mem_cons_of_mem _ h))

/-- The loop succeeds when every cell does. -/
theorem eachCell_ok {f : K → Int → Except Stop (K × Int)} :
    ∀ {cs : List (Nat × Nat)} {s : State K}, cs.Nodup →
      (∀ j i, (j, i) ∈ cs → ∃ r, f (s.ht j i) (s.kmt j i) = .ok r) → ∃ t, eachCell f cs s = .ok t
  | [], s, _, _ => ⟨s, rfl⟩
  | c :: cs, s, hn, h => by
    obtain ⟨hc, hn'⟩ := List.nodup_cons.1 hn
    obtain ⟨r, hr⟩ := h c.1 c.2 List.mem_cons_self
    rw [eachCell, hr]
    refine eachCell_ok hn' ?_
    intro j i hm
    have hne : (j, i) ≠ c := fun e => hc (e ▸ hm)
    rw [(set_ht_ne s c r hne).1, (set_ht_ne s c r hne).2]
    exact h j i (List.mem_cons_of_mem _ hm)

end Verif.Topog
