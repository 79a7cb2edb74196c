import Verif.Model.HydrogCross
import Verif.Lemmas.HydrogIter
import Mathlib.Tactic.Linarith
/-
Lemmas about crossing rivers.
-/
namespace Verif.Hydrog

open Spec.Hydrog

theorem mem_span {lo hi k : Int} : k ∈ span lo hi ↔ lo ≤ k ∧ k ≤ hi := by
  unfold span
  simp only [List.mem_map, List.mem_range]
  constructor
  · rintro ⟨m, hm, rfl⟩
    omega
  · intro h
    exact ⟨(k - lo).toNat, by omega, by omega⟩

theorem mem_pair {toc : Pos → Int} {p q : Pos} {v v' : Int × Int} {x : Pos × Pos} :
    x ∈ pair toc p q v v' ↔ x = (p, q) ∧ ((toc p = v.1 ∧ toc q = v.2) ∨ (toc p = v'.1 ∧ toc q = v'.2)) := by
  unfold pair
  split
  · rename_i h
    simp [h]
  · rename_i h
    simp [h]

theorem pair_halo {g : Grid} {toc : Pos → Int} (hout : ∀ p, ¬ g.inside p → toc p = mval) {p q : Pos} {v v' : Int × Int}
    (h : ¬ g.inside p ∨ ¬ g.inside q) (hv : v.1 ≠ mval ∧ v.2 ≠ mval ∧ v'.1 ≠ mval ∧ v'.2 ≠ mval) : pair toc p q v v' = [] := by
  unfold pair
  rw [if_neg]
  rcases h with h | h
  · rw [hout p h]
    rintro (h' | h')
    · exact hv.1 h'.1.symm
    · exact hv.2.2.1 h'.1.symm
  · rw [hout q h]
    rintro (h' | h')
    · exact hv.2.1 h'.2.symm
    · exact hv.2.2.2 h'.2.symm

/-- Across the edges nothing is found when the halo is missing -/
theorem edges_nil {g : Grid} {toc : Pos → Int} (hout : ∀ p, ¬ g.inside p → toc p = mval) (n : Int) : edges g toc n = [] := by
  have h1 : ∀ x y, ¬ g.inside ⟨x, 0, y⟩ := by intro x y h; unfold Grid.inside at h; dsimp only at h; omega
  have h2 : ∀ x y, ¬ g.inside ⟨x, g.ny + 1, y⟩ := by intro x y h; unfold Grid.inside at h; dsimp only at h; omega
  have h3 : ∀ x y, ¬ g.inside ⟨0, x, y⟩ := by intro x y h; unfold Grid.inside at h; dsimp only at h; omega
  have h4 : ∀ x y, ¬ g.inside ⟨g.nx + 1, x, y⟩ := by intro x y h; unfold Grid.inside at h; dsimp only at h; omega
  unfold edges
  by_cases hn : n % 2 = 0
  · rw [if_pos hn]
    simp only [pair_halo hout (.inl (h1 _ _)) (v := (2, 2)) (v' := (128, 8)) (by decide),
      pair_halo hout (.inr (h2 _ _)) (v := (128, 2)) (v' := (32, 8)) (by decide),
      pair_halo hout (.inl (h3 _ _)) (v := (2, 8)) (v' := (128, 32)) (by decide),
      pair_halo hout (.inr (h4 _ _)) (v := (2, 2)) (v' := (128, 8)) (by decide)]
    simp
  · rw [if_neg hn]
    simp only [pair_halo hout (.inl (h1 _ _)) (v := (128, 2)) (v' := (32, 8)) (by decide),
      pair_halo hout (.inr (h2 _ _)) (v := (128, 8)) (v' := (32, 32)) (by decide),
      pair_halo hout (.inl (h3 _ _)) (v := (128, 8)) (v' := (32, 32)) (by decide),
      pair_halo hout (.inr (h4 _ _)) (v := (2, 8)) (v' := (128, 32)) (by decide)]
    simp

/-- What is found: two cells inside, side by side, with the values of a crossing -/
theorem mem_crossings {g : Grid} {toc : Pos → Int} (hout : ∀ p, ¬ g.inside p → toc p = mval) {p q : Pos} :
    (p, q) ∈ crossings g toc ↔ g.inside p ∧ g.inside q ∧
      ((q = ⟨p.x, p.y + 1, p.n⟩ ∧ ((toc p = 128 ∧ toc q = 2) ∨ (toc p = 32 ∧ toc q = 8))) ∨
       (q = ⟨p.x + 1, p.y, p.n⟩ ∧ ((toc p = 2 ∧ toc q = 8) ∨ (toc p = 128 ∧ toc q = 32)))) := by
  have hin : ∀ c, toc c ≠ mval → g.inside c := fun c hc => by
    by_contra h
    exact hc (hout c h)
  have hins : ((q = ⟨p.x, p.y + 1, p.n⟩ ∧ ((toc p = 128 ∧ toc q = 2) ∨ (toc p = 32 ∧ toc q = 8))) ∨
       (q = ⟨p.x + 1, p.y, p.n⟩ ∧ ((toc p = 2 ∧ toc q = 8) ∨ (toc p = 128 ∧ toc q = 32)))) → g.inside p ∧ g.inside q := by
    intro h
    refine ⟨hin p ?_, hin q ?_⟩
    · rcases h with ⟨-, h | h⟩ | ⟨-, h | h⟩ <;> rw [h.1] <;> decide
    · rcases h with ⟨-, h | h⟩ | ⟨-, h | h⟩ <;> rw [h.2] <;> decide
  unfold crossings
  by_cases h1 : g.nt = 1
  · rw [if_pos h1]
    simp only [List.mem_flatMap, List.mem_append, mem_span, above, right, mem_pair, Prod.mk.injEq]
    constructor
    · rintro ⟨n, hn, y, hy, x, hx, h⟩
      have h' : ((q = ⟨p.x, p.y + 1, p.n⟩ ∧ ((toc p = 128 ∧ toc q = 2) ∨ (toc p = 32 ∧ toc q = 8))) ∨
          (q = ⟨p.x + 1, p.y, p.n⟩ ∧ ((toc p = 2 ∧ toc q = 8) ∨ (toc p = 128 ∧ toc q = 32)))) := by
        rcases h with ⟨⟨rfl, rfl⟩, h⟩ | ⟨⟨rfl, rfl⟩, h⟩
        · exact .inl ⟨rfl, h⟩
        · exact .inr ⟨rfl, h⟩
      exact ⟨(hins h').1, (hins h').2, h'⟩
    · rintro ⟨hp, hq, h⟩
      unfold Grid.inside at hp
      refine ⟨p.n, by omega, p.y, by omega, p.x, by omega, ?_⟩
      rcases h with ⟨rfl, h⟩ | ⟨rfl, h⟩
      · exact .inl ⟨⟨rfl, rfl⟩, h⟩
      · exact .inr ⟨⟨rfl, rfl⟩, h⟩
  · rw [if_neg h1]
    simp only [List.mem_flatMap, List.mem_append, mem_span, above, right, mem_pair, Prod.mk.injEq, edges_nil hout, List.not_mem_nil,
      and_false, exists_false, or_false]
    constructor
    · rintro ⟨n, hn, ⟨y, hy, x, hx, h⟩ | ⟨y, hy, x, hx, h⟩⟩
      · have h' : ((q = ⟨p.x, p.y + 1, p.n⟩ ∧ ((toc p = 128 ∧ toc q = 2) ∨ (toc p = 32 ∧ toc q = 8))) ∨
            (q = ⟨p.x + 1, p.y, p.n⟩ ∧ ((toc p = 2 ∧ toc q = 8) ∨ (toc p = 128 ∧ toc q = 32)))) := by
          obtain ⟨⟨rfl, rfl⟩, h⟩ := h
          exact .inl ⟨rfl, h⟩
        exact ⟨(hins h').1, (hins h').2, h'⟩
      · have h' : ((q = ⟨p.x, p.y + 1, p.n⟩ ∧ ((toc p = 128 ∧ toc q = 2) ∨ (toc p = 32 ∧ toc q = 8))) ∨
            (q = ⟨p.x + 1, p.y, p.n⟩ ∧ ((toc p = 2 ∧ toc q = 8) ∨ (toc p = 128 ∧ toc q = 32)))) := by
          obtain ⟨⟨rfl, rfl⟩, h⟩ := h
          exact .inr ⟨rfl, h⟩
        exact ⟨(hins h').1, (hins h').2, h'⟩
    · rintro ⟨hp, hq, h⟩
      unfold Grid.inside at hp hq
      rcases h with ⟨rfl, h⟩ | ⟨rfl, h⟩
      · dsimp only at hq
        exact ⟨p.n, by omega, .inl ⟨p.y, by omega, p.x, by omega, ⟨rfl, rfl⟩, h⟩⟩
      · dsimp only at hq
        exact ⟨p.n, by omega, .inr ⟨p.y, by omega, p.x, by omega, ⟨rfl, rfl⟩, h⟩⟩

theorem dirs_diag {e : Int × Int} {d : Int} (h : (e, d) ∈ dirs) (h1 : e.1 ≠ 0) (h2 : e.2 ≠ 0) :
    (e = (-1, -1) ∧ d = 8) ∨ (e = (1, -1) ∧ d = 2) ∨ (e = (-1, 1) ∧ d = 32) ∨ (e = (1, 1) ∧ d = 128) := by
  simp only [dirs, List.mem_cons, Prod.mk.injEq, List.not_mem_nil, or_false] at h
  rcases h with ⟨rfl, rfl⟩ | ⟨rfl, rfl⟩ | ⟨rfl, rfl⟩ | ⟨rfl, rfl⟩ | ⟨rfl, rfl⟩ | ⟨rfl, rfl⟩ | ⟨rfl, rfl⟩ | ⟨rfl, rfl⟩ | ⟨rfl, rfl⟩ <;>
    simp at h1 h2 ⊢

theorem dirs_inj {e f : Int × Int} {d : Int} (h : (e, d) ∈ dirs) (h' : (f, d) ∈ dirs) : e = f := by
  rw [← offset_iff] at h h'
  rw [h] at h'
  cases h'
  rfl

/-! ### The correction -/

theorem dirTo_some {p t : Pos} {d : Int} (h : dirTo p t = some d) : ∃ e, (e, d) ∈ dirs ∧ p.move e = t := by
  unfold dirTo at h
  obtain ⟨x, hx, rfl⟩ := Option.map_eq_some_iff.mp h
  refine ⟨x.1, List.mem_of_find?_eq_some hx, ?_⟩
  simpa using List.find?_some hx

theorem dirTo_move {p : Pos} {e : Int × Int} {d : Int} (h : (e, d) ∈ dirs) : dirTo p (p.move e) = some d := by
  cases hd : dirTo p (p.move e) with
  | none =>
    unfold dirTo at hd
    rw [Option.map_eq_none_iff, List.find?_eq_none] at hd
    exact absurd (hd _ h) (by simp)
  | some d' =>
    obtain ⟨f, hf, hm⟩ := dirTo_some hd
    unfold Pos.move at hm
    rw [Pos.mk.injEq] at hm
    have : f = e := Prod.ext (by omega) (by omega)
    subst this
    simp only [dirs, List.mem_cons, Prod.mk.injEq, List.not_mem_nil, or_false] at h hf
    rcases h with ⟨rfl, rfl⟩ | ⟨rfl, rfl⟩ | ⟨rfl, rfl⟩ | ⟨rfl, rfl⟩ | ⟨rfl, rfl⟩ | ⟨rfl, rfl⟩ | ⟨rfl, rfl⟩ | ⟨rfl, rfl⟩ | ⟨rfl, rfl⟩ <;>
      simp at hf ⊢ <;> exact hf

variable {R : Type} [LinearOrder R]

theorem lead_other {toc : Pos → Int} {p t c : Pos} (h : c ≠ p) : lead toc p t c = toc c := by
  unfold lead
  cases dirTo p t with
  | none => rfl
  | some d => exact Function.update_of_ne h _ _

/-- The outcomes of a correction -/
theorem fixOne_eq {sub : Pos → R} {toc : Pos → Int} {p q : Pos} {e f : Int × Int} (he : offset (toc p) = some e)
    (hf : offset (toc q) = some f) : fixOne sub toc (p, q) =
      if sub (p.move e) < sub (q.move f) then lead toc p (q.move f)
      else if sub (q.move f) < sub (p.move e) then lead toc q (p.move e) else toc := by
  unfold fixOne
  dsimp only
  rw [he, hf]

theorem fixOne_none {sub : Pos → R} {toc : Pos → Int} {p q : Pos} (h : offset (toc p) = none ∨ offset (toc q) = none) :
    fixOne sub toc (p, q) = toc := by
  unfold fixOne
  dsimp only
  cases hp : offset (toc p) with
  | none => rfl
  | some e =>
    rw [hp] at h
    rw [h.resolve_left (by simp)]

theorem fixOne_cases (sub : Pos → R) (toc : Pos → Int) (p q : Pos) :
    fixOne sub toc (p, q) = toc ∨ (∃ t, fixOne sub toc (p, q) = lead toc p t) ∨ ∃ t, fixOne sub toc (p, q) = lead toc q t := by
  cases he : offset (toc p) with
  | none => exact .inl (fixOne_none (.inl he))
  | some e =>
    cases hf : offset (toc q) with
    | none => exact .inl (fixOne_none (.inr hf))
    | some f =>
      rw [fixOne_eq he hf]
      split_ifs
      · exact .inr (.inl ⟨_, rfl⟩)
      · exact .inr (.inr ⟨_, rfl⟩)
      · exact .inl rfl

theorem fixOne_other {sub : Pos → R} {toc : Pos → Int} {p q c : Pos} (hp : c ≠ p) (hq : c ≠ q) : fixOne sub toc (p, q) c = toc c := by
  rcases fixOne_cases sub toc p q with h | ⟨t, h⟩ | ⟨t, h⟩
  · rw [h]
  · rw [h, lead_other hp]
  · rw [h, lead_other hq]

theorem fixAll_other {sub : Pos → R} {c : Pos} : ∀ (l : List (Pos × Pos)) (toc : Pos → Int),
    (∀ x ∈ l, c ≠ x.1 ∧ c ≠ x.2) → l.foldl (fixOne sub) toc c = toc c := by
  intro l
  induction l with
  | nil => intro toc _; rfl
  | cons x l ih =>
    intro toc h
    rw [List.foldl_cons, ih _ fun y hy => h y (List.mem_cons_of_mem _ hy)]
    have := h x List.mem_cons_self
    exact fixOne_other this.1 this.2

/-- The values at the two cells of a crossing after its correction depend only on the values there before -/
theorem fixOne_pair {sub : Pos → R} {toc toc' : Pos → Int} {p q : Pos} (hne : p ≠ q) (hp : toc p = toc' p) (hq : toc q = toc' q) :
    fixOne sub toc (p, q) p = fixOne sub toc' (p, q) p ∧ fixOne sub toc (p, q) q = fixOne sub toc' (p, q) q := by
  have hl : ∀ t, lead toc p t p = lead toc' p t p ∧ lead toc p t q = lead toc' p t q := by
    intro t
    unfold lead
    cases dirTo p t with
    | none => exact ⟨hp, hq⟩
    | some d =>
      dsimp only
      rw [Function.update_self, Function.update_self, Function.update_of_ne hne.symm, Function.update_of_ne hne.symm]
      exact ⟨rfl, hq⟩
  have hl' : ∀ t, lead toc q t p = lead toc' q t p ∧ lead toc q t q = lead toc' q t q := by
    intro t
    unfold lead
    cases dirTo q t with
    | none => exact ⟨hp, hq⟩
    | some d =>
      dsimp only
      rw [Function.update_self, Function.update_self, Function.update_of_ne hne, Function.update_of_ne hne]
      exact ⟨hp, rfl⟩
  cases he : offset (toc p) with
  | none =>
    rw [fixOne_none (.inl he), fixOne_none (.inl (hp ▸ he))]
    exact ⟨hp, hq⟩
  | some e =>
    cases hf : offset (toc q) with
    | none =>
      rw [fixOne_none (.inr hf), fixOne_none (.inr (hq ▸ hf))]
      exact ⟨hp, hq⟩
    | some f =>
      rw [fixOne_eq he hf, fixOne_eq (hp ▸ he) (hq ▸ hf)]
      split_ifs
      · exact hl _
      · exact hl' _
      · exact ⟨hp, hq⟩

/-- A second correction does nothing -/
theorem fixOne_twice {sub : Pos → R} {toc : Pos → Int} {p q : Pos} (hne : p ≠ q) :
    fixOne sub (fixOne sub toc (p, q)) (p, q) p = fixOne sub toc (p, q) p ∧
    fixOne sub (fixOne sub toc (p, q)) (p, q) q = fixOne sub toc (p, q) q := by
  have hsame : fixOne sub toc (p, q) = toc ∨ fixOne sub (fixOne sub toc (p, q)) (p, q) = fixOne sub toc (p, q) := by
    have key : ∀ (t' : Pos → Int) (e f : Int × Int), offset (t' p) = some e → offset (t' q) = some f → p.move e = q.move f →
        fixOne sub t' (p, q) = t' := by
      intro t' e f he hf hm
      unfold fixOne
      dsimp only
      rw [he, hf]
      dsimp only
      rw [hm, if_neg (lt_irrefl _), if_neg (lt_irrefl _)]
    cases he : offset (toc p) with
    | none => left; unfold fixOne; dsimp only; rw [he]
    | some e =>
      cases hf : offset (toc q) with
      | none => left; unfold fixOne; dsimp only; rw [he, hf]
      | some f =>
        by_cases h1 : sub (p.move e) < sub (q.move f)
        · have h2 : fixOne sub toc (p, q) = lead toc p (q.move f) := by
            unfold fixOne; dsimp only; rw [he, hf]; dsimp only; rw [if_pos h1]
          rw [h2]
          unfold lead
          cases hd : dirTo p (q.move f) with
          | none => left; rfl
          | some d =>
            right
            dsimp only
            obtain ⟨e', he', hm⟩ := dirTo_some hd
            refine key _ e' f ?_ ?_ hm
            · rw [Function.update_self]
              exact offset_iff.mpr he'
            · rwa [Function.update_of_ne hne.symm]
        · by_cases h3 : sub (q.move f) < sub (p.move e)
          · have h2 : fixOne sub toc (p, q) = lead toc q (p.move e) := by
              unfold fixOne; dsimp only; rw [he, hf]; dsimp only; rw [if_neg h1, if_pos h3]
            rw [h2]
            unfold lead
            cases hd : dirTo q (p.move e) with
            | none => left; rfl
            | some d =>
              right
              dsimp only
              obtain ⟨e', he', hm⟩ := dirTo_some hd
              refine key _ e e' ?_ ?_ hm.symm
              · rwa [Function.update_of_ne hne]
              · rw [Function.update_self]
                exact offset_iff.mpr he'
          · left
            unfold fixOne; dsimp only; rw [he, hf]; dsimp only; rw [if_neg h1, if_neg h3]
  rcases hsame with h | h
  · rw [h, h]
    exact ⟨rfl, rfl⟩
  · rw [h]
    exact ⟨rfl, rfl⟩

/-- Pairs that have no cell in common are corrected each on its own -/
theorem fixAll_pair {sub : Pos → R} {p q : Pos} (hne : p ≠ q) : ∀ (l : List (Pos × Pos)) (toc : Pos → Int),
    (∀ x ∈ l, x = (p, q) ∨ (p ≠ x.1 ∧ p ≠ x.2 ∧ q ≠ x.1 ∧ q ≠ x.2)) →
    (l.foldl (fixOne sub) toc p = if (p, q) ∈ l then fixOne sub toc (p, q) p else toc p) ∧
    (l.foldl (fixOne sub) toc q = if (p, q) ∈ l then fixOne sub toc (p, q) q else toc q) := by
  intro l
  induction l with
  | nil => intro toc _; simp
  | cons x l ih =>
    intro toc h
    rw [List.foldl_cons]
    obtain ⟨i1, i2⟩ := ih (fixOne sub toc x) fun y hy => h y (List.mem_cons_of_mem _ hy)
    rw [i1, i2]
    rcases h x List.mem_cons_self with rfl | ⟨h1, h2, h3, h4⟩
    · rw [if_pos List.mem_cons_self, if_pos List.mem_cons_self]
      by_cases hm : (p, q) ∈ l
      · rw [if_pos hm, if_pos hm]
        exact fixOne_twice hne
      · rw [if_neg hm, if_neg hm]
        exact ⟨rfl, rfl⟩
    · have e1 : fixOne sub toc x p = toc p := fixOne_other h1 h2
      have e2 : fixOne sub toc x q = toc q := fixOne_other h3 h4
      have hx : (p, q) ≠ x := by
        rintro rfl
        exact h1 rfl
      have hmem : (p, q) ∈ x :: l ↔ (p, q) ∈ l := by
        simp [hx]
      obtain ⟨f1, f2⟩ := fixOne_pair (sub := sub) hne e1 e2
      by_cases hm : (p, q) ∈ l
      · rw [if_pos hm, if_pos hm, if_pos (hmem.mpr hm), if_pos (hmem.mpr hm)]
        exact ⟨f1, f2⟩
      · rw [if_neg hm, if_neg hm, if_neg (fun h => hm (hmem.mp h)), if_neg (fun h => hm (hmem.mp h))]
        exact ⟨e1, e2⟩

end Verif.Hydrog
