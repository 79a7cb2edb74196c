import Verif.Spec.Hydrog
import Mathlib.Data.List.Range
import Mathlib.Data.List.Nodup
import Mathlib.Algebra.Order.BigOperators.Group.List
import Mathlib.Tactic.Ring
import Mathlib.Tactic.Linarith
/-
Lemmas for C102 to C105: paths, the walk down a river, the loop over all cells.
-/
namespace Verif.Hydrog

open Verif.Spec.Hydrog

theorem mem_cells {g : Grid} {p : Pos} : p ∈ cells g ↔ g.inside p := by
  unfold cells Grid.inside
  simp only [List.mem_flatMap, List.mem_range, List.mem_map]
  constructor
  · rintro ⟨n, hn, y, hy, x, hx, rfl⟩
    dsimp only
    omega
  · rintro ⟨h1, h2, h3, h4, h5, h6⟩
    refine ⟨(p.n - 1).toNat, by omega, (p.y - 1).toNat, by omega, (p.x - 1).toNat, by omega, ?_⟩
    cases p
    simp only at *
    congr 1 <;> omega

theorem cells_nodup (g : Grid) : (cells g).Nodup := by
  unfold cells
  rw [List.nodup_flatMap]
  refine ⟨fun n _ => ?_, ?_⟩
  · rw [List.nodup_flatMap]
    refine ⟨fun y _ => ?_, ?_⟩
    · refine List.Nodup.map ?_ List.nodup_range
      intro x x' h
      simp only [Pos.mk.injEq] at h
      omega
    · refine List.Nodup.pairwise_of_forall_ne List.nodup_range ?_
      intro y _ y' _ hne
      simp only [Function.onFun, List.disjoint_left, List.mem_map]
      rintro p ⟨x, -, rfl⟩ ⟨x', -, h⟩
      simp only [Pos.mk.injEq] at h
      omega
  · refine List.Nodup.pairwise_of_forall_ne List.nodup_range ?_
    intro n _ n' _ hne
    simp only [Function.onFun, List.disjoint_left, List.mem_flatMap, List.mem_map]
    rintro p ⟨y, -, x, -, rfl⟩ ⟨y', -, x', -, h⟩
    simp only [Pos.mk.injEq] at h
    omega

theorem offset_iff {d : Int} {e : Int × Int} : offset d = some e ↔ (e, d) ∈ dirs := by
  unfold offset
  constructor
  · intro h
    obtain ⟨x, hx, rfl⟩ := Option.map_eq_some_iff.mp h
    have h1 := List.find?_some hx
    have h2 := List.mem_of_find?_eq_some hx
    simp only [decide_eq_true_eq] at h1
    rw [← h1]
    exact h2
  · intro h
    simp only [dirs, List.mem_cons, Prod.mk.injEq, List.not_mem_nil, or_false] at h
    rcases h with ⟨rfl, rfl⟩ | ⟨rfl, rfl⟩ | ⟨rfl, rfl⟩ | ⟨rfl, rfl⟩ | ⟨rfl, rfl⟩ | ⟨rfl, rfl⟩ | ⟨rfl, rfl⟩ | ⟨rfl, rfl⟩ | ⟨rfl, rfl⟩ <;> rfl

theorem offset_zero : offset 0 = some (0, 0) := rfl
theorem offset_mval : offset mval = none := rfl

theorem _root_.Verif.Spec.Hydrog.Next.unique {g : Grid} {toc : Pos → Int} {p q q' : Pos} (h : Next g toc p q) (h' : Next g toc p q') : q = q' := by
  obtain ⟨-, e, he, rfl⟩ := h
  obtain ⟨-, e', he', rfl⟩ := h'
  rw [← offset_iff] at he he'
  rw [he] at he'
  cases he'
  rfl

theorem _root_.Verif.Spec.Hydrog.Next.ne_mval {g : Grid} {toc : Pos → Int} {p q : Pos} (h : Next g toc p q) : toc p ≠ mval := by
  obtain ⟨-, e, he, -⟩ := h
  intro hm
  rw [hm, ← offset_iff, offset_mval] at he
  cases he

/-- A path inside a path to an outlet -/
theorem _root_.Verif.Spec.Hydrog.Path.split {g : Grid} {toc : Pos → Int} {p q o : Pos} {i k : Nat} (h : Path g toc p i q) (ho : Path g toc p k o)
    (hz : toc o = 0) : i ≤ k ∧ Path g toc q (k - i) o := by
  induction h generalizing k with
  | here p => exact ⟨Nat.zero_le _, ho⟩
  | @step p q r i hn _ ih =>
    cases ho with
    | here => exact absurd hz hn.1
    | @step _ q' _ k hn' ho' =>
      cases hn.unique hn'
      obtain ⟨h1, h2⟩ := ih ho'
      exact ⟨by omega, by rwa [show k + 1 - (i + 1) = k - i by omega]⟩

theorem _root_.Verif.Spec.Hydrog.Path.outlet_unique {g : Grid} {toc : Pos → Int} {p o o' : Pos} {k k' : Nat} (h : Path g toc p k o) (hz : toc o = 0)
    (h' : Path g toc p k' o') (hz' : toc o' = 0) : k = k' ∧ o = o' := by
  have h1 := (h.split h' hz').1
  obtain ⟨h2, h3⟩ := h'.split h hz
  have : k = k' := by omega
  subst this
  rw [Nat.sub_self] at h3
  cases h3
  exact ⟨rfl, rfl⟩

theorem _root_.Verif.Spec.Hydrog.Path.trans {g : Grid} {toc : Pos → Int} {p q r : Pos} {i k : Nat} (h : Path g toc p i q) (h' : Path g toc q k r) :
    Path g toc p (i + k) r := by
  induction h with
  | here => rwa [Nat.zero_add]
  | step hn _ ih => rw [Nat.add_right_comm]; exact .step hn (ih h')

theorem above_step {g : Grid} {toc : Pos → Int} {p q r : Pos} (h : Next g toc p q) :
    Above g toc p r ↔ r = p ∨ Above g toc q r := by
  constructor
  · rintro ⟨k, hk⟩
    cases hk with
    | here => exact .inl rfl
    | step hn hk =>
      cases h.unique hn
      exact .inr ⟨_, hk⟩
  · rintro (rfl | ⟨k, hk⟩)
    · exact ⟨0, .here _⟩
    · exact ⟨k + 1, .step h hk⟩

theorem not_above_back {g : Grid} {toc : Pos → Int} {p q o : Pos} {k : Nat} (h : Next g toc p q) (hk : Path g toc q k o)
    (hz : toc o = 0) : ¬ Above g toc q p := by
  rintro ⟨i, hi⟩
  obtain ⟨h1, h2⟩ := hi.split hk hz
  have := (h2.outlet_unique hz (.step h hk) hz).1
  omega

variable {R : Type} [Field R] [LinearOrder R]

open Classical in
theorem walk_path {g : Grid} {a : Areas R} {c : Pos} {toc : Pos → Int} {p o : Pos} {k : Nat} (h : Path g toc p k o)
    (hz : toc o = 0) : ∀ (fuel j : Nat) (s : State R), k < fuel → s.toc = toc →
    walk g a c fuel p j s = some { s with
      suba := fun q => s.suba q + if Above g toc p q then a.weight s.lfr c else 0
      travel := Function.update s.travel c ((j + k : Nat) : R)
      ibas := Function.update s.ibas c (s.idx o) } := by
  induction h with
  | here p =>
    intro fuel j s hf hs
    obtain ⟨fuel, rfl⟩ : ∃ f, fuel = f + 1 := ⟨fuel - 1, by omega⟩
    have hoff : offset (s.toc p) = some (0, 0) := by rw [hs, hz]; rfl
    have hp0 : s.toc p = 0 := by rw [hs, hz]
    simp only [walk, hoff]
    rw [if_pos hp0]
    simp only [Nat.add_zero]
    congr 2
    funext q
    have : Above g toc p q ↔ q = p := by
      constructor
      · rintro ⟨k, hk⟩
        cases hk with
        | here => rfl
        | step hn _ => exact absurd hz hn.1
      · rintro rfl; exact ⟨0, .here _⟩
    by_cases hq : q = p
    · subst hq; simp [this]
    · rw [Function.update_of_ne hq, if_neg (by rwa [this]), add_zero]
  | @step p q o k hn hp ih =>
    intro fuel j s hf hs
    obtain ⟨fuel, rfl⟩ : ∃ f, fuel = f + 1 := ⟨fuel - 1, by omega⟩
    obtain ⟨hne, e, he, rfl⟩ := hn
    have hoff : offset (s.toc p) = some e := by rw [hs, offset_iff.mpr he]
    simp only [walk, hoff]
    rw [if_neg (by rw [hs]; exact hne), ih hz fuel (j + 1) { s with suba := Function.update s.suba p (s.suba p + a.weight s.lfr c) } (by omega) hs]
    simp only [show j + 1 + k = j + (k + 1) by omega]
    congr 2
    funext r
    have hb := not_above_back ⟨hne, e, he, rfl⟩ hp hz
    have hab := @above_step g toc p _ r ⟨hne, e, he, rfl⟩
    by_cases hr : r = p
    · subst hr
      rw [Function.update_self, if_neg hb, if_pos (hab.mpr (.inl rfl)), add_zero]
    · rw [Function.update_of_ne hr]
      congr 1
      exact if_congr (by rw [hab]; simp [hr]) rfl rfl

/-! ### The outlets -/

theorem register_fold (toc : Pos → Int) (lfr : Pos → R) : ∀ (l : List Pos) (s : State R), l.Nodup → s.toc = toc → s.lfr = lfr →
    ∃ idx ilo, l.foldl register s = { s with idx := idx, ilo := s.ilo ++ ilo } ∧
      (∀ p, ¬ (p ∈ l ∧ toc p = 0) → idx p = s.idx p) ∧
      (∀ p ∈ l, toc p = 0 → ∃ m : Nat, idx p = s.ilo.length + m + 1 ∧ ilo[m]? = some (kind (lfr p))) ∧
      (∀ m : Nat, m < ilo.length → ∃ p ∈ l, toc p = 0 ∧ idx p = s.ilo.length + m + 1) ∧
      (∀ p ∈ l, ∀ q ∈ l, toc p = 0 → toc q = 0 → idx p = idx q → p = q) := by
  intro l
  induction l with
  | nil =>
    intro s _ _ _
    exact ⟨s.idx, [], by simp, by simp, by simp, by simp, by simp⟩
  | cons c l ih =>
    intro s hnd h1 h2
    obtain ⟨hc, hl⟩ := List.nodup_cons.mp hnd
    rw [List.foldl_cons]
    by_cases hz : toc c = 0
    · have hr : register s c = { s with idx := Function.update s.idx c (s.ilo.length + 1), ilo := s.ilo ++ [kind (lfr c)] } := by
        unfold register
        rw [h1, h2, hz, if_neg (by decide), if_pos rfl]
      rw [hr]
      obtain ⟨idx, ilo, e1, e2, e3, e4, e5⟩ := ih { s with idx := Function.update s.idx c (s.ilo.length + 1), ilo := s.ilo ++ [kind (lfr c)] } hl h1 h2
      have hci : idx c = s.ilo.length + 1 := by
        rw [e2 c (fun h => hc h.1)]
        simp
      refine ⟨idx, kind (lfr c) :: ilo, by rw [e1]; simp, ?_, ?_, ?_, ?_⟩
      · intro p hp
        rw [e2 p (fun h => hp ⟨by simp [h.1], h.2⟩)]
        have : p ≠ c := by rintro rfl; exact hp ⟨by simp, hz⟩
        simp [this]
      · intro p hp hpz
        rcases List.mem_cons.mp hp with rfl | hp
        · exact ⟨0, by simpa using hci, by simp⟩
        · obtain ⟨m, h3, h4⟩ := e3 p hp hpz
          refine ⟨m + 1, ?_, by simpa using h4⟩
          rw [h3]
          simp only [List.length_append, List.length_cons, List.length_nil]
          push_cast
          ring
      · intro m hm
        cases m with
        | zero => exact ⟨c, by simp, hz, by simpa using hci⟩
        | succ m =>
          obtain ⟨p, h3, h4, h5⟩ := e4 m (by simpa using hm)
          refine ⟨p, by simp [h3], h4, ?_⟩
          rw [h5]
          simp only [List.length_append, List.length_cons, List.length_nil]
          push_cast
          ring
      · intro p hp q hq hpz hqz he
        rcases List.mem_cons.mp hp with rfl | hp'
        · rcases List.mem_cons.mp hq with rfl | hq
          · rfl
          · obtain ⟨m, h3, -⟩ := e3 q hq hqz
            rw [hci, h3] at he
            simp only [List.length_append, List.length_cons, List.length_nil] at he
            omega
        · rcases List.mem_cons.mp hq with rfl | hq
          · obtain ⟨m, h3, -⟩ := e3 p hp' hpz
            rw [hci, h3] at he
            simp only [List.length_append, List.length_cons, List.length_nil] at he
            omega
          · exact e5 p hp' q hq hpz hqz he
    · have hr : register s c = s := by
        unfold register
        rw [h1, if_neg hz, ite_self]
      rw [hr]
      obtain ⟨idx, ilo, e1, e2, e3, e4, e5⟩ := ih s hl h1 h2
      refine ⟨idx, ilo, e1, ?_, ?_, ?_, ?_⟩
      · intro p hp
        exact e2 p fun h => hp ⟨by simp [h.1], h.2⟩
      · intro p hp hpz
        rcases List.mem_cons.mp hp with rfl | hp
        · exact absurd hpz hz
        · exact e3 p hp hpz
      · intro m hm
        obtain ⟨p, h3, h4⟩ := e4 m hm
        exact ⟨p, by simp [h3], h4⟩
      · intro p hp q hq hpz hqz he
        rcases List.mem_cons.mp hp with rfl | hp
        · exact absurd hpz hz
        · rcases List.mem_cons.mp hq with rfl | hq
          · exact absurd hqz hz
          · exact e5 p hp q hq hpz hqz he

/-! ### All rivers -/

open Classical in
theorem rivers_fold {g : Grid} {a : Areas R} {toc : Pos → Int} {lfr : Pos → R} {idx : Pos → Int} {fuel : Nat} :
    ∀ (l : List Pos) (s : State R), s.toc = toc → s.lfr = lfr → s.idx = idx → l.Nodup →
    (∀ c ∈ l, toc c ≠ mval → ∃ k o, k < fuel ∧ Path g toc c k o ∧ toc o = 0) →
    ∃ s', l.foldlM (river g a fuel) s = some s' ∧ s'.toc = toc ∧ s'.lfr = lfr ∧ s'.idx = idx ∧ s'.ilo = s.ilo ∧
      (∀ q, s'.suba q = s.suba q + ((l.filter fun c => decide (toc c ≠ mval ∧ Above g toc c q)).map (a.weight lfr)).sum) ∧
      (∀ c, ¬ (c ∈ l ∧ toc c ≠ mval) → s'.travel c = s.travel c ∧ s'.ibas c = s.ibas c) ∧
      (∀ c ∈ l, toc c ≠ mval → ∀ k o, Path g toc c k o → toc o = 0 → s'.travel c = (k : R) ∧ s'.ibas c = idx o) := by
  intro l
  induction l with
  | nil =>
    intro s h1 h2 h3 _ _
    exact ⟨s, rfl, h1, h2, h3, rfl, by simp, by simp, by simp⟩
  | cons c l ih =>
    intro s h1 h2 h3 hnd h
    obtain ⟨hc, hl⟩ := List.nodup_cons.mp hnd
    rw [List.foldlM_cons]
    by_cases hm : toc c = mval
    · have hr : river g a fuel s c = some s := by unfold river; rw [h1, if_pos hm]
      rw [hr]
      obtain ⟨s', e0, e1, e2, e3, e4, e5, e6, e7⟩ := ih s h1 h2 h3 hl fun d hd => h d (by simp [hd])
      refine ⟨s', e0, e1, e2, e3, e4, ?_, ?_, ?_⟩
      · intro q
        rw [e5, List.filter_cons_of_neg (by simp [hm])]
      · intro d hd
        exact e6 d fun h => hd ⟨by simp [h.1], h.2⟩
      · intro d hd hdm
        rcases List.mem_cons.mp hd with rfl | hd
        · exact absurd hm hdm
        · exact e7 d hd hdm
    · obtain ⟨k, o, hk, hp, hz⟩ := h c (by simp) hm
      rw [show river g a fuel s c = walk g a c fuel c 0 s by unfold river; rw [h1, if_neg hm],
        walk_path hp hz fuel 0 s hk h1]
      obtain ⟨s', e0, e1, e2, e3, e4, e5, e6, e7⟩ := ih { s with
        suba := fun q => s.suba q + if Above g toc c q then a.weight s.lfr c else 0
        travel := Function.update s.travel c ((0 + k : Nat) : R)
        ibas := Function.update s.ibas c (s.idx o) } h1 h2 h3 hl fun d hd => h d (by simp [hd])
      refine ⟨s', e0, e1, e2, e3, e4, ?_, ?_, ?_⟩
      · intro q
        rw [e5]
        by_cases hq : Above g toc c q
        · rw [List.filter_cons_of_pos (by simp [hm, hq]), List.map_cons, List.sum_cons]
          simp only [hq, if_true, h2]
          ring
        · rw [List.filter_cons_of_neg (by simp [hq])]
          simp only [hq, if_false]
          ring
      · intro d hd
        have hdc : d ≠ c := by rintro rfl; exact hd ⟨by simp, hm⟩
        obtain ⟨h4, h5⟩ := e6 d fun h => hd ⟨by simp [h.1], h.2⟩
        rw [h4, h5]
        simp [hdc]
      · intro d hd hdm k' o' hp' hz'
        rcases List.mem_cons.mp hd with rfl | hd
        · obtain ⟨h4, h5⟩ := e6 d fun h => hc h.1
          obtain ⟨rfl, rfl⟩ := hp.outlet_unique hz hp' hz'
          rw [h4, h5]
          simp [h3]
        · exact e7 d hd hdm k' o' hp' hz'

end Verif.Hydrog
