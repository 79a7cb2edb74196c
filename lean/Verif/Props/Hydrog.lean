import Verif.Lemmas.Hydrog
import Verif.Lemmas.HydrogSort
import Mathlib.Algebra.Order.Ring.Rat
/-
C102: drainage areas and distances from the directions of the rivers. C104: numbers of basins.
-/
namespace Verif.Hydrog

open Verif.Spec.Hydrog

variable {R : Type} [Field R] [LinearOrder R]

theorem exists_fuel {P : Pos → Nat → Prop} : ∀ l : List Pos, (∀ c ∈ l, ∃ k, P c k) → ∃ f, ∀ c ∈ l, ∃ k, k < f ∧ P c k := by
  intro l
  induction l with
  | nil => intro _; exact ⟨0, by simp⟩
  | cons d l ih =>
    intro h
    obtain ⟨f, hf⟩ := ih fun c hc => h c (by simp [hc])
    obtain ⟨k, hk⟩ := h d (by simp)
    refine ⟨max f (k + 1), fun c hc => ?_⟩
    rcases List.mem_cons.mp hc with rfl | hc
    · exact ⟨k, by omega, hk⟩
    · obtain ⟨k', h1, h2⟩ := hf c hc
      exact ⟨k', by omega, h2⟩

/-- The state after following all rivers, in terms of the helpers of the model -/
theorem follow_state' {g : Grid} (a : Areas R) {toc : Pos → Int} (lfr : Pos → R) {fuel : Nat}
    (hf : ∀ c, g.inside c → toc c ≠ mval → ∃ k o, k < fuel ∧ Ends g toc c k o) :
    ∃ s, follow g a fuel toc lfr = some s ∧ s.toc = toc ∧ s.lfr = lfr ∧
      (∀ p, s.suba p = upstream g toc (a.weight lfr) p) ∧
      (∀ c, g.inside c → toc c ≠ mval → ∀ k o, Ends g toc c k o → s.travel c = (k : R) ∧ s.ibas c = s.idx o) ∧
      (∀ c, ¬ (g.inside c ∧ toc c ≠ mval) → s.travel c = 0 ∧ s.ibas c = -1) ∧
      (∀ o, g.inside o → toc o = 0 → ∃ m : Nat, s.idx o = m + 1 ∧ s.ilo[m]? = some (kind (lfr o))) ∧
      (∀ o o', g.inside o → g.inside o' → toc o = 0 → toc o' = 0 → s.idx o = s.idx o' → o = o') := by
  obtain ⟨idx, ilo, e1, e2, e3, e4, e5⟩ := register_fold toc lfr (cells g)
    ⟨toc, lfr, fun _ => 0, fun _ => 0, fun _ => -1, fun _ => -1, []⟩ (cells_nodup g) rfl rfl
  unfold follow
  rw [e1]
  obtain ⟨s, h0, h1, h2, h3, h4, h5, h6, h7⟩ := rivers_fold (g := g) (a := a) (toc := toc) (lfr := lfr) (idx := idx) (fuel := fuel)
    (cells g) ⟨toc, lfr, fun _ => 0, fun _ => 0, fun _ => -1, idx, [] ++ ilo⟩ rfl rfl rfl (cells_nodup g) (by
      intro c hc hm
      obtain ⟨k, o, hk, ho⟩ := hf c (mem_cells.mp hc) hm
      exact ⟨k, o, hk, ho.1, ho.2.1⟩)
  refine ⟨s, h0, h1, h2, ?_, ?_, ?_, ?_, ?_⟩
  · intro p
    rw [h5]
    unfold upstream
    simp
  · intro c hc hm k o ho
    rw [h3]
    exact h7 c (mem_cells.mpr hc) hm k o ho.1 ho.2.1
  · intro c hc
    exact h6 c fun h => hc ⟨mem_cells.mp h.1, h.2⟩
  · intro o ho hz
    obtain ⟨m, h8, h9⟩ := e3 o (mem_cells.mpr ho) hz
    refine ⟨m, ?_, ?_⟩
    · rw [h3, h8]; simp
    · rw [h4]; simpa using h9
  · intro o o' ho ho' hz hz' he
    rw [h3] at he
    exact e5 o (mem_cells.mpr ho) o' (mem_cells.mpr ho') hz hz' he

@[inherit_doc follow_state']
theorem follow_state {g : Grid} (a : Areas R) {toc : Pos → Int} (lfr : Pos → R) (h : Drains g toc) :
    ∃ f, ∀ fuel, f ≤ fuel → ∃ s, follow g a fuel toc lfr = some s ∧ s.toc = toc ∧ s.lfr = lfr ∧
      (∀ p, s.suba p = upstream g toc (a.weight lfr) p) ∧
      (∀ c, g.inside c → toc c ≠ mval → ∀ k o, Ends g toc c k o → s.travel c = (k : R) ∧ s.ibas c = s.idx o) ∧
      (∀ c, ¬ (g.inside c ∧ toc c ≠ mval) → s.travel c = 0 ∧ s.ibas c = -1) ∧
      (∀ o, g.inside o → toc o = 0 → ∃ m : Nat, s.idx o = m + 1 ∧ s.ilo[m]? = some (kind (lfr o))) ∧
      (∀ o o', g.inside o → g.inside o' → toc o = 0 → toc o' = 0 → s.idx o = s.idx o' → o = o') := by
  obtain ⟨f, hf⟩ := exists_fuel (P := fun c k => toc c ≠ mval → ∃ o, Ends g toc c k o) (cells g) (by
    intro c hc
    by_cases hm : toc c = mval
    · exact ⟨0, fun h => absurd hm h⟩
    · obtain ⟨k, o, ho⟩ := h c (mem_cells.mp hc) hm
      exact ⟨k, fun _ => ⟨o, ho⟩⟩)
  refine ⟨f, fun fuel hfuel => follow_state' a lfr ?_⟩
  intro c hc hm
  obtain ⟨k, hk, ho⟩ := hf c (mem_cells.mpr hc)
  obtain ⟨o, ho⟩ := ho hm
  exact ⟨k, o, by omega, ho⟩

/-- If all rivers end in outlets, following them comes to an end, with the total area of all cells upstream and the number of steps
to the outlet for every cell. -/
theorem C102_follow {g : Grid} (a : Areas R) {toc : Pos → Int} (lfr : Pos → R) (h : Drains g toc) :
    ∃ f, ∀ fuel, f ≤ fuel → ∃ s, follow g a fuel toc lfr = some s ∧ s.toc = toc ∧
      (∀ p, (blank s).suba p = if toc p = mval then ((mval : Int) : R) else upstream g toc (a.weight lfr) p) ∧
      (∀ c, g.inside c → toc c ≠ mval → ∀ k o, Ends g toc c k o → (blank s).travel c = (k : R)) ∧
      (∀ c, toc c = mval → (blank s).travel c = ((mval : Int) : R)) := by
  obtain ⟨f, hf⟩ := follow_state a lfr h
  refine ⟨f, fun fuel hfuel => ?_⟩
  obtain ⟨s, h0, h1, h2, h3, h4, h5, -⟩ := hf fuel hfuel
  refine ⟨s, h0, h1, ?_, ?_, ?_⟩
  · intro p
    unfold blank
    dsimp only
    rw [h1, h3]
  · intro c hc hm k o ho
    unfold blank
    dsimp only
    rw [h1, if_neg hm]
    exact (h4 c hc hm k o ho).1
  · intro c hm
    unfold blank
    dsimp only
    rw [h1, if_pos hm]

/-! ### Rivers without end -/

theorem walk_toc {g : Grid} {a : Areas R} {c : Pos} {toc : Pos → Int} : ∀ (fuel : Nat) (p : Pos) (k : Nat) (s s' : State R),
    (∀ q, toc q ≠ mval → s.toc q = toc q) → walk g a c fuel p k s = some s' → ∀ q, toc q ≠ mval → s'.toc q = toc q := by
  intro fuel
  induction fuel with
  | zero => intro p k s s' _ h; simp [walk] at h
  | succ fuel ih =>
    intro p k s s' hs h q hq
    unfold walk at h
    split at h
    · rename_i e he
      dsimp only at h
      split at h
      · cases h; exact hs q hq
      · refine ih _ _ _ _ ?_ h q hq
        exact hs
    · split at h
      · rename_i hm
        cases h
        have hne : q ≠ p := by
          rintro rfl
          exact hq (by rw [← hs q hq]; exact hm)
        unfold newOutlet
        dsimp only
        split <;> simp [Function.update_of_ne hne, hs q hq]
      · cases h; exact hs q hq

theorem walk_endless {g : Grid} {a : Areas R} {c : Pos} {toc : Pos → Int} : ∀ (fuel : Nat) (p : Pos) (k : Nat) (s : State R),
    (∀ q, toc q ≠ mval → s.toc q = toc q) → Endless g toc p → walk g a c fuel p k s = none := by
  intro fuel
  induction fuel with
  | zero => intro p k s _ _; rfl
  | succ fuel ih =>
    intro p k s hs he
    obtain ⟨q, hq⟩ := he 1
    cases hq with
    | @step _ q' _ _ hn _ =>
      have hm := hn.ne_mval
      have he' : Endless g toc q' := by
        intro j
        obtain ⟨r, hr⟩ := he (j + 1)
        cases hr with
        | step hn' hr =>
          cases hn.unique hn'
          exact ⟨r, hr⟩
      obtain ⟨h0, e, h1, rfl⟩ := hn
      have hoff : offset (s.toc p) = some e := by rw [hs p hm, offset_iff.mpr h1]
      simp only [walk, hoff]
      rw [if_neg (by rw [hs p hm]; exact h0)]
      exact ih _ _ _ hs he'

/-- If there is a river that does not end, the program does not end. -/
theorem C102_endless {g : Grid} (a : Areas R) {toc : Pos → Int} (lfr : Pos → R) {c : Pos} (hc : g.inside c)
    (h : Endless g toc c) (fuel : Nat) : follow g a fuel toc lfr = none := by
  have hcm : toc c ≠ mval := by
    obtain ⟨q, hq⟩ := h 1
    cases hq with
    | step hn _ => exact hn.ne_mval
  have key : ∀ (l : List Pos) (s : State R), c ∈ l → (∀ q, toc q ≠ mval → s.toc q = toc q) →
      l.foldlM (river g a fuel) s = none := by
    intro l
    induction l with
    | nil => intro s hc; simp at hc
    | cons d l ih =>
      intro s hc hs
      rw [List.foldlM_cons]
      cases hr : river g a fuel s d with
      | none => rfl
      | some s' =>
        have hs' : ∀ q, toc q ≠ mval → s'.toc q = toc q := by
          unfold river at hr
          split at hr
          · cases hr; exact hs
          · exact walk_toc _ _ _ _ _ hs hr
        rcases List.mem_cons.mp hc with rfl | hc
        · unfold river at hr
          rw [if_neg (by rw [hs c hcm]; exact hcm), walk_endless _ _ _ _ hs h] at hr
          cases hr
        · exact ih s' hc hs'
  have hreg : ∀ (l : List Pos) (s : State R), (l.foldl register s).toc = s.toc := by
    intro l
    induction l with
    | nil => intro s; rfl
    | cons d l ih =>
      intro s
      rw [List.foldl_cons, ih]
      unfold register
      split
      · rfl
      · split <;> rfl
  unfold follow
  exact key _ _ (mem_cells.mpr hc) (by intro q _; rw [hreg])

/-! ### Basins -/

/-- The numbers of the basins sorted are 1 to their number -/
theorem basins_idx (g : Grid) (a : Areas R) (s : State R) (m : Nat) : (∃ b ∈ sortBasins (basins g a s), b.idx = m + 1) ↔ m < s.ilo.length := by
  simp only [(sortBasins_perm _).mem_iff]
  unfold basins
  constructor
  · rintro ⟨b, hb, he⟩
    obtain ⟨e, h1, rfl⟩ := List.mem_map.mp hb
    obtain ⟨-, h2, -⟩ := List.mem_zipIdx h1
    simp only at he
    omega
  · intro hm
    exact ⟨_, List.mem_map.mpr ⟨(s.ilo[m], m), by simp [List.mem_zipIdx_iff_getElem?, hm], rfl⟩, rfl⟩

theorem basins_mem {g : Grid} {a : Areas R} {s : State R} {b : Basin R} (hb : b ∈ sortBasins (basins g a s)) :
    b.area = (((cells g).filter fun c => s.ibas c = b.idx).map fun c => a.weight s.lfr c).sum ∧
    ∃ m : Nat, b.idx = m + 1 ∧ s.ilo[m]? = some b.ilo := by
  rw [(sortBasins_perm _).mem_iff] at hb
  unfold basins at hb
  obtain ⟨e, h1, rfl⟩ := List.mem_map.mp hb
  refine ⟨rfl, e.2, rfl, ?_⟩
  rw [List.mem_zipIdx_iff_getElem?] at h1
  exact h1

theorem findIdx_spec {l : List (Basin R)} {j : Int} (h : ∃ b ∈ l, b.idx = j) :
    ∃ b, l[l.findIdx fun b => b.idx = j]? = some b ∧ b.idx = j := by
  have hlt : (l.findIdx fun b => decide (b.idx = j)) < l.length := by
    rw [List.findIdx_lt_length]
    simpa using h
  refine ⟨l[l.findIdx fun b => decide (b.idx = j)], by simp [hlt], ?_⟩
  have := @List.findIdx_getElem _ (fun b : Basin R => decide (b.idx = j)) l hlt
  simpa using this

open Classical in
/-- The sum over the cells with the number of an outlet is the area upstream of the outlet -/
theorem basin_area {g : Grid} {toc : Pos → Int} (h : Drains g toc) (w : Pos → R) {ibas idx : Pos → Int}
    (h1 : ∀ c, g.inside c → toc c ≠ mval → ∀ k o, Ends g toc c k o → ibas c = idx o)
    (h2 : ∀ c, ¬ (g.inside c ∧ toc c ≠ mval) → ibas c = -1)
    (h3 : ∀ o, g.inside o → toc o = 0 → ∃ m : Nat, idx o = m + 1)
    (h4 : ∀ o o', g.inside o → g.inside o' → toc o = 0 → toc o' = 0 → idx o = idx o' → o = o')
    {o : Pos} (ho : g.inside o) (hz : toc o = 0) :
    (((cells g).filter fun c => ibas c = idx o).map w).sum = upstream g toc w o := by
  unfold upstream
  congr 2
  apply List.filter_congr
  intro c hc
  rw [decide_eq_decide]
  have hci := mem_cells.mp hc
  obtain ⟨m, hm⟩ := h3 o ho hz
  constructor
  · intro he
    have hcm : toc c ≠ mval := by
      intro hcm
      rw [h2 c (fun h => h.2 hcm)] at he
      omega
    obtain ⟨k, o', hk⟩ := h c hci hcm
    rw [h1 c hci hcm k o' hk] at he
    cases h4 o' o hk.2.2 ho hk.2.1 hz he
    exact ⟨hcm, k, hk.1⟩
  · rintro ⟨hcm, k, hk⟩
    exact h1 c hci hcm k o ⟨hk, hz, ho⟩

/-- Labels in terms of the helpers of the model -/
theorem label_spec {g : Grid} (a : Areas R) {toc : Pos → Int} (h : Drains g toc) {s : State R}
    (h1 : ∀ c, g.inside c → toc c ≠ mval → ∀ k o, Ends g toc c k o → s.ibas c = s.idx o)
    (h2 : ∀ c, ¬ (g.inside c ∧ toc c ≠ mval) → s.ibas c = -1)
    (h3 : ∀ o, g.inside o → toc o = 0 → ∃ m : Nat, s.idx o = m + 1 ∧ s.ilo[m]? = some (kind (s.lfr o)))
    (h4 : ∀ o o', g.inside o → g.inside o' → toc o = 0 → toc o' = 0 → s.idx o = s.idx o' → o = o')
    {c : Pos} {k : Nat} {o : Pos} (hc : g.inside c) (hm : toc c ≠ mval) (ho : Ends g toc c k o) :
    ∃ j b, (sortBasins (basins g a s))[j]? = some b ∧ label (sortBasins (basins g a s)) s c = ((j + 1 : Nat) : R) ∧
      b.idx = s.idx o ∧ b.area = upstream g toc (a.weight s.lfr) o ∧ b.ilo = kind (s.lfr o) ∧
      internal (sortBasins (basins g a s)) s c = (if kind (s.lfr o) = 0 then 1 else 0) := by
  obtain ⟨m, hm1, hm2⟩ := h3 o ho.2.2 ho.2.1
  have hib := h1 c hc hm k o ho
  have hlt : m < s.ilo.length := by
    by_contra hcon
    rw [List.getElem?_eq_none (by omega)] at hm2
    cases hm2
  have hex : ∃ b ∈ sortBasins (basins g a s), b.idx = s.idx o := by
    rw [hm1]
    exact (basins_idx g a s m).mpr hlt
  obtain ⟨b, hb1, hb2⟩ := findIdx_spec hex
  obtain ⟨hb3, m', hb4, hb5⟩ := basins_mem (List.mem_of_getElem? hb1)
  have hmm : m' = m := by omega
  subst hmm
  have hilo : b.ilo = kind (s.lfr o) := by
    rw [hm2] at hb5
    exact (Option.some.inj hb5).symm
  have hne : s.ibas c ≠ -1 := by rw [hib, hm1]; omega
  refine ⟨_, b, hb1, ?_, hb2, ?_, hilo, ?_⟩
  · unfold label
    rw [if_neg hne, hib]
  · rw [hb3, hb2]
    exact basin_area h _ h1 h2 (fun o h h' => ⟨_, (h3 o h h').choose_spec.1⟩) h4 ho.2.2 ho.2.1
  · unfold internal
    rw [if_neg hne, hib]
    cases hfi : (sortBasins (basins g a s)).find? fun b => decide (b.idx = s.idx o) with
    | none =>
      obtain ⟨b', hb', he⟩ := hex
      have := List.find?_eq_none.mp hfi b' hb'
      simp [he] at this
    | some b' =>
      have h5 := List.find?_some hfi
      obtain ⟨-, m'', h6, h7⟩ := basins_mem (List.mem_of_find?_eq_some hfi)
      simp only [decide_eq_true_eq] at h5
      have : m'' = m' := by omega
      subst this
      rw [hm2] at h7
      simp only
      rw [← Option.some.inj h7]

/-- The claims of C104 in terms of the helpers of the model -/
theorem basins_spec {g : Grid} (a : Areas R) [IsStrictOrderedRing R] {toc : Pos → Int} (h : Drains g toc) {s : State R}
    (e1 : ∀ c, g.inside c → toc c ≠ mval → ∀ k o, Ends g toc c k o → s.ibas c = s.idx o)
    (e2 : ∀ c, ¬ (g.inside c ∧ toc c ≠ mval) → s.ibas c = -1)
    (e3 : ∀ o, g.inside o → toc o = 0 → ∃ m : Nat, s.idx o = m + 1 ∧ s.ilo[m]? = some (kind (s.lfr o)))
    (h7 : ∀ o o', g.inside o → g.inside o' → toc o = 0 → toc o' = 0 → s.idx o = s.idx o' → o = o')
    {l : List (Basin R)} (hl : l = sortBasins (basins g a s)) {c c' : Pos} {k k' : Nat} {o o' : Pos} (hc : g.inside c)
    (hc' : g.inside c') (hm : toc c ≠ mval) (hm' : toc c' ≠ mval) (ho : Ends g toc c k o) (ho' : Ends g toc c' k' o') :
    (label l s c = label l s c' ↔ o = o') ∧
    (label l s c < label l s c' → upstream g toc (a.weight s.lfr) o' ≤ upstream g toc (a.weight s.lfr) o) ∧
    1 ≤ label l s c ∧ (internal l s c = 1 ↔ 1 ≤ s.lfr o) ∧ (internal l s c = 0 ↔ s.lfr o < 1) := by
  subst hl
  obtain ⟨j, b, q1, q2, q3, q4, -, q6⟩ := label_spec a h e1 e2 e3 h7 hc hm ho
  obtain ⟨j', b', r1, r2, r3, r4, -, -⟩ := label_spec a h e1 e2 e3 h7 hc' hm' ho'
  refine ⟨?_, ?_, ?_, ?_, ?_⟩
  · rw [q2, r2]
    constructor
    · intro he
      have : j = j' := by
        have := Nat.cast_injective he
        omega
      subst this
      rw [q1] at r1
      cases r1
      exact h7 o o' ho.2.2 ho'.2.2 ho.2.1 ho'.2.1 (q3.symm.trans r3)
    · rintro rfl
      rw [← q2, ← r2]
      unfold label
      rw [e1 c hc hm k o ho, e1 c' hc' hm' k' o ho']
  · rw [q2, r2, Nat.cast_lt]
    intro hlt
    rw [← q4, ← r4]
    have hs := sortBasins_sorted (basins g a s)
    rw [List.pairwise_iff_getElem] at hs
    have l1 := (List.getElem?_eq_some_iff.mp q1)
    have l2 := (List.getElem?_eq_some_iff.mp r1)
    obtain ⟨l1, rfl⟩ := l1
    obtain ⟨l2, rfl⟩ := l2
    exact hs j j' l1 l2 (by omega)
  · rw [q2]
    push_cast
    have : (0 : R) ≤ j := Nat.cast_nonneg j
    linarith
  · rw [q6]
    unfold kind
    by_cases hl1 : s.lfr o ≥ 1 <;> simp [hl1, not_le.mp]
  · rw [q6]
    unfold kind
    by_cases hl1 : s.lfr o ≥ 1
    · simp [hl1]
    · simpa [hl1] using not_le.mp hl1

/-- Numbers of basins, as they are found in cp_river_vars: two cells have the same number if and only if their water comes to the same
outlet; larger basins have smaller numbers; numbers are at least 1; and a basin is internal if and only if its outlet is full of
land. -/
theorem C104_basins {g : Grid} (a : Areas R) [IsStrictOrderedRing R] {toc : Pos → Int} (lfr : Pos → R) (h : Drains g toc) :
    ∃ f, ∀ fuel, f ≤ fuel → ∃ s, follow g a fuel toc lfr = some s ∧
      ∀ l : List (Basin R), l = sortBasins (basins g a (blank s)) →
      ∀ c c' k k' o o', g.inside c → g.inside c' → toc c ≠ mval → toc c' ≠ mval → Ends g toc c k o → Ends g toc c' k' o' →
        (label l (blank s) c = label l (blank s) c' ↔ o = o') ∧
        (label l (blank s) c < label l (blank s) c' →
          upstream g toc (a.weight lfr) o' ≤ upstream g toc (a.weight lfr) o) ∧
        1 ≤ label l (blank s) c ∧
        (internal l (blank s) c = 1 ↔ 1 ≤ lfr o) ∧ (internal l (blank s) c = 0 ↔ lfr o < 1) := by
  obtain ⟨f, hf⟩ := follow_state a lfr h
  refine ⟨f, fun fuel hfuel => ?_⟩
  obtain ⟨s, h0, h1, h2, -, h4, h5, h6, h7⟩ := hf fuel hfuel
  refine ⟨s, h0, ?_⟩
  intro l hl c c' k k' o o' hc hc' hm hm' ho ho'
  have hlf : (blank s).lfr = lfr := h2
  rw [← hlf]
  refine basins_spec (s := blank s) a h ?_ ?_ ?_ h7 hl hc hc' hm hm' ho ho'
  · intro c hc hm k o ho
    unfold blank
    dsimp only
    rw [h1, if_neg hm]
    exact (h4 c hc hm k o ho).2
  · intro c hc
    unfold blank
    dsimp only
    rw [(h5 c hc).2, ite_self]
  · intro o ho hz
    rw [hlf]
    exact h6 o ho hz

/-! ### Case -/

/-- Two cells of a river with an outlet, on a grid of 3 by 1 -/
def hydroToc (p : Pos) : Int := if p = ⟨1, 1, 1⟩ ∨ p = ⟨2, 1, 1⟩ then 1 else if p = ⟨3, 1, 1⟩ then 0 else mval

theorem hydroToc_drains : Drains ⟨1, 3, 1⟩ hydroToc := by
  have h3 : Ends ⟨1, 3, 1⟩ hydroToc ⟨3, 1, 1⟩ 0 ⟨3, 1, 1⟩ := ⟨.here _, by decide, by decide⟩
  have n2 : Next ⟨1, 3, 1⟩ hydroToc ⟨2, 1, 1⟩ ⟨3, 1, 1⟩ := ⟨by decide, (1, 0), by decide, by decide⟩
  have n1 : Next ⟨1, 3, 1⟩ hydroToc ⟨1, 1, 1⟩ ⟨2, 1, 1⟩ := ⟨by decide, (1, 0), by decide, by decide⟩
  intro c hc hm
  unfold hydroToc at hm
  by_cases h : c = ⟨1, 1, 1⟩ ∨ c = ⟨2, 1, 1⟩
  · rcases h with rfl | rfl
    · exact ⟨2, _, .step n1 (.step n2 h3.1), h3.2⟩
    · exact ⟨1, _, .step n2 h3.1, h3.2⟩
  · rw [if_neg h] at hm
    by_cases h' : c = ⟨3, 1, 1⟩
    · exact h' ▸ ⟨0, _, h3⟩
    · rw [if_neg h'] at hm
      exact absurd rfl hm

example : ((follow ⟨1, 3, 1⟩ ⟨fun _ => (2 : ℚ), false⟩ 5 hydroToc (fun _ => 1)).map fun s => (cells ⟨1, 3, 1⟩).map fun p =>
    ((blank s).suba p, (blank s).travel p)) = some [(2, 2), (4, 1), (6, 0)] := by decide +kernel

end Verif.Hydrog
