import Verif.Lemmas.RiverArea
import Verif.Props.QSort
/-
The order of the basins in `river_regrid`.
-/
namespace Verif.River
open Verif.Spec CheckMask
variable {K : Type*} [Field K] [LinearOrder K] [IsStrictOrderedRing K]

theorem rankOf_get (indx : Nat → Nat) (n : Nat) (hinj : ∀ i, i < n → ∀ j, j < n → indx i = indx j → i = j) (k : Nat)
    (hk : k < n) : rankOf indx n (indx k) = k := by
  induction n with
  | zero => omega
  | succ n ih =>
    have ih := ih (fun i hi j hj => hinj i (by omega) j (by omega))
    unfold rankOf at ih ⊢
    rw [List.range_succ, List.foldl_append, List.foldl_cons, List.foldl_nil]
    by_cases hkn : k = n
    · subst hkn; rw [if_pos rfl]
    · rw [if_neg (fun e => hkn (hinj k hk n (by omega) e))]
      exact ih (by omega)

/-- Basins as they are before the sort. -/
structure BasinsOk (g : Grid) (m : Missing K) (r : Rivers K) (N : Int) : Prop where
  nonneg : 0 ≤ N
  miss : m.basin < 0
  range : ∀ c, IsCell g c → r.basin c = m.basin ∨ (1 ≤ r.basin c ∧ r.basin c ≤ N)
  last : ∀ c, IsCell g c → r.last c = true → 1 ≤ r.basin c ∧ r.basin c ≤ N
  inj : ∀ c c', IsCell g c → IsCell g c' → r.last c = true → r.last c' = true → r.basin c = r.basin c' → c = c'
  surj : ∀ b, 1 ≤ b → b ≤ N → ∃ c, IsCell g c ∧ r.last c = true ∧ r.basin c = b
  area : ∀ c, IsCell g c → r.last c = true → r.subA c ≠ m.subA

section
variable {g : Grid} {m : Missing K} {r : Rivers K} {N : Int}

omit [Field K] [IsStrictOrderedRing K] in
theorem BasinsOk.max (h : BasinsOk g m r N) : (maxOver g r.basin).toNat = N.toNat ∧
    ∀ c, IsCell g c → r.basin c ≠ m.basin → maxOver g r.basin = N := by
  have hN := h.nonneg
  have hm := h.miss
  have key : 1 ≤ N → maxOver g r.basin = N := by
    intro h1
    obtain ⟨c, hc, -, e⟩ := h.surj N h1 le_rfl
    have hle := le_maxOver r.basin hc
    rcases maxOver_eq (g := g) r.basin with e' | ⟨c', hc', e'⟩
    · omega
    · rcases h.range c' hc' with e'' | ⟨-, e''⟩
      · omega
      · omega
  constructor
  · by_cases h1 : 1 ≤ N
    · rw [key h1]
    · rcases maxOver_eq (g := g) r.basin with e' | ⟨c', hc', e'⟩
      · omega
      · rcases h.range c' hc' with e'' | ⟨e'', e3⟩
        · omega
        · omega
  · intro c hc hne
    rcases h.range c hc with e | ⟨e1, e2⟩
    · exact absurd e hne
    · exact key (by omega)

omit [Field K] [IsStrictOrderedRing K] in
theorem BasinsOk.maxSub (h : BasinsOk g m r N) (l : List Place) (hl : ∀ c ∈ l, IsCell g c) :
    ∃ A, l.foldlM (maxSubStep (maxOver g r.basin) r) (fun _ => m.subA) = .ok A ∧
      ∀ c ∈ l, r.last c = true → A (r.basin c - 1).toNat = r.subA c := by
  induction l using List.reverseRecOn with
  | nil => exact ⟨_, rfl, by simp⟩
  | append_singleton l x ih =>
    obtain ⟨A, e, hA⟩ := ih (fun c hc => hl c (List.mem_append_left _ hc))
    have hcx := hl x (by simp)
    rw [List.foldlM_append, e]
    simp only [List.foldlM_cons, List.foldlM_nil]
    by_cases hx : r.last x = true
    · obtain ⟨b1, b2⟩ := h.last x hcx hx
      have hmax := h.max.2 x hcx (by have := h.miss; omega)
      refine ⟨fun k => if k = (r.basin x - 1).toNat then r.subA x else A k, ?_, ?_⟩
      · show (maxSubStep (maxOver g r.basin) r A x >>= fun s' => pure s') = _
        unfold maxSubStep
        rw [if_pos hx, if_neg (by omega)]
        rfl
      · intro c hc hlc
        simp only
        by_cases hcc : c = x
        · subst hcc; rw [if_pos rfl]
        · have hcl : c ∈ l := by
            rcases List.mem_append.1 hc with hc | hc
            · exact hc
            · exact absurd (List.mem_singleton.1 hc) hcc
          have hcell := hl c hc
          rw [if_neg]
          · exact hA c hcl hlc
          · intro e
            have := (h.last c hcell hlc).1
            exact hcc (h.inj c x hcell hcx hlc hx (by omega))
    · refine ⟨A, ?_, ?_⟩
      · show (maxSubStep (maxOver g r.basin) r A x >>= fun s' => pure s') = _
        unfold maxSubStep
        rw [if_neg hx]
        rfl
      · intro c hc hlc
        rcases List.mem_append.1 hc with hc | hc
        · exact hA c hc hlc
        · rw [List.mem_singleton.1 hc] at hlc; exact absurd hlc hx

omit [Field K] [IsStrictOrderedRing K] in
/-- The result of `sort_basin`: the basins are numbered anew. -/
theorem sortBasin_ok (h : BasinsOk g m r N) : ∃ (r' : Rivers K) (σ : Int → Int), sortBasin g m r = .ok r' ∧
    r' = { r with basin := r'.basin } ∧
    (∀ c, IsCell g c → r.basin c = m.basin → r'.basin c = m.basin) ∧
    (∀ c, IsCell g c → r.basin c ≠ m.basin → r'.basin c = σ (r.basin c)) ∧
    (∀ b, 1 ≤ b → b ≤ N → 1 ≤ σ b ∧ σ b ≤ N) ∧
    (∀ b b', 1 ≤ b → b ≤ N → 1 ≤ b' → b' ≤ N → σ b = σ b' → b = b') ∧
    (∀ b', 1 ≤ b' → b' ≤ N → ∃ b, 1 ≤ b ∧ b ≤ N ∧ σ b = b') ∧
    (∀ c c', IsCell g c → IsCell g c' → r.last c = true → r.last c' = true → r.subA c < r.subA c' →
      σ (r.basin c') < σ (r.basin c)) := by
  obtain ⟨hn, hmax⟩ := h.max
  obtain ⟨A, e, hA⟩ := h.maxSub (cells g) (fun c hc => mem_cells.1 hc)
  have hN := h.nonneg
  obtain ⟨n, rfl⟩ : ∃ n : Nat, N = n := ⟨N.toNat, by omega⟩
  have hn' : (maxOver g r.basin).toNat = n := by omega
  obtain ⟨b, hb, hb1, hb2, hb3, hb4⟩ := QSort.C53_index A n (2 * n + 1) (n + 1) (by omega) (by omega)
  -- the ranks
  have hinj : ∀ i, i < n → ∀ j, j < n → (b i).2 = (b j).2 → i = j := by
    intro i hi j hj e
    obtain ⟨k, -, -, hu⟩ := hb4 _ (hb3 i hi)
    rw [hu i hi rfl, hu j hj e.symm]
  have hrank : ∀ x, x < n → ∃ k, k < n ∧ (b k).2 = x ∧ rankOf (fun k => (b k).2) n x = (k : Int) := by
    intro x hx
    obtain ⟨k, hk, e, -⟩ := hb4 x hx
    exact ⟨k, hk, e, by rw [← e]; exact rankOf_get (fun k => (b k).2) n hinj k hk⟩
  have hsub : ∀ x, x < n → A x ≠ m.subA := by
    intro x hx
    obtain ⟨c, hc, hlc, eb⟩ := h.surj (x + 1) (by omega) (by omega)
    have := hA c (mem_cells.2 hc) hlc
    rw [eb, show ((x : Int) + 1 - 1).toNat = x by omega] at this
    rw [this]
    exact h.area c hc hlc
  refine ⟨{ r with basin := newBasin g m (maxOver g r.basin) (rankOf (fun k => (b k).2) n) r.basin },
    fun v => n - rankOf (fun k => (b k).2) n (v - 1).toNat, ?_, rfl, ?_, ?_, ?_, ?_, ?_, ?_⟩
  · unfold sortBasin
    simp only
    rw [e]
    simp only
    rw [hn', hb]
    rw [if_neg]
    swap
    · rw [List.any_eq_true]
      rintro ⟨x, hx, hd⟩
      exact hsub x (List.mem_range.1 hx) (by simpa using hd)
    simp only
    rw [if_neg]
    swap
    · rw [List.any_eq_true]
      rintro ⟨x, hx, hd⟩
      obtain ⟨k, -, -, e⟩ := hrank x (List.mem_range.1 hx)
      rw [e] at hd
      simp at hd
      omega
    rw [if_neg]
    rw [List.any_eq_true]
    rintro ⟨c, hc, hd⟩
    rw [mem_cells] at hc
    simp only [Bool.and_eq_true, decide_eq_true_eq] at hd
    rcases h.range c hc with e | ⟨e1, e2⟩
    · exact hd.1 e
    · have := hmax c hc hd.1
      omega
  · intro c hc e
    simp only [newBasin]
    rw [if_pos (inside_iff.2 hc), if_neg (fun h => h e), e]
  · intro c hc e
    simp only [newBasin]
    rw [if_pos (inside_iff.2 hc), if_pos e, hmax c hc e]
  · intro v h1 h2
    obtain ⟨k, hk, -, e⟩ := hrank (v - 1).toNat (by omega)
    simp only
    rw [e]
    omega
  · intro v v' h1 h2 h1' h2' he
    obtain ⟨k, hk, e1, e⟩ := hrank (v - 1).toNat (by omega)
    obtain ⟨k', hk', e1', e'⟩ := hrank (v' - 1).toNat (by omega)
    simp only at he
    rw [e, e'] at he
    have : k = k' := by omega
    subst this
    omega
  · intro v' h1 h2
    have hk : (n - v'.toNat : Nat) < n := by omega
    have hv := hb3 _ hk
    refine ⟨((b (n - v'.toNat)).2 : Int) + 1, by omega, by omega, ?_⟩
    simp only
    rw [show (((b (n - v'.toNat)).2 : Int) + 1 - 1).toNat = (b (n - v'.toNat)).2 by omega,
      rankOf_get (fun k => (b k).2) n hinj _ hk]
    omega
  · intro c c' hc hc' hl hl' hlt
    obtain ⟨x1, x2⟩ := h.last c hc hl
    obtain ⟨x1', x2'⟩ := h.last c' hc' hl'
    obtain ⟨k, hk, e1, e⟩ := hrank (r.basin c - 1).toNat (by omega)
    obtain ⟨k', hk', e1', e'⟩ := hrank (r.basin c' - 1).toNat (by omega)
    simp only
    rw [e, e']
    have hb : (b k).1 < (b k').1 := by
      rw [hb1 k, hb1 k', e1, e1', hA c (mem_cells.2 hc) hl, hA c' (mem_cells.2 hc') hl']
      exact hlt
    have : k < k' := by
      by_contra hno
      have hle : k' ≤ k := by omega
      rcases Nat.lt_or_eq_of_le hle with h1 | h1
      · exact absurd (hb2 k' k h1 hk) (not_le.2 hb)
      · subst h1; exact lt_irrefl _ hb
    omega

end
end Verif.River
