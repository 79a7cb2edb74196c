import Mathlib.Tactic.Linarith
import Mathlib.Tactic.NormNum
import Verif.Lemmas.TopogIsolated
import Verif.Lemmas.Interp

/-! # Lemmas about depths and levels that fit each other -/

namespace Verif.Topog

open Verif.Spec.Topo Verif.Interp

variable {K : Type _} [Field K] [LinearOrder K]

/-- `Fits` for an index counted from 0, with -1 on land. -/
def Lev (zw : Nat → K) (nk : Nat) (h : K) (k : Int) : Prop :=
  (k = -1 ∧ h ≤ 0) ∨
    ∃ n : Nat, k = n ∧ n < nk ∧ (n = 0 → 0 < h) ∧ (0 < n → zw (n - 1) < h) ∧ h ≤ zw n

theorem lev_iff {zw : Nat → K} {nk : Nat} {h : K} {k : Int} :
    Lev zw nk h k ↔ Fits zw nk h (k + 1) := by
  constructor
  · rintro (⟨rfl, h0⟩ | ⟨n, rfl, h1, h2, h3, h4⟩)
    · exact .inl ⟨rfl, h0⟩
    · refine .inr ⟨n + 1, by simp, by omega, by omega, ?_, by simpa [bottom] using h4⟩
      unfold top
      by_cases hn : n = 0
      · subst hn; simpa using h2 rfl
      · rw [if_neg (by omega)]
        have := h3 (by omega)
        simpa using this
  · rintro (⟨hk, h0⟩ | ⟨n, hk, h1, h2, h3, h4⟩)
    · exact .inl ⟨by omega, h0⟩
    · refine .inr ⟨n - 1, by omega, by omega, ?_, ?_, by simpa [bottom] using h4⟩
      · intro hn
        have : n = 1 := by omega
        subst this
        simpa [top] using h3
      · intro hn
        unfold top at h3
        rw [if_neg (by omega)] at h3
        rwa [show n - 1 - 1 = n - 2 by omega]

section Grid

variable {zw : Nat → K} {nk : Nat}

theorem _root_.Verif.Spec.Topo.VGrid.lt (g : VGrid zw nk) {a b : Nat} (hab : a < b) (hb : b < nk) :
    zw a < zw b := by
  induction b with
  | zero => omega
  | succ b ih =>
    have h1 := g.increasing b hb
    rcases Nat.lt_or_ge a b with h2 | h2
    · exact (ih h2 (by omega)).trans h1
    · have : a = b := by omega
      subst this; exact h1

theorem _root_.Verif.Spec.Topo.VGrid.le (g : VGrid zw nk) {a b : Nat} (hab : a ≤ b) (hb : b < nk) :
    zw a ≤ zw b := by
  rcases Nat.lt_or_ge a b with h | h
  · exact (g.lt h hb).le
  · have : a = b := by omega
    subst this; exact le_rfl

theorem _root_.Verif.Spec.Topo.VGrid.pos (g : VGrid zw nk) {a : Nat} (ha : a < nk) : 0 < zw a :=
  g.surface.trans_le (g.le (Nat.zero_le a) ha)

theorem _root_.Verif.Spec.Topo.VGrid.nonDecreasing (g : VGrid zw nk) : Spec.NonDecreasing zw nk := by
  rw [← nonDecreasing_iff, List.any_eq_false]
  simp only [List.mem_range, decide_eq_true_eq, not_lt]
  intro i hi
  exact (g.increasing i (by omega)).le

theorem Lev.pos_iff (g : VGrid zw nk) {h : K} {k : Int} (hl : Lev zw nk h k) : 0 < h ↔ 0 ≤ k := by
  rcases hl with ⟨rfl, h0⟩ | ⟨n, rfl, h1, h2, h3, _⟩
  · simp [h0]
  · refine ⟨fun _ => by omega, fun _ => ?_⟩
    by_cases hn : n = 0
    · exact h2 hn
    · exact (g.pos (by omega)).trans (h3 (by omega))

theorem Lev.range {h : K} {k : Int} (hl : Lev zw nk h k) : -1 ≤ k ∧ k < nk ∨ k = -1 := by
  rcases hl with ⟨rfl, _⟩ | ⟨n, rfl, h1, _⟩
  · exact .inr rfl
  · exact .inl ⟨by omega, by omega⟩

/-- Fewer levels, smaller depth. -/
theorem Lev.lt (g : VGrid zw nk) {h1 h2 : K} {k1 k2 : Int} (l1 : Lev zw nk h1 k1)
    (l2 : Lev zw nk h2 k2) (hk : k1 < k2) : h1 < h2 := by
  have p2 : 0 < h2 := (l2.pos_iff g).2 (by
    rcases l1 with ⟨rfl, _⟩ | ⟨n, rfl, _⟩ <;> omega)
  rcases l1 with ⟨rfl, h0⟩ | ⟨n, rfl, a1, a2, a3, a4⟩
  · exact h0.trans_lt p2
  · rcases l2 with ⟨rfl, _⟩ | ⟨m, rfl, b1, b2, b3, b4⟩
    · omega
    · exact (a4.trans (g.le (by omega : n ≤ m - 1) (by omega))).trans_lt (b3 (by omega))

theorem Lev.min (g : VGrid zw nk) {h1 h2 : K} {k1 k2 : Int} (l1 : Lev zw nk h1 k1)
    (l2 : Lev zw nk h2 k2) : Lev zw nk (min h1 h2) (min k1 k2) := by
  rcases lt_trichotomy k1 k2 with h | h | h
  · rw [min_eq_left h.le, min_eq_left (l1.lt g l2 h).le]; exact l1
  · subst h
    rw [min_self]
    rcases min_choice h1 h2 with e | e <;> rw [e] <;> assumption
  · rw [min_eq_right h.le, min_eq_right (l2.lt g l1 h).le]; exact l2

theorem Lev.max (g : VGrid zw nk) {h1 h2 : K} {k1 k2 : Int} (l1 : Lev zw nk h1 k1)
    (l2 : Lev zw nk h2 k2) : Lev zw nk (max h1 h2) (max k1 k2) := by
  rcases lt_trichotomy k1 k2 with h | h | h
  · rw [max_eq_right h.le, max_eq_right (l1.lt g l2 h).le]; exact l2
  · subst h
    rw [max_self]
    rcases max_choice h1 h2 with e | e <;> rw [e] <;> assumption
  · rw [max_eq_left h.le, max_eq_left (l2.lt g l1 h).le]; exact l1

/-- All cells fit. -/
def LevAll (zw : Nat → K) (nk : Nat) (s : State K) : Prop := ∀ j i, Lev zw nk (s.ht j i) (s.kmt j i)

theorem LevAll.blockMin (g : VGrid zw nk) {s : State K} (h : LevAll zw nk s) (j i : Nat) :
    Lev zw nk (blockMin s.ht j i) (blockMin s.kmt j i) :=
  ((h _ _).min g (h _ _)).min g ((h _ _).min g (h _ _))

theorem LevAll.bestBlock (g : VGrid zw nk) {s : State K} (h : LevAll zw nk s) (j i : Nat) :
    Lev zw nk (bestBlock s.ht j i) (bestBlock s.kmt j i) :=
  ((h.blockMin g _ _).max g (h.blockMin g _ _)).max g ((h.blockMin g _ _).max g (h.blockMin g _ _))

theorem LevAll.set {s : State K} (h : LevAll zw nk s) {c : Nat × Nat} {r : K × Int}
    (hr : Lev zw nk r.1 r.2) : LevAll zw nk (s.set c r) := by
  intro j i
  by_cases hc : (j, i) = c
  · subst hc
    have := set_ht_self s (j, i) r
    simp only at this
    rw [this.1, this.2]; exact hr
  · rw [(set_ht_ne s c r hc).1, (set_ht_ne s c r hc).2]; exact h j i

theorem LevAll.removeIsolated (g : VGrid zw nk) {s : State K} (h : LevAll zw nk s) (ni nj : Nat)
    (tri fill dcl : Bool) : LevAll zw nk (removeIsolated ni nj tri fill dcl s) := by
  refine removeIsolated_induct (P := LevAll zw nk) ?_ ni nj tri fill s h
  intro s c _ _ hs
  unfold removeStep
  simp only
  split
  · exact hs.set (hs.bestBlock g _ _)
  · exact hs

/-- A loop over the cells keeps what it keeps for each cell. -/
theorem LevAll.eachCell {f : K → Int → Except Stop (K × Int)}
    (hf : ∀ h k r, Lev zw nk h k → f h k = .ok r → Lev zw nk r.1 r.2) {ni nj : Nat}
    {s t : State K} (hs : LevAll zw nk s) (he : eachCell f (cells ni nj) s = .ok t) :
    LevAll zw nk t := by
  intro j i
  have h := eachCell_spec (nodup_cells ni nj) he j i
  by_cases hc : (j, i) ∈ cells ni nj
  · exact hf _ _ _ (hs j i) (h.1 hc)
  · rw [(h.2 hc).1, (h.2 hc).2]; exact hs j i

/-! ### The level of a depth -/

theorem nearest_bracket [IsStrictOrderedRing K] (g : VGrid zw nk) {h : K} {n : Nat} (he : nearestIndex h zw nk = .ok n) :
    n < nk ∧ (h ≤ zw n → 0 < n → zw (n - 1) < h) ∧ (zw n < h → n + 1 < nk → h ≤ zw (n + 1)) := by
  have hd := (nonDecreasing_iff zw nk).2 g.nonDecreasing
  by_cases h0 : h < zw 0
  · unfold nearestIndex at he
    rw [hd] at he
    simp only [Bool.false_eq_true, if_false] at he
    by_cases hk : nk = 0
    · rw [if_pos hk] at he; cases he
    · rw [if_neg hk, if_pos h0] at he
      cases he
      exact ⟨by omega, fun _ h => absurd h (by omega), fun h' _ => absurd (h'.trans h0) (lt_irrefl _)⟩
  · by_cases h1 : zw (nk - 1) < h
    · unfold nearestIndex at he
      rw [hd] at he
      simp only [Bool.false_eq_true, if_false] at he
      by_cases hk : nk = 0
      · rw [if_pos hk] at he; cases he
      · rw [if_neg hk, if_neg h0, if_pos h1] at he
        cases he
        exact ⟨by omega, fun h' _ => absurd (h'.trans_lt h1) (lt_irrefl _), fun _ h => absurd h (by omega)⟩
    · have hk : 2 ≤ nk := by
        by_contra hk
        unfold nearestIndex at he
        rw [hd] at he
        simp only [Bool.false_eq_true, if_false] at he
        by_cases hk0 : nk = 0
        · rw [if_pos hk0] at he; cases he
        · rw [if_neg hk0, if_neg h0, if_neg h1] at he
          have : nk = 1 := by omega
          subst this
          simp [nearestLoop] at he
      obtain ⟨k, k1, k2, k3, k4⟩ := nearestIndex_inside g.nonDecreasing hk (not_lt.1 h0) (not_lt.1 h1)
      rw [k4] at he
      simp only [Except.ok.injEq] at he
      by_cases hg : zw (k + 1) - h > h - zw k
      · rw [if_pos hg] at he
        subst he
        refine ⟨by omega, ?_, fun _ _ => k3⟩
        intro hle hpos
        rcases k2 with rfl | hlt
        · omega
        · exact absurd (hlt.trans_le hle) (lt_irrefl _)
      · rw [if_neg hg] at he
        subst he
        refine ⟨k1, ?_, fun hlt _ => absurd (hlt.trans_le k3) (lt_irrefl _)⟩
        intro _ _
        rcases k2 with rfl | hlt
        · rcases lt_or_eq_of_le (not_lt.1 h0) with hl | hl
          · simpa using hl
          · exfalso
            apply hg
            rw [← hl]
            have := g.increasing 0 k1
            simpa [sub_pos] using this
        · simpa using hlt

theorem bottomLevel_lev [IsStrictOrderedRing K] (g : VGrid zw nk) {mt h : K} {k : Int} {r : K × Int}
    (hk : 0 < h ∨ k = -1) (he : bottomLevel zw nk mt h k = .ok r) : Lev zw nk r.1 r.2 := by
  unfold bottomLevel at he
  by_cases hp : 0 < h
  · rw [if_pos hp] at he
    split at he
    · cases he
    · rename_i n hn
      obtain ⟨b1, b2, b3⟩ := nearest_bracket g hn
      cases he
      by_cases hb : zw n < h
      · rw [if_pos hb]
        have hz : Lev zw nk (zw n) (n : Int) :=
          .inr ⟨n, rfl, b1, fun _ => g.pos b1, fun h0 => g.lt (by omega) b1, le_rfl⟩
        unfold belowNearest
        split
        · exact hz
        · split
          · exact hz
          · exact .inr ⟨n + 1, by simp, by omega, fun h => by omega, fun _ => by simpa using hb,
              b3 hb (by omega)⟩
      · rw [if_neg hb]
        exact .inr ⟨n, rfl, b1, fun _ => hp, fun h0 => b2 (not_lt.1 hb) h0, not_lt.1 hb⟩
  · rw [if_neg hp] at he
    cases he
    exact .inl ⟨hk.resolve_left hp, not_lt.1 hp⟩

theorem fullCells_lev (g : VGrid zw nk) {on : Bool} {h : K} {k : Int} {r : K × Int}
    (hl : Lev zw nk h k) (he : fullCells zw on h k = .ok r) : Lev zw nk r.1 r.2 := by
  unfold fullCells at he
  split at he
  · split at he
    · cases he
    · rename_i hk
      cases he
      rcases hl with ⟨rfl, _⟩ | ⟨n, rfl, h1, _⟩
      · omega
      · exact .inr ⟨n, rfl, h1, fun _ => g.pos (by simpa using h1),
          fun h0 => g.lt (by simp; omega) (by simpa using h1), by simp⟩
  · cases he; exact hl

theorem flatBottoms_lev (g : VGrid zw nk) {on : Bool} {h : K} {k : Int} {r : K × Int}
    (hl : Lev zw nk h k) (he : flatBottoms zw nk on h k = .ok r) : Lev zw nk r.1 r.2 := by
  unfold flatBottoms at he
  split at he
  · rename_i ho
    cases he
    have hk := (hl.pos_iff g).1 ho.2
    rcases hl with ⟨rfl, _⟩ | ⟨n, rfl, h1, _⟩
    · omega
    · exact .inr ⟨nk - 1, by omega, by omega, fun _ => g.pos (by omega),
        fun h0 => g.lt (by omega) (by omega), le_rfl⟩
  · cases he; exact hl

/-! ### Thin bottom cells -/

/-- The least thickness asked for can be had in every level below the first. -/
def Possible (zw p : Nat → K) (nk : Nat) : Prop :=
  ∀ k, 0 < k → k < nk → 0 < p k ∧ p k ≤ zw k - zw (k - 1)

theorem restrictCell_lev [IsStrictOrderedRing K] (g : VGrid zw nk) {p : Nat → K}
    (hp : Possible zw p nk) {openIt : Bool} {h : K} {k : Int} {r : K × Int}
    (hl : Lev zw nk h k) (he : restrictCell zw p openIt h k = .ok r) : Lev zw nk r.1 r.2 := by
  unfold restrictCell at he
  split at he
  · rename_i hc
    cases he
    rcases hl with ⟨rfl, _⟩ | ⟨n, rfl, h1, h2, h3, h4⟩
    · omega
    · have hn : 0 < n := by omega
      obtain ⟨p1, p2⟩ := hp n hn h1
      have hop : Lev zw nk (zw (n - 1) + p n) (n : Int) :=
        .inr ⟨n, rfl, h1, fun h => by omega, fun _ => by linarith, by linarith⟩
      unfold tooThin
      simp only [Int.toNat_natCast]
      split
      · exact hop
      · split
        · exact .inr ⟨n - 1, by omega, by omega, fun h => g.pos (by omega),
            fun h0 => g.lt (by omega) (by omega), le_rfl⟩
        · exact hop
  · cases he; exact hl

/-- The bottom cell is thick enough, unless there is only one level or none. -/
def Thick (zw p : Nat → K) (h : K) (k : Int) : Prop :=
  0 < k → p k.toNat ≤ h - zw (k.toNat - 1)

theorem restrictCell_thick [IsStrictOrderedRing K] {p : Nat → K}
    (hp : Possible zw p nk) {openIt : Bool} {h : K} {k : Int} {r : K × Int}
    (hl : Lev zw nk h k) (he : restrictCell zw p openIt h k = .ok r) : Thick zw p r.1 r.2 := by
  unfold restrictCell at he
  split at he
  · rename_i hc
    cases he
    rcases hl with ⟨rfl, _⟩ | ⟨n, rfl, h1, h2, h3, h4⟩
    · omega
    · have hn : 0 < n := by omega
      unfold tooThin Thick
      simp only [Int.toNat_natCast]
      split
      · intro _
        simp
      · split
        · intro h0
          simp only at h0
          obtain ⟨_, p2⟩ := hp (n - 1) (by omega) (by omega)
          rw [show ((n : Int) - 1).toNat = n - 1 by omega]
          exact p2
        · intro _
          simp
  · rename_i hc
    cases he
    intro h0
    exact not_lt.1 (fun h => hc ⟨h0, h⟩)

/-! ### Shallow cells -/

/-- What a cell with too few levels becomes, as a function of its level. -/
def shallowTo (zw : Nat → K) (o : Opts K) (k : Int) : Int :=
  if 0 ≤ k ∧ k < o.kmtMin - 1 then
    if o.roundShallow = true ∨ (o.deepenShallow = false ∧ o.fillShallow = false) then
      (roundCell zw (o.kmtMin - 1) k).2
    else if o.fillShallow then -1
    else o.kmtMin - 1
  else k

theorem enforceCell_cases {o : Opts K} {h : K} {k : Int}
    {r : K × Int} (hpk : 0 < h ↔ 0 ≤ k) (he : enforceCell zw o h k = .ok r) :
    r.2 = shallowTo zw o k ∧
      (r = (h, k) ∧ (0 < h → o.kmtMin - 1 ≤ k) ∨ (0 < h ∧ k < o.kmtMin - 1 ∧
        (r = (0, -1) ∨ r = (zw (o.kmtMin - 1).toNat, o.kmtMin - 1)))) := by
  unfold enforceCell at he
  by_cases hc : 0 < h ∧ k < o.kmtMin - 1
  · rw [if_pos hc] at he
    have hk0 := hpk.1 hc.1
    unfold shallowTo
    rw [if_pos ⟨hk0, hc.2⟩]
    split at he
    · rename_i ho
      rw [if_neg (by omega)] at he
      rw [if_pos ho]
      cases he
      refine ⟨rfl, .inr ⟨hc.1, hc.2, ?_⟩⟩
      unfold roundCell
      split <;> simp
    · rename_i ho
      rw [if_neg ho]
      split at he
      · rename_i hf
        rw [if_pos hf]
        cases he; exact ⟨rfl, .inr ⟨hc.1, hc.2, .inl rfl⟩⟩
      · rename_i hf
        rw [if_neg hf]
        cases he; exact ⟨rfl, .inr ⟨hc.1, hc.2, .inr rfl⟩⟩
  · rw [if_neg hc] at he
    cases he
    refine ⟨?_, .inl ⟨rfl, fun h0 => not_lt.1 (fun h => hc ⟨h0, h⟩)⟩⟩
    unfold shallowTo
    rw [if_neg (by rw [← hpk]; exact hc)]

theorem enforceCell_lev (g : VGrid zw nk) {o : Opts K} (hk : o.kmtMin ≤ nk) {h : K} {k : Int}
    {r : K × Int} (hl : Lev zw nk h k) (he : enforceCell zw o h k = .ok r) :
    Lev zw nk r.1 r.2 := by
  obtain ⟨_, ⟨rfl, _⟩ | ⟨h0, hc, rfl | rfl⟩⟩ := enforceCell_cases (hl.pos_iff g) he
  · exact hl
  · exact .inl ⟨rfl, le_rfl⟩
  · have hk0 := (hl.pos_iff g).1 h0
    exact .inr ⟨(o.kmtMin - 1).toNat, by omega, by omega, fun _ => g.pos (by omega),
      fun _ => g.lt (by omega) (by omega), le_rfl⟩

theorem enforceCell_ok (g : VGrid zw nk) {o : Opts K} {h : K} {k : Int}
    (hl : Lev zw nk h k) : ∃ r, enforceCell zw o h k = .ok r := by
  unfold enforceCell
  split
  · rename_i hc
    have hk0 := (hl.pos_iff g).1 hc.1
    split
    · rw [if_neg (by omega)]; exact ⟨_, rfl⟩
    · split <;> exact ⟨_, rfl⟩
  · exact ⟨_, rfl⟩

/-- Treating shallow cells keeps the order of levels. -/
theorem shallowTo_mono [IsStrictOrderedRing K] (g : VGrid zw nk) {o : Opts K} (hk : o.kmtMin ≤ nk)
    {a b : Int} (hab : a ≤ b) (ha : -1 ≤ a) : shallowTo zw o a ≤ shallowTo zw o b := by
  unfold shallowTo
  by_cases h1 : 0 ≤ a ∧ a < o.kmtMin - 1
  · rw [if_pos h1]
    by_cases h2 : 0 ≤ b ∧ b < o.kmtMin - 1
    · rw [if_pos h2]
      split
      · unfold roundCell
        by_cases h3 : zw b.toNat < 1 / 2 * zw (o.kmtMin - 1).toNat
        · rw [if_pos h3, if_pos ((g.le (by omega) (by omega)).trans_lt h3)]
        · rw [if_neg h3]
          split <;> simp only <;> omega
      · exact le_rfl
    · rw [if_neg h2]
      split
      · unfold roundCell
        split <;> simp only <;> omega
      · split <;> omega
  · rw [if_neg h1]
    by_cases h2 : 0 ≤ b ∧ b < o.kmtMin - 1
    · rw [if_pos h2]
      have : a = -1 := by omega
      subst this
      split
      · unfold roundCell
        split <;> simp only <;> omega
      · split <;> omega
    · rw [if_neg h2]; exact hab

end Grid

end Verif.Topog
