import Verif.Model.Lon
import Verif.Spec.Lon
import Mathlib.Tactic.Linarith
import Mathlib.Tactic.Ring
import Mathlib.Tactic.FieldSimp
import Mathlib.Tactic.Push
import Mathlib.Tactic.NormNum
import Mathlib.Algebra.Order.Archimedean.Basic
/-
Lemmas for the adjustment of longitudes.
-/
namespace Verif.Lon
open Verif.Clip (Pt pimod1)
open Verif.Spec

variable {K : Type} [Field K] [LinearOrder K] [IsStrictOrderedRing K]

theorem sameMeridian_refl (pi a : K) : SameMeridian pi a a := ⟨0, by simp⟩

theorem _root_.Verif.Spec.SameMeridian.trans' {pi a b c : K} (h1 : SameMeridian pi a b) (h2 : SameMeridian pi b c) :
    SameMeridian pi a c := by
  obtain ⟨z, rfl⟩ := h1
  obtain ⟨w, rfl⟩ := h2
  exact ⟨z + w, by push_cast; ring⟩

theorem _root_.Verif.Spec.SameMeridian.symm' {pi a b : K} (h1 : SameMeridian pi a b) : SameMeridian pi b a := by
  obtain ⟨z, rfl⟩ := h1
  exact ⟨-z, by push_cast; ring⟩

theorem pimod1_same (pi x : K) : SameMeridian pi x (pimod1 pi x) := by
  unfold pimod1
  split
  · exact ⟨1, by push_cast; ring⟩
  · split
    · exact ⟨-1, by push_cast; ring⟩
    · exact sameMeridian_refl pi x

theorem pimod1_range {pi x : K} (h1 : -(3 * pi) ≤ x) (h2 : x ≤ 3 * pi) : -pi ≤ pimod1 pi x ∧ pimod1 pi x ≤ pi := by
  unfold pimod1
  split
  · constructor <;> linarith
  · split <;> constructor <;> linarith

theorem unwrap_same (pi : K) : ∀ (l : List (Pt K)) (prev : K), SameUpToTurns pi l (unwrap pi prev l)
  | [], _ => List.Forall₂.nil
  | p :: ps, prev => by
    refine List.Forall₂.cons ⟨rfl, ?_⟩ (unwrap_same pi ps _)
    obtain ⟨z, hz⟩ := pimod1_same pi (p.1 - prev)
    exact ⟨z, by simp only [hz]; ring⟩

theorem unwrapAll_same (pi : K) (l : List (Pt K)) : SameUpToTurns pi l (unwrapAll pi l) := by
  cases l with
  | nil => exact List.Forall₂.nil
  | cons p ps => exact List.Forall₂.cons ⟨rfl, sameMeridian_refl pi _⟩ (unwrap_same pi ps p.1)

theorem forall₂_map_right {α β : Type} {R : α → β → Prop} (f : α → β) (l : List α) (h : ∀ a, R a (f a)) :
    List.Forall₂ R l (l.map f) := by
  induction l with
  | nil => exact List.Forall₂.nil
  | cons a l ih => exact List.Forall₂.cons (h a) ih

theorem recentre_same (pi tlon : K) (l : List (Pt K)) : SameUpToTurns pi l (recentre pi tlon l) := by
  unfold recentre
  dsimp only
  split
  · exact forall₂_map_right _ l fun p => ⟨rfl, 1, by push_cast; ring⟩
  · split
    · exact forall₂_map_right _ l fun p => ⟨rfl, -1, by push_cast; ring⟩
    · have := forall₂_map_right (R := fun p q : Pt K => q.2 = p.2 ∧ SameMeridian pi p.1 q.1) id l
        fun p => ⟨rfl, sameMeridian_refl pi _⟩
      rwa [List.map_id] at this

theorem sameUpToTurns_trans {pi : K} : ∀ {a b c : List (Pt K)}, SameUpToTurns pi a b → SameUpToTurns pi b c →
    SameUpToTurns pi a c
  | [], _, _, List.Forall₂.nil, List.Forall₂.nil => List.Forall₂.nil
  | _ :: _, _, _, List.Forall₂.cons h1 h2, List.Forall₂.cons h3 h4 =>
    List.Forall₂.cons ⟨h3.1.trans h1.1, h1.2.trans' h3.2⟩ (sameUpToTurns_trans h2 h4)

/-! ### Without poles -/

theorem pairPoles_none {pi tol : K} {l : List (Pt K)} (h : AwayFromPoles pi tol l) (i : Nat) :
    pairPoles pi tol l i = l := by
  induction hn : l.length - i generalizing i with
  | zero => rw [pairPoles, dif_neg (by omega)]
  | succ n ih =>
    have hi : i < l.length := by omega
    have hp : isPole pi tol l[i] = false := by
      simp only [isPole, decide_eq_false_iff_not, not_le, ge_iff_le]
      exact h _ (List.getElem_mem hi)
    rw [pairPoles, dif_pos hi]
    simp only [hp]
    exact ih (i + 1) (by omega)

theorem poleLons_none {pi tol : K} {l : List (Pt K)} (h : AwayFromPoles pi tol l) : poleLons pi tol l = l := by
  have hs : ∀ i, poleLon pi tol l i = l := by
    intro i
    unfold poleLon
    cases e : l[i]? with
    | none => rfl
    | some p =>
      have hp : isPole pi tol p = false := by
        simp only [isPole, decide_eq_false_iff_not, not_le, ge_iff_le]
        exact h _ (List.mem_of_getElem? e)
      simp [hp]
  unfold poleLons
  generalize List.range l.length = r
  induction r with
  | nil => rfl
  | cons a r ih => rw [List.foldl_cons, hs]; exact ih

theorem twins_none {pi small : K} {l : List (Pt K)} (h : NoSideOverPole pi small l) : twins pi small l = l := by
  have : (List.range l.length).find? (through pi small l) = none := by
    rw [List.find?_eq_none]
    intro i hi
    simp only [List.mem_range] at hi
    have hm : (i + l.length - 1) % l.length < l.length := Nat.mod_lt _ (by omega)
    have := h i l[i] l[(i + l.length - 1) % l.length] (by simp [hi]) (by simp [hm])
    have e1 : xAt l i = l[i].1 := by simp [xAt, hi]
    have e2 : xAt l (prevIx l i) = (l[(i + l.length - 1) % l.length]).1 := by simp [xAt, prevIx, hm]
    simp only [through, Bool.or_eq_true, decide_eq_true_eq, not_or, not_lt, e1, e2]
    exact this
  simp [twins, this]

theorem fixLon_plain {pi tol small tlon : K} {l : List (Pt K)} (h1 : AwayFromPoles pi tol l)
    (h2 : NoSideOverPole pi small l) : fixLon pi tol small tlon l = recentre pi tlon (unwrapAll pi l) := by
  rw [fixLon, pairPoles_none h1, poleLons_none h1, twins_none h2]

/-! ### Unwrapping finds the lift -/

/-- `t` is the longitude of `p` up to at most one turn. -/
def Near (pi : K) (p : Pt K) (t : K) : Prop := t = p.1 ∨ t = p.1 + 2 * pi ∨ t = p.1 - 2 * pi

theorem unwrap_lift {pi : K} : ∀ (l : List (Pt K)) (t : List K) (prev : K),
    List.Forall₂ (Near pi) l t → (∀ a ∈ prev :: t, ∀ b ∈ prev :: t, |a - b| < pi) →
    (unwrap pi prev l).map Prod.fst = t
  | [], _, _, List.Forall₂.nil, _ => rfl
  | p :: ps, _, prev, @List.Forall₂.cons _ _ _ _ t _ ts h1 h2, hw => by
    have hd := hw t (by simp) prev (by simp)
    rw [abs_lt] at hd
    have e : prev + pimod1 pi (p.1 - prev) = t := by
      unfold pimod1
      rcases h1 with h | h | h
      · rw [if_neg (by linarith), if_neg (by linarith)]; linarith
      · rw [if_pos (by linarith)]; linarith
      · rw [if_neg (by linarith), if_pos (by linarith)]; linarith
    simp only [unwrap, List.map_cons, e]
    congr 1
    refine unwrap_lift ps ts t h2 fun a ha b hb => hw a ?_ b ?_
    · exact List.mem_cons_of_mem _ ha
    · exact List.mem_cons_of_mem _ hb

omit [LinearOrder K] [IsStrictOrderedRing K] in
theorem sum_map_add (l : List K) (c : K) : (l.map (· + c)).sum = l.sum + (l.length : K) * c := by
  induction l with
  | nil => simp
  | cons a l ih => simp only [List.map_cons, List.sum_cons, ih, List.length_cons]; push_cast; ring

theorem meanLon_add {l : List (Pt K)} (hl : l ≠ []) (c : K) :
    meanLon (l.map fun p => (p.1 + c, p.2)) = meanLon l + c := by
  have hn : (l.length : K) ≠ 0 := by
    have : 0 < l.length := List.length_pos_iff.2 hl
    exact_mod_cast this.ne'
  unfold meanLon
  rw [List.map_map, List.length_map]
  have : (Prod.fst ∘ fun p : Pt K => (p.1 + c, p.2)) = (· + c) ∘ Prod.fst := rfl
  rw [this, ← List.map_map, sum_map_add]
  simp only [List.length_map]
  field_simp

/-- The shift by a turn brings the mean to the given longitude, to within half a turn. -/
theorem recentre_mean {pi tlon : K} {l : List (Pt K)} (hl : l ≠ []) (h : |meanLon l - tlon| ≤ 3 * pi) :
    |meanLon (recentre pi tlon l) - tlon| ≤ pi := by
  rw [abs_le] at h
  have e : (l.map Prod.fst).sum / (l.length : K) = meanLon l := rfl
  unfold recentre
  dsimp only
  rw [e]
  split
  · rw [meanLon_add hl, abs_le]; constructor <;> linarith
  · split
    · have := meanLon_add hl (-(2 * pi))
      simp only [← sub_eq_add_neg] at this
      rw [this, abs_le]; constructor <;> linarith
    · rw [abs_le]; constructor <;> linarith

theorem recentre_diff {pi tlon : K} {l : List (Pt K)} {c : K}
    (h : ∀ p ∈ l, ∀ q ∈ l, |p.1 - q.1| < c) : ∀ p ∈ recentre pi tlon l, ∀ q ∈ recentre pi tlon l, |p.1 - q.1| < c := by
  unfold recentre
  dsimp only
  split
  · intro p hp q hq
    simp only [List.mem_map] at hp hq
    obtain ⟨a, ha, rfl⟩ := hp
    obtain ⟨b, hb, rfl⟩ := hq
    simpa using h a ha b hb
  · split
    · intro p hp q hq
      simp only [List.mem_map] at hp hq
      obtain ⟨a, ha, rfl⟩ := hp
      obtain ⟨b, hb, rfl⟩ := hq
      simpa using h a ha b hb
    · exact h

/-- The mean lies between bounds of the values. -/
theorem meanLon_bounds {l : List (Pt K)} (hl : l ≠ []) {a b : K} (h : ∀ p ∈ l, a ≤ p.1 ∧ p.1 ≤ b) :
    a ≤ meanLon l ∧ meanLon l ≤ b := by
  have hn : (0 : K) < (l.length : K) := by exact_mod_cast List.length_pos_iff.2 hl
  have hs : ∀ l : List (Pt K), (∀ p ∈ l, a ≤ p.1 ∧ p.1 ≤ b) →
      (l.length : K) * a ≤ (l.map Prod.fst).sum ∧ (l.map Prod.fst).sum ≤ (l.length : K) * b := by
    intro l
    induction l with
    | nil => intro _; simp
    | cons p l ih =>
      intro h
      obtain ⟨i1, i2⟩ := ih fun q hq => h q (List.mem_cons_of_mem _ hq)
      obtain ⟨h1, h2⟩ := h p List.mem_cons_self
      simp only [List.map_cons, List.sum_cons, List.length_cons]
      push_cast
      constructor <;> linarith
  obtain ⟨h1, h2⟩ := hs l h
  unfold meanLon
  constructor
  · rw [le_div_iff₀ hn]; linarith
  · rw [div_le_iff₀ hn]; linarith

/-! ### Poles -/

theorem pairPoles_length (pi tol : K) (l : List (Pt K)) (i : Nat) :
    (pairPoles pi tol l i).length ≤ l.length + (l.length - i) := by
  induction hn : l.length - i using Nat.strong_induction_on generalizing l i with
  | _ n ih =>
    rw [pairPoles]
    split
    · rename_i hi
      dsimp only
      have hdel : (l.eraseIdx i).length = l.length - 1 := by rw [List.length_eraseIdx]; simp [hi]
      have hins : (l.insertIdx i l[i]).length = l.length + 1 := by
        rw [List.length_insertIdx]; simp; omega
      split
      · split
        · have := ih ((l.eraseIdx i).length - i) (by omega) (l.eraseIdx i) i rfl
          omega
        · split
          · have := ih ((l.insertIdx i l[i]).length - (i + 2)) (by omega) (l.insertIdx i l[i]) (i + 2) rfl
            omega
          · have := ih (l.length - (i + 1)) (by omega) l (i + 1) rfl
            omega
      · have := ih (l.length - (i + 1)) (by omega) l (i + 1) rfl
        omega
    · omega

theorem poleLons_length (pi tol : K) (l : List (Pt K)) : (poleLons pi tol l).length = l.length := by
  have hs : ∀ (m : List (Pt K)) i, (poleLon pi tol m i).length = m.length := by
    intro m i
    unfold poleLon
    cases m[i]? with
    | none => rfl
    | some p =>
      dsimp only
      split
      · split <;> split <;> simp
      · rfl
  have : ∀ (r : List Nat) (m : List (Pt K)), (r.foldl (poleLon pi tol) m).length = m.length := by
    intro r
    induction r with
    | nil => intro m; rfl
    | cons a r ih => intro m; rw [List.foldl_cons, ih, hs]
  exact this _ l

theorem twins_length (pi small : K) (l : List (Pt K)) : (twins pi small l).length ≤ l.length + 2 := by
  unfold twins
  split
  · omega
  · dsimp only
    rw [List.length_insertIdx, List.length_insertIdx]
    repeat' split
    all_goals omega

theorem forall₂_length {pi : K} {a b : List (Pt K)} (h : SameUpToTurns pi a b) : a.length = b.length :=
  List.Forall₂.length_eq h

/-! ### lon_in_range -/

theorem rangeLoop_up {strt turn : K} (ht : 0 < turn) : ∀ (n fuel : Nat) (x : K), n + 1 ≤ fuel → x ≤ strt + turn →
    strt ≤ x + (n : K) * turn → ∃ z : Int, rangeLoop strt (strt + turn) turn fuel x = some (x + z * turn) ∧
      strt ≤ x + z * turn ∧ x + z * turn ≤ strt + turn
  | n, 0, _, h, _, _ => by omega
  | n, fuel + 1, x, h, hx, hn => by
    rw [rangeLoop]
    by_cases h1 : x < strt
    · rw [if_pos h1]
      cases n with
      | zero => simp at hn; linarith
      | succ n =>
        obtain ⟨z, e, h2, h3⟩ := rangeLoop_up ht n fuel (x + turn) (by omega) (by linarith)
          (by push_cast at hn; linarith)
        refine ⟨z + 1, ?_, ?_, ?_⟩
        · rw [e]; push_cast; congr 1; ring
        · push_cast; linarith
        · push_cast; linarith
    · rw [if_neg h1, if_neg (not_lt.2 hx)]
      exact ⟨0, by simp, by simpa using h1, by simpa using hx⟩

theorem rangeLoop_down {strt turn : K} (ht : 0 < turn) : ∀ (n fuel : Nat) (x : K), n + 1 ≤ fuel → strt ≤ x →
    x ≤ strt + turn + (n : K) * turn → ∃ z : Int, rangeLoop strt (strt + turn) turn fuel x = some (x + z * turn) ∧
      strt ≤ x + z * turn ∧ x + z * turn ≤ strt + turn
  | n, 0, _, h, _, _ => by omega
  | n, fuel + 1, x, h, hx, hn => by
    rw [rangeLoop, if_neg (not_lt.2 hx)]
    by_cases h1 : x > strt + turn
    · rw [if_pos h1]
      cases n with
      | zero => simp at hn; linarith
      | succ n =>
        obtain ⟨z, e, h2, h3⟩ := rangeLoop_down (strt := strt) ht n fuel (x - turn) (by omega) (by linarith)
          (by push_cast at hn; linarith)
        refine ⟨z - 1, ?_, ?_, ?_⟩
        · rw [e]; push_cast; congr 1; ring
        · push_cast; linarith
        · push_cast; linarith
    · rw [if_neg h1]
      exact ⟨0, by simp, by simpa using hx, by simpa using h1⟩

end Verif.Lon
