import Verif.Lemmas.Convex
/-
Lemmas for clip_2dx2d.
-/
namespace Verif.Clip
open Spec
variable {K : Type} [Field K] [LinearOrder K] [IsStrictOrderedRing K]

/-- The affine function that is not negative inside the edge. -/
def edgeFn (a b : Pt K) : Pt K → K :=
  lin (-(b.2 - a.2)) (-(a.1 - b.1)) (a.1 * (b.2 - a.2) + (a.1 - b.1) * a.2)

omit [LinearOrder K] [IsStrictOrderedRing K] in
theorem edgeFn_eq (a b p : Pt K) : edgeFn a b p = -product a b p := by
  unfold edgeFn lin product; ring

omit [LinearOrder K] [IsStrictOrderedRing K] in
theorem determ_eq (a b p v : Pt K) : determ a b p v = product a b v - product a b p := by
  unfold determ product; ring

omit [LinearOrder K] [IsStrictOrderedRing K] in
theorem product_rev (a b p : Pt K) : product b a p = -product a b p := by
  unfold product; ring

omit [LinearOrder K] [IsStrictOrderedRing K] in
theorem crossLine_eq {a b p v : Pt K} (h : product a b v ≠ product a b p) :
    crossLine a b p v = gcross (edgeFn a b) 0 p v := by
  have hd : determ a b p v ≠ 0 := by rw [determ_eq]; exact sub_ne_zero.2 h
  have e : (0 - edgeFn a b p) / (edgeFn a b v - edgeFn a b p) = -product a b p / determ a b p v := by
    rw [determ_eq, edgeFn_eq, edgeFn_eq, show (0 : K) - -product a b p = -(-product a b p) by ring,
      show -product a b v - -product a b p = -(product a b v - product a b p) by ring, neg_div_neg_eq]
  unfold gcross
  rw [e]
  unfold crossLine lerp
  ext
  · simp only []
    field_simp
    unfold determ product
    ring
  · simp only []
    field_simp
    unfold determ product
    ring

omit [IsStrictOrderedRing K] in
theorem go_congr_mem {inside inside' : Pt K → Bool} {cross cross' : Pt K → Pt K → Pt K} (P : Pt K → Prop)
    (hi : ∀ p, P p → inside p = inside' p)
    (hc : ∀ p v, P p → P v → inside v ≠ inside p → cross p v = cross' p v) :
    ∀ (l : List (Pt K)) (p : Pt K), P p → (∀ q ∈ l, P q) → go inside cross p l = go inside' cross' p l := by
  intro l
  induction l with
  | nil => intro p _ _; rfl
  | cons v vs ih =>
    intro p hp hl
    have hv := hl v (by simp)
    unfold go
    rw [ih v hv fun q hq => hl q (List.mem_cons_of_mem _ hq), ← hi p hp, ← hi v hv]
    by_cases h : inside v ≠ inside p
    · rw [if_pos h, if_pos h, hc p v hp hv h]
    · rw [if_neg h, if_neg h]

/-- No vertex is in the strip outside the edge that the tolerance counts as inside. -/
def OffStrip (small : K) (a b : Pt K) (l : List (Pt K)) : Prop :=
  ∀ p ∈ l, product a b p ≤ 0 ∨ small < product a b p

theorem edgePass_ok {small eps : K} {a b : Pt K} {l r : List (Pt K)} (h : edgePass small eps a b l = .ok r) :
    r = pass (insideEdge small a b) (crossLine a b) l ∧ (l ≠ [] → r.length ≤ MV) := by
  unfold edgePass at h
  unfold pass
  cases hz : l.getLast? with
  | none =>
    rw [hz] at h
    refine ⟨(Except.ok.inj h).symm, fun hne => absurd (List.getLast?_eq_none_iff.1 hz) hne⟩
  | some z =>
    rw [hz] at h
    simp only [] at h
    split at h
    · cases h
    · split at h
      · rename_i hl
        have := Except.ok.inj h
        exact ⟨this.symm, fun _ => this ▸ hl⟩
      · cases h

theorem pass_edge {small : K} (h0 : 0 ≤ small) {a b : Pt K} {l : List (Pt K)} (h : OffStrip small a b l) :
    pass (insideEdge small a b) (crossLine a b) l = gpass (edgeFn a b) 0 l := by
  unfold gpass pass
  cases hz : l.getLast? with
  | none => rfl
  | some z =>
    refine go_congr_mem (fun p => product a b p ≤ 0 ∨ small < product a b p) ?_ ?_ l z
      (h z (List.mem_of_getLast? hz)) h
    · intro p hp
      unfold insideEdge geIn
      rw [edgeFn_eq]
      rcases hp with hp | hp
      · rw [decide_eq_true (le_trans hp h0), decide_eq_true (by linarith)]
      · rw [decide_eq_false (not_le.2 hp), decide_eq_false (by push Not; linarith)]
    · intro p v _ _ hne
      apply crossLine_eq
      intro e
      apply hne
      unfold insideEdge
      rw [e]

theorem edgePass_clear {small eps : K} (h0 : 0 ≤ small) {a b : Pt K} {l r : List (Pt K)}
    (h : OffStrip small a b l) (he : edgePass small eps a b l = .ok r) : r = gpass (edgeFn a b) 0 l := by
  rw [(edgePass_ok he).1, pass_edge h0 h]

end Verif.Clip
