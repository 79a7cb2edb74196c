import Verif.Lemmas.EdgeClip
import Mathlib.Tactic.NormNum
import Mathlib.Data.Rat.Lemmas
import Mathlib.Algebra.Order.Field.Rat
/-
C29: clipping a polygon to a convex polygon.

The full claim is that every vertex returned is inside every edge of the clipping polygon and inside the hull
of the subject polygon. The code counts a point as inside an edge up to a tolerance but computes crossings
with the edge itself, so the full claim is false (`C29_sliver_wrong`). It is proved for runs in which no
vertex is in the strip between the edge and the tolerance (`Clear`).
-/
namespace Verif
open Clip Spec

variable {K : Type} [Field K] [LinearOrder K] [IsStrictOrderedRing K]

/-- In the whole run no vertex is in the strip between an edge and its tolerance: `a` is the previous vertex
of the clipping polygon. -/
def Clear (small eps : K) : Pt K → List (Pt K) → List (Pt K) → Prop
  | _, [], _ => True
  | a, b :: bs, l => OffStrip small a b l ∧ ∀ r, edgePass small eps a b l = .ok r → Clear small eps b bs r

/-- The longitudes are as the code leaves them alone. -/
def InTurn (pi : K) (l : List (Pt K)) : Prop := ∀ p ∈ l, 0 ≤ p.1 ∧ p.1 ≤ 2 * pi

theorem edges_cons {small eps : K} {a b : Pt K} {bs l r : List (Pt K)} (h : edges small eps a (b :: bs) l = .ok r) :
    ∃ m, edgePass small eps a b l = .ok m ∧ ((m = [] ∧ r = []) ∨ edges small eps b bs m = .ok r) := by
  unfold edges at h
  cases hm : edgePass small eps a b l with
  | error e => rw [hm] at h; cases h
  | ok m =>
    rw [hm] at h
    refine ⟨m, rfl, ?_⟩
    change (if m = [] then pure [] else edges small eps b bs m) = Except.ok r at h
    by_cases e : m = []
    · rw [if_pos e] at h
      exact Or.inl ⟨e, (Except.ok.inj h).symm⟩
    · rw [if_neg e] at h
      exact Or.inr h

theorem edges_half {small eps : K} (h0 : 0 ≤ small) (bs : List (Pt K)) : ∀ (a : Pt K) (l r : List (Pt K)),
    Clear small eps a bs l → edges small eps a bs l = .ok r → ∀ x y z : K, (∀ p ∈ l, x * p.1 + y * p.2 ≤ z) →
    ∀ p ∈ r, x * p.1 + y * p.2 ≤ z := by
  induction bs with
  | nil =>
    intro a l r _ h x y z hl
    have : l = r := Except.ok.inj h
    exact this ▸ hl
  | cons b bs ih =>
    intro a l r hc h x y z hl
    obtain ⟨m, hm, h⟩ := edges_cons h
    rcases h with ⟨_, rfl⟩ | h
    · intro p hp; cases hp
    · refine ih b m r (hc.2 m hm) h x y z ?_
      rw [edgePass_clear h0 hc.1 hm]
      exact gpass_half hl

theorem edges_left {small eps : K} (h0 : 0 ≤ small) (bs : List (Pt K)) : ∀ (a : Pt K) (l r : List (Pt K)),
    Clear small eps a bs l → edges small eps a bs l = .ok r → ∀ e ∈ pathEdges a bs, ∀ q ∈ r,
    0 ≤ orient e.1 e.2 q := by
  induction bs with
  | nil => intro a l r _ _ e he; cases he
  | cons b bs ih =>
    intro a l r hc h e he q hq
    obtain ⟨m, hm, h⟩ := edges_cons h
    rcases h with ⟨_, rfl⟩ | h
    · cases hq
    · rcases List.mem_cons.1 he with rfl | he
      · have hm' := edgePass_clear h0 hc.1 hm
        have := edges_half h0 bs b m r (hc.2 m hm) h (b.2 - a.2) (a.1 - b.1)
          (a.1 * (b.2 - a.2) + (a.1 - b.1) * a.2) (by
            intro p hp
            rw [hm'] at hp
            have : 0 ≤ edgeFn a b p := gpass_in (isLin_lin _ _ _) p hp
            rw [edgeFn_eq] at this
            unfold product at this
            linarith) q hq
        simp only []
        unfold orient
        linarith
      · exact ih b m r (hc.2 m hm) h e he q hq

theorem edges_convex {small eps : K} (h0 : 0 ≤ small) (bs : List (Pt K)) : ∀ (a : Pt K) (l r : List (Pt K)),
    Clear small eps a bs l → edges small eps a bs l = .ok r → Convex l → Convex r := by
  induction bs with
  | nil =>
    intro a l r _ h hl
    have : l = r := Except.ok.inj h
    exact this ▸ hl
  | cons b bs ih =>
    intro a l r hc h hl
    obtain ⟨m, hm, h⟩ := edges_cons h
    rcases h with ⟨_, rfl⟩ | h
    · intro e he; cases he
    · refine ih b m r (hc.2 m hm) h ?_
      rw [edgePass_clear h0 hc.1 hm]
      exact gpass_convex _ _ _ _ l hl

/-- What `clip2d` works on when the longitudes are in one turn. -/
theorem clip2d_inTurn {pi small eps : K} {l1 l2 r : List (Pt K)} (ht : InTurn pi l1)
    (h : clip2d pi small eps l1 l2 = .ok r) :
    ∃ z, l2.getLast? = some z ∧ edges small eps z l2 l1 = .ok r := by
  have hs : (l1.any fun p => decide (p.1 > 2 * pi) || decide (p.1 < 0)) = false := by
    rw [List.any_eq_false]
    intro p hp
    have := ht p hp
    simp [this.1, this.2]
  unfold clip2d at h
  split at h
  · cases h
  · rw [hs] at h
    simp only [Bool.false_eq_true, if_false] at h
    cases h1 : l1.getLast? with
    | none => rw [h1] at h; cases h
    | some z1 =>
      cases h2 : l2.getLast? with
      | none => rw [h1, h2] at h; cases h
      | some z => rw [h1, h2] at h; exact ⟨z, rfl, h⟩

/-- C29 (partial: for runs that avoid the tolerance strips). Every vertex returned is on the inner side of
every edge of the clipping polygon and in the hull of the subject polygon. -/
theorem C29_inside_partial (pi small eps : K) (h0 : 0 ≤ small) (l1 l2 r : List (Pt K)) (ht : InTurn pi l1)
    (h : clip2d pi small eps l1 l2 = .ok r) (hc : ∀ z, l2.getLast? = some z → Clear small eps z l2 l1) :
    ∀ q ∈ r, InHull l1 q ∧ ∀ e ∈ polyEdges l2, 0 ≤ orient e.1 e.2 q := by
  obtain ⟨z, hz, h⟩ := clip2d_inTurn ht h
  intro q hq
  refine ⟨fun x y c hl => edges_half h0 l2 z l1 r (hc z hz) h x y c hl q hq, ?_⟩
  intro e he
  unfold polyEdges at he
  rw [hz] at he
  exact edges_left h0 l2 z l1 r (hc z hz) h e he q hq

/-- C29 (partial as above). A convex polygon gives a convex polygon. -/
theorem C29_convex_partial (pi small eps : K) (h0 : 0 ≤ small) (l1 l2 r : List (Pt K)) (ht : InTurn pi l1)
    (h : clip2d pi small eps l1 l2 = .ok r) (hc : ∀ z, l2.getLast? = some z → Clear small eps z l2 l1)
    (h1 : Convex l1) : Convex r := by
  obtain ⟨z, hz, h⟩ := clip2d_inTurn ht h
  exact edges_convex h0 l2 z l1 r (hc z hz) h h1

/-- C29. A subject polygon inside all the edges comes back unchanged, whatever the tolerance. -/
theorem C29_unchanged (pi small eps : K) (h0 : 0 ≤ small) (l1 l2 : List (Pt K)) (ht : InTurn pi l1)
    (h1 : l1 ≠ []) (h2 : l2 ≠ []) (hn1 : l1.length ≤ 50) (hn2 : l2.length ≤ 50)
    (h : ∀ e ∈ polyEdges l2, ∀ p ∈ l1, 0 ≤ orient e.1 e.2 p) : clip2d pi small eps l1 l2 = .ok l1 := by
  have hs : (l1.any fun p => decide (p.1 > 2 * pi) || decide (p.1 < 0)) = false := by
    rw [List.any_eq_false]
    intro p hp
    have := ht p hp
    simp [this.1, this.2]
  obtain ⟨z1, hz1⟩ : ∃ z, l1.getLast? = some z := ⟨_, List.getLast?_eq_some_getLast h1⟩
  obtain ⟨z, hz⟩ : ∃ z, l2.getLast? = some z := ⟨_, List.getLast?_eq_some_getLast h2⟩
  unfold clip2d
  rw [if_neg (by unfold MV; omega), hs]
  simp only [Bool.false_eq_true, if_false]
  rw [hz1, hz]
  simp only []
  unfold polyEdges at h
  rw [hz] at h
  simp only [] at h
  have gen : ∀ (bs : List (Pt K)) (a : Pt K), (∀ e ∈ pathEdges a bs, ∀ p ∈ l1, 0 ≤ orient e.1 e.2 p) →
      edges small eps a bs l1 = .ok l1 := by
    intro bs
    induction bs with
    | nil => intro a _; rfl
    | cons b bs ih =>
      intro a ha
      have hin : ∀ p ∈ l1, insideEdge small a b p = true := by
        intro p hp
        have := ha (a, b) (by simp [pathEdges]) p hp
        unfold insideEdge
        apply decide_eq_true
        unfold orient at this
        unfold product
        simp only [] at this
        linarith
      have hpar : parallel small eps a b z1 l1 = false := by
        have : ∀ (vs : List (Pt K)) (p : Pt K), insideEdge small a b p = true →
            (∀ q ∈ vs, insideEdge small a b q = true) → parallel small eps a b p vs = false := by
          intro vs
          induction vs with
          | nil => intro p _ _; rfl
          | cons v vs ihv =>
            intro p hp hvs
            unfold parallel
            rw [ihv v (hvs v (by simp)) fun q hq => hvs q (List.mem_cons_of_mem _ hq), hp, hvs v (by simp)]
            simp
        exact this l1 z1 (hin z1 (List.mem_of_getLast? hz1)) hin
      have hp : edgePass small eps a b l1 = .ok l1 := by
        have hid := pass_id (insideEdge small a b) (crossLine a b) l1 hin
        unfold pass at hid
        rw [hz1] at hid
        simp only [] at hid
        unfold edgePass
        rw [hz1]
        simp only []
        rw [hpar, hid]
        exact if_pos hn1
      unfold edges
      rw [hp]
      show (if l1 = [] then pure [] else edges small eps b bs l1) = _
      rw [if_neg h1]
      exact ih b fun e he => ha e (List.mem_cons_of_mem _ he)
  exact gen l2 z h

/-- C29. After a round for one edge, every vertex is inside that edge up to the tolerance, in every run. -/
theorem C29_tolerance (small eps : K) (h0 : 0 ≤ small) (a b : Pt K) (l r : List (Pt K))
    (h : edgePass small eps a b l = .ok r) : ∀ q ∈ r, -small ≤ orient a b q := by
  have ho : ∀ q : Pt K, orient a b q = -product a b q := by intro q; unfold orient product; ring
  rw [(edgePass_ok h).1]
  apply pass_inside _ _ (fun q => -small ≤ orient a b q)
  · intro p hp
    have : product a b p ≤ small := by unfold insideEdge at hp; simpa using hp
    rw [ho]
    linarith
  · intro p v hne
    have hne' : product a b v ≠ product a b p := by
      intro e; apply hne; unfold insideEdge; rw [e]
    rw [crossLine_eq hne', ho, ← edgeFn_eq]
    have : edgeFn a b (gcross (edgeFn a b) 0 p v) = 0 :=
      f_gcross (isLin_lin _ _ _) 0 (by change edgeFn a b v ≠ edgeFn a b p; rw [edgeFn_eq, edgeFn_eq]; exact fun e => hne' (neg_injective e))
    rw [this]
    linarith

/-- C29. Cutting along an edge in both directions loses and duplicates nothing, if no vertex is in the strips
on either side of the edge. -/
theorem C29_split (E : Pt K → Pt K → K) (hE : Additive E) (small eps : K) (h0 : 0 ≤ small) (a b : Pt K)
    (hab : a ≠ b) (l r s : List (Pt K)) (hl : ∀ p ∈ l, orient a b p = 0 ∨ small < |orient a b p|)
    (hr : edgePass small eps a b l = .ok r) (hs : edgePass small eps b a l = .ok s) :
    cyc E r + cyc E s = cyc E l := by
  have ho : ∀ q : Pt K, product a b q = -orient a b q := by intro q; unfold orient product; ring
  have o1 : OffStrip small a b l := by
    intro p hp
    rw [ho]
    rcases hl p hp with h | h
    · left; rw [h]; simp
    · rcases abs_cases (orient a b p) with ⟨e, he⟩ | ⟨e, he⟩
      · left; linarith
      · right; linarith
  have o2 : OffStrip small b a l := by
    intro p hp
    rw [product_rev, ho]
    rcases hl p hp with h | h
    · left; rw [h]; simp
    · rcases abs_cases (orient a b p) with ⟨e, he⟩ | ⟨e, he⟩
      · right; linarith
      · left; linarith
  rw [edgePass_clear h0 o1 hr, edgePass_clear h0 o2 hs]
  have hne : -(b.2 - a.2) ≠ 0 ∨ -(a.1 - b.1) ≠ 0 := by
    by_contra hcon
    push Not at hcon
    apply hab
    ext
    · linarith [hcon.2]
    · linarith [hcon.1]
  have := split hne hE (γ := a.1 * (b.2 - a.2) + (a.1 - b.1) * a.2) 0 l
  have e : edgeFn b a = lin (- -(b.2 - a.2)) (- -(a.1 - b.1)) (-(a.1 * (b.2 - a.2) + (a.1 - b.1) * a.2)) := by
    funext p
    unfold edgeFn lin
    ring
  rw [e, ← this, neg_zero]
  rfl

/-! ### The tolerance. -/

/-- The unit square. -/
def exSquare : List (ℚ × ℚ) := [(1, 1), (0, 1), (0, 0), (1, 0)]

/-- A triangle whose lower side runs just below the square, one end in the strip and one not. -/
def exSliver : List (ℚ × ℚ) :=
  [(1 / 2, -(1 / 10 ^ 12 + 1 / 10 ^ 26)), (3 / 5, -1 / 10 ^ 12), (11 / 20, 1 / 2)]

/-- The longitudes, the tolerances and the arrays are as in the code. The crossing with the lower edge of the
square is computed at longitude 10^13, far outside the square and the triangle. The "intersection" of the unit
square and a triangle of area 1/40 has an area of more than 4. -/
theorem C29_sliver_wrong :
    InTurn (22 / 7) exSliver ∧
    clip2d (22 / 7 : ℚ) (1 / 10 ^ 12) (1 / 10 ^ 30) exSliver exSquare =
      .ok [(500000000001100000000000011 / 1000000000002000000000000020, 0), (50000000000003 / 5, 0),
        (3 / 5, -1 / 1000000000000), (11 / 20, 1 / 2)] ∧
    area [((500000000001100000000000011 : ℚ) / 1000000000002000000000000020, (0 : ℚ)), (50000000000003 / 5, 0),
        (3 / 5, -1 / 1000000000000), (11 / 20, 1 / 2)] < -4 ∧
    area exSliver < 3 / 100 := by
  refine ⟨by unfold InTurn; decide +kernel, by decide +kernel, by decide +kernel, by decide +kernel⟩

/-! ### Concrete case. -/

def exSub : List (ℚ × ℚ) := [(1 / 2, 1 / 2), (2, 1 / 2), (1 / 2, 2)]

example : InTurn (22 / 7) exSub := by unfold InTurn; decide +kernel
example : clip2d (22 / 7) (1 / 10 ^ 12) (1 / 10 ^ 30) exSub exSquare =
    .ok [(1 / 2, 1), (1 / 2, 1 / 2), (1, 1 / 2), (1, 1)] := by decide +kernel
example : OffStrip (1 / 10 ^ 12) (1, 0) (1, 1) exSub := by unfold OffStrip; decide +kernel
example : Convex exSub := by unfold Convex; decide +kernel

instance (small : ℚ) (a b : Pt ℚ) (l : List (Pt ℚ)) : Decidable (OffStrip small a b l) := by
  unfold OffStrip; infer_instance

/-- The whole run avoids the strips. -/
example : Clear (1 / 10 ^ 12) (1 / 10 ^ 30) (1, 0) exSquare exSub := by
  have e1 : edgePass (1 / 10 ^ 12 : ℚ) (1 / 10 ^ 30) (1, 0) (1, 1) exSub =
    .ok [(1 / 2, 1 / 2), (1, 1 / 2), (1, 3 / 2), (1 / 2, 2)] := by decide +kernel
  have e2 : edgePass (1 / 10 ^ 12 : ℚ) (1 / 10 ^ 30) (1, 1) (0, 1) [(1 / 2, 1 / 2), (1, 1 / 2), (1, 3 / 2), (1 / 2, 2)] =
    .ok [(1 / 2, 1), (1 / 2, 1 / 2), (1, 1 / 2), (1, 1)] := by decide +kernel
  have e3 : edgePass (1 / 10 ^ 12 : ℚ) (1 / 10 ^ 30) (0, 1) (0, 0) [(1 / 2, 1), (1 / 2, 1 / 2), (1, 1 / 2), (1, 1)] =
    .ok [(1 / 2, 1), (1 / 2, 1 / 2), (1, 1 / 2), (1, 1)] := by decide +kernel
  refine ⟨by decide +kernel, ?_⟩
  intro r hr
  cases Except.ok.inj (e1.symm.trans hr)
  refine ⟨by decide +kernel, ?_⟩
  intro r hr
  cases Except.ok.inj (e2.symm.trans hr)
  refine ⟨by decide +kernel, ?_⟩
  intro r hr
  cases Except.ok.inj (e3.symm.trans hr)
  exact ⟨by decide +kernel, fun _ _ => trivial⟩

end Verif
