import Verif.Lemmas.GreatCircleIx
/-
C126: clipping a cell by a cell, both with sides on great circles. For every way to compute intersections: the
intersections are put into both lists of vertices in the right order, the walk along the lists never loses its way between
them, the polygon has only points of the overlap, and the pool of nodes suffices.
-/
namespace Verif.GcClip
open Verif.Spec

variable {P K : Type} [DecidableEq P] [LinearOrder K] [Zero K] [One K]

/-- **C126** (which intersections). For each pair of sides that hit each other there is an intersection at this place of
one of the cells, and each intersection is a hit of a pair of sides. -/
theorem C126_found [Inhabited P] (same : P → P → Bool) (insideOf : P → List P → Bool) (convex : List P → Bool)
    (hitOf : P → P → P → P → P → Option (Hit P K)) (cap : Nat) (c1 c2 : List P) (s0 st : St P K)
    (hs : start same insideOf convex cap c1 c2 = .ok s0) (hst : allHits hitOf cap s0.g1.length s0.g2.length s0 = .ok st) :
    (∀ i1 < s0.g1.length, ∀ i2 < s0.g2.length, ∃ s, Reach hitOf cap s0.g1.length s0.g2.length s0 s ∧
      ∀ h, HitIn hitOf s0.g1.length s0.g2.length s (i1, i2) h →
        ∃ t ∈ st.ix, (t.u1, t.i1) = place s0.g1.length i1 h.u1 ∨ (t.u2, t.i2) = place s0.g2.length i2 h.u2) ∧
    (∀ t ∈ st.ix, ∃ i1 i2 s h, i1 < s0.g1.length ∧ i2 < s0.g2.length ∧ Reach hitOf cap s0.g1.length s0.g2.length s0 s ∧
      HitIn hitOf s0.g1.length s0.g2.length s (i1, i2) h ∧ t.pt = h.pt ∧
      (t.u1, t.i1) = place s0.g1.length i1 h.u1 ∧ (t.u2, t.i2) = place s0.g2.length i2 h.u2) := by
  obtain ⟨hix, _⟩ := start_spec.2 s0 hs
  obtain ⟨a, b⟩ := reach_ix (hitOf := hitOf) (cap := cap) hix (pairs s0.g1.length s0.g2.length) [] (by simp) st hst
  constructor
  · intro i1 h1 i2 h2
    exact a (i1, i2) (by simp [pairs, h1, h2])
  · intro t ht
    obtain ⟨i, hi, s, h, r1, r2, r3, r4, r5⟩ := b t ht
    obtain ⟨h1, h2⟩ : i.1 < s0.g1.length ∧ i.2 < s0.g2.length := mem_pairs hi
    exact ⟨i.1, i.2, s, h, h1, h2, r1, r2, r3, r4, r5⟩

variable [NeZero (1 : K)]

/-- **C126** (the lists). After all pairs of sides the list of each cell has its vertices in order and on each side the
intersections in the order of their places, none missing and no point twice. A vertex is changed only if an intersection
is at it. -/
theorem C126_lists [Inhabited P] (same : P → P → Bool) (insideOf : P → List P → Bool) (convex : List P → Bool)
    (hitOf : P → P → P → P → P → Option (Hit P K)) (cap : Nat) (c1 c2 : List P) (s0 st : St P K)
    (hs : start same insideOf convex cap c1 c2 = .ok s0)
    (hf : ∀ s, Reach hitOf cap s0.g1.length s0.g2.length s0 s →
      Fresh s0.g1.length s0.p1 (side1 s.ix) ∧ Fresh s0.g2.length s0.p2 (side2 s.ix))
    (hst : allHits hitOf cap s0.g1.length s0.g2.length s0 = .ok st) :
    Placed s0.g1.length st.p1 (side1 st.ix) st.g1 ∧ Placed s0.g2.length st.p2 (side2 st.ix) st.g2 ∧
    (st.g1.map (·.pt)).Nodup ∧ (st.g2.map (·.pt)).Nodup ∧
    (∀ i < s0.g1.length, (∀ t ∈ st.ix, ¬ (t.u1 = 0 ∧ t.i1 = i)) → st.p1 i = s0.p1 i) ∧
    (∀ i < s0.g2.length, (∀ t ∈ st.ix, ¬ (t.u2 = 0 ∧ t.i2 = i)) → st.p2 i = s0.p2 i) := by
  obtain ⟨hix, _⟩ := start_spec.2 s0 hs
  obtain ⟨hi, _⟩ := (hits_spec hitOf (cap := cap) (start_inv hs) hix hf (pairs s0.g1.length s0.g2.length) [] (by simp)).2 st hst
  obtain ⟨f1, f2⟩ := hf st ⟨_, [], by simp, hst⟩
  have hj := inv_joined hi f1 f2
  refine ⟨hi.one, hi.two, hj.nd1, hj.nd2, ?_, ?_⟩
  · intro i h hn
    rcases hi.cur1 i h with h1 | ⟨r, hr, hu, hri, _⟩
    · exact h1
    · obtain ⟨t, ht, rfl⟩ := List.mem_map.mp hr
      exact absurd ⟨hu, hri⟩ (hn t ht)
  · intro i h hn
    rcases hi.cur2 i h with h1 | ⟨r, hr, hu, hri, _⟩
    · exact h1
    · obtain ⟨t, ht, rfl⟩ := List.mem_map.mp hr
      exact absurd ⟨hu, hri⟩ (hn t ht)

/-- **C126** (no way is lost, and the pool suffices). With a pool of at least `2 (m + n) + 4 m n + 6` nodes for cells of
`m` and `n` corners no call runs out of nodes, none fails to find a point in a list, and none comes to a null node. The
errors left are a cell that is not convex, and those of a walk through marks that do not fit together.
Four corners each need 86; the pool has 100 (mosaic_util.c:1047, `MAXNODELIST`). -/
theorem C126_safe_partial [Inhabited P] (same : P → P → Bool) (hsame : ∀ p, same p p = true) (insideOf : P → List P → Bool)
    (convex : List P → Bool) (apart : Bool) (hitOf : P → P → P → P → P → Option (Hit P K)) (cap : Nat) (c1 c2 : List P)
    (hcap : 2 * (c1.length + c2.length) + 4 * (c1.length * c2.length) + 6 ≤ cap)
    (hf : ∀ s0 : St P K, start same insideOf convex cap c1 c2 = .ok s0 → ∀ s, Reach hitOf cap s0.g1.length s0.g2.length s0 s →
      Fresh s0.g1.length s0.p1 (side1 s.ix) ∧ Fresh s0.g2.length s0.p2 (side2 s.ix))
    (e : Err) (he : clip same insideOf convex apart hitOf cap c1 c2 = .error e) :
    e = .notConvex ∨ e = .loop ∨ e = .noNext ∨ e = .noReturn ∨ e = .left := by
  unfold clip at he
  cases apart with
  | true => cases he
  | false =>
    rw [if_neg (by simp)] at he
    cases hs : start (K := K) same insideOf convex cap c1 c2 with
    | error x =>
      rw [hs] at he
      injection he with he
      subst he
      rcases start_spec.1 _ hs with h | ⟨_, h⟩
      · exact .inl h
      · omega
    | ok s0 =>
      rw [hs] at he
      simp only [bind, Except.bind] at he
      obtain ⟨hix, hused, hl1, hl2, _, _⟩ := start_spec.2 s0 hs
      have hsp := hits_spec hitOf (cap := cap) (start_inv hs) hix (hf s0 hs) (pairs s0.g1.length s0.g2.length) [] (by simp)
      have hlen : (pairs s0.g1.length s0.g2.length).length ≤ c1.length * c2.length := by
        rw [pairs_length]
        exact Nat.mul_le_mul hl1 hl2
      cases hst : allHits hitOf cap s0.g1.length s0.g2.length s0 with
      | error x =>
        rw [hst] at he
        injection he with he
        subst he
        rcases hsp.1 _ hst with h | ⟨_, h⟩
        · exact .inr (.inl h)
        · omega
      | ok st =>
        rw [hst] at he
        dsimp only at he
        obtain ⟨hi, hixl⟩ := hsp.2 _ hst
        obtain ⟨f1, f2⟩ := hf s0 hs st ⟨_, [], by simp, hst⟩
        have hj := inv_joined hi f1 f2
        have hw := (walk_spec (same := same) (cap := cap) (W := fun _ => True)
          (Q := (· ∈ (List.range s0.g1.length).map st.p1 ++ (List.range s0.g2.length).map st.p2 ++ st.ix.map (·.pt))) hj
          (by
            rintro l (rfl | rfl) m hm _
            · rcases placed_pt hi.one hm with h | h
              · simp only [List.mem_append]; exact .inl (.inl h)
              · rw [side1_pt] at h; simp only [List.mem_append]; exact .inr h
            · rcases placed_pt hi.two hm with h | h
              · simp only [List.mem_append]; exact .inl (.inr h)
              · rw [side2_pt] at h; simp only [List.mem_append]; exact .inr h)
          (fun _ _ _ _ _ _ _ _ _ => trivial) (fun _ _ => trivial)
          (fun _ _ _ _ _ _ _ _ _ _ _ _ _ => ⟨fun _ => trivial, fun _ => trivial⟩) (.inl fun _ => trivial)).1
        cases hwk : walk same cap st with
        | error x =>
          rw [hwk] at he
          injection he with he
          subst he
          rcases hw _ hwk with h | h | h | ⟨_, h⟩
          · exact .inr (.inr (.inl h))
          · exact .inr (.inr (.inr (.inl h)))
          · exact .inr (.inr (.inr (.inr h)))
          · refine absurd h (not_over hsame ?_)
            have := hi.used
            simp only [List.length_append, List.length_map, List.length_range]
            omega
        | ok poly =>
          rw [hwk] at he
          dsimp only at he
          by_cases hp : poly ≠ []
          · rw [if_pos hp] at he; cases he
          · rw [if_neg hp] at he
            cases hwh : whole s0.g1.length st.g1 with
            | none => rw [hwh] at he; cases he
            | some l =>
              rw [hwh] at he
              dsimp only at he
              by_cases hl : l ≠ []
              · rw [if_pos hl] at he; cases he
              · rw [if_neg hl] at he; cases he

/-- **C126** (the polygon of the walk). If the marks inside and outside fit together, every vertex of the polygon is an
intersection or a vertex of one cell that is inside the other; no point comes twice, and there are at least three. -/
theorem C126_polygon [Inhabited P] (same : P → P → Bool) (insideOf : P → List P → Bool) (convex : List P → Bool)
    (hitOf : P → P → P → P → P → Option (Hit P K)) (cap : Nat) (c1 c2 : List P) (s0 st : St P K)
    (hs : start same insideOf convex cap c1 c2 = .ok s0)
    (hf : ∀ s, Reach hitOf cap s0.g1.length s0.g2.length s0 s →
      Fresh s0.g1.length s0.p1 (side1 s.ix) ∧ Fresh s0.g2.length s0.p2 (side2 s.ix))
    (hst : allHits hitOf cap s0.g1.length s0.g2.length s0 = .ok st) (hc : Consistent st) (poly : List P)
    (hw : walk same cap st = .ok poly) :
    (∀ p ∈ poly, p ∈ st.ix.map (·.pt) ∨ ∃ m, (m ∈ st.g1 ∨ m ∈ st.g2) ∧ m.pt = p ∧ m.kind = 0 ∧ m.inside = 1) ∧
    poly.Pairwise (fun a b => same a b = false) ∧ (poly = [] ∨ 3 ≤ poly.length) := by
  obtain ⟨hix, _⟩ := start_spec.2 s0 hs
  obtain ⟨hi, _⟩ := (hits_spec hitOf (cap := cap) (start_inv hs) hix hf (pairs s0.g1.length s0.g2.length) [] (by simp)).2 st hst
  obtain ⟨f1, f2⟩ := hf st ⟨_, [], by simp, hst⟩
  have hj := inv_joined hi f1 f2
  refine (walk_spec (same := same) (cap := cap) (W := Within)
    (Q := fun p => p ∈ st.ix.map (·.pt) ∨ ∃ m, (m ∈ st.g1 ∨ m ∈ st.g2) ∧ m.pt = p ∧ m.kind = 0 ∧ m.inside = 1) hj ?_ ?_
    (fun _ h => h) ?_ (.inr hc)).2 poly hw
  · intro l hl m hm hW
    by_cases hk : m.kind = 0
    · right
      refine ⟨m, ?_, rfl, hk, ?_⟩
      · rcases hl with rfl | rfl
        · exact .inl hm
        · exact .inr hm
      · rcases hW with h | h
        · exact absurd hk h
        · exact h
    · left
      rcases hl with rfl | rfl
      · exact hj.to1 m hm hk
      · exact hj.to2 m hm hk
  · intro l hl k a b ha hb hW hk
    refine hc.one l hl k a b ha hb hk ?_
    rcases hW with h | h
    · exact absurd hk h
    · exact h
  · intro k1 k2 a b a' b' h1 h2 h3 h4 h5 h6 h7
    have := hc.two k1 k2 a b a' b' h1 h2 h3 h4 h5 h6 h7
    constructor
    · intro h
      rcases this with h' | h'
      · exact absurd h' h
      · exact h'
    · intro h
      rcases this with h' | h'
      · exact h'
      · exact absurd h' h

/-! ### Squares in the plane -/

/-- A way to compute intersections: straight sides in the plane, the second cell counterclockwise. -/
def gccHit (a0 a1 q0 q1 _q2 : ℚ × ℚ) : Option (Hit (ℚ × ℚ) ℚ) :=
  let d1 := (a1.1 - a0.1, a1.2 - a0.2)
  let d2 := (q1.1 - q0.1, q1.2 - q0.2)
  let r := (q0.1 - a0.1, q0.2 - a0.2)
  let det := d1.1 * d2.2 - d1.2 * d2.1
  if det = 0 then none
  else
    let u1 := (r.1 * d2.2 - r.2 * d2.1) / det
    let u2 := (r.1 * d1.2 - r.2 * d1.1) / det
    if 0 ≤ u1 ∧ u1 ≤ 1 ∧ 0 ≤ u2 ∧ u2 ≤ 1 then
      some ⟨(a0.1 + u1 * d1.1, a0.2 + u1 * d1.2), u1, u2, if u2 = 0 ∨ u2 = 1 then 0 else if det < 0 then 2 else 1⟩
    else none

/-- In or on a square along the axes, given by two opposite corners. -/
def gccIn (p : ℚ × ℚ) (l : List (ℚ × ℚ)) : Bool :=
  match l with
  | [a, _, c, _] => decide (a.1 ≤ p.1 ∧ p.1 ≤ c.1 ∧ a.2 ≤ p.2 ∧ p.2 ≤ c.2)
  | _ => false

def gccSame (a b : ℚ × ℚ) : Bool := decide (a = b)
def gccA : List (ℚ × ℚ) := [(0, 0), (2, 0), (2, 2), (0, 2)]
def gccB : List (ℚ × ℚ) := [(1, 1), (3, 1), (3, 3), (1, 3)]

def gccS0 : St (ℚ × ℚ) ℚ :=
  ⟨mkList (gccIn · gccB) gccA, mkList (gccIn · gccA) gccB, fun i => gccA.getD i default, fun i => gccB.getD i default, [], 12⟩

/-- The overlap of the squares `[0, 2]²` and `[1, 3]²`. -/
example : clip gccSame gccIn (fun _ => true) false gccHit 100 gccA gccB = .ok [(2, 1), (2, 2), (1, 2), (1, 1)] := by
  decide +kernel

theorem gcc_start : start gccSame gccIn (fun _ => true) 100 gccA gccB = .ok gccS0 := rfl

def gccFresh (n : Nat) (p : Nat → ℚ × ℚ) (recs : List (OnSide (ℚ × ℚ) ℚ)) : Bool :=
  decide ((∀ i < n, ∀ j < n, p i = p j → i = j) ∧ (recs.map (·.1)).Nodup ∧
    ∀ r ∈ recs, ∀ i < n, r.1 = p i → r.2.1 = 0 ∧ r.2.2 = i)

/-- The points of the squares are different in every state, as the theorems ask for. -/
theorem gcc_fresh (s : St (ℚ × ℚ) ℚ) (h : Reach gccHit 100 4 4 gccS0 s) :
    Fresh 4 gccS0.p1 (side1 s.ix) ∧ Fresh 4 gccS0.p2 (side2 s.ix) := by
  have key : ∀ k < 17, (match ((pairs 4 4).take k).foldlM (stepPair gccHit 100 4 4) gccS0 with
      | .ok s => gccFresh 4 gccS0.p1 (side1 s.ix) && gccFresh 4 gccS0.p2 (side2 s.ix)
      | .error _ => true) = true := by decide +kernel
  obtain ⟨ps, rest, h1, h2⟩ := h
  have hlen : ps.length < 17 := by
    have : (pairs 4 4).length = ps.length + rest.length := by rw [h1]; simp
    have h16 : (pairs 4 4).length = 16 := by decide +kernel
    omega
  have := key ps.length hlen
  rw [h1, List.take_left, h2] at this
  simp only [Bool.and_eq_true, gccFresh, decide_eq_true_eq] at this
  obtain ⟨⟨a, b, c⟩, d, e, f⟩ := this
  exact ⟨⟨a, b, c⟩, d, e, f⟩

/-- The pool suffices for the squares. -/
example : 2 * (gccA.length + gccB.length) + 4 * (gccA.length * gccB.length) + 6 ≤ 100 := by decide

def gccSt : St (ℚ × ℚ) ℚ := ((allHits gccHit 100 4 4 gccS0).toOption).getD gccS0

theorem gcc_hits : allHits gccHit 100 4 4 gccS0 = .ok gccSt := by
  have h : (match allHits gccHit 100 4 4 gccS0 with | .ok _ => true | .error _ => false) = true := by decide +kernel
  unfold gccSt
  cases hh : allHits gccHit 100 4 4 gccS0 with
  | error e => rw [hh] at h; cases h
  | ok s => rfl

/-- The marks of the squares fit together. -/
theorem gcc_consistent : Consistent gccSt := by
  have l1 : gccSt.g1.length = 6 := by decide +kernel
  have l2 : gccSt.g2.length = 6 := by decide +kernel
  have k1 : ∀ l ∈ [gccSt.g1, gccSt.g2], ∀ k < 6, ∀ a ∈ l[k]?, ∀ b ∈ after l k, a.kind = 0 → a.inside = 1 →
      b.kind ≠ 0 ∨ b.inside = 1 := by decide +kernel
  have k2 : ∀ i < 6, ∀ j < 6, (match gccSt.g1[i]?, gccSt.g2[j]?, after gccSt.g1 i, after gccSt.g2 j with
      | some a, some b, some a', some b' =>
        decide (a.pt = b.pt → (a'.kind ≠ 0 ∨ a'.inside = 1) ∨ (b'.kind ≠ 0 ∨ b'.inside = 1))
      | _, _, _, _ => true) = true := by decide +kernel
  have k3 : ∀ e ∈ gccSt.ix, e.inbound = 2 → ∀ k < 6, ∀ a ∈ gccSt.g1[k]?, ∀ b ∈ after gccSt.g1 k, a.pt = e.pt →
      b.kind ≠ 0 ∨ b.inside = 1 := by decide +kernel
  have lt : ∀ {l : List (Nd (ℚ × ℚ) ℚ)} {k : Nat} {a}, l.length = 6 → l[k]? = some a → k < 6 := by
    intro l k a hl h
    have := (List.getElem?_eq_some_iff.mp h).1
    omega
  refine ⟨?_, ?_, ?_⟩
  · intro l hl k a b ha hb h1 h2
    have hl6 : l.length = 6 := by rcases hl with rfl | rfl <;> assumption
    exact k1 l (by simpa using hl) k (lt hl6 ha) a ha b hb h1 h2
  · intro i j a b a' b' h1 h2 h3 _ _ h6 h7
    have := k2 i (lt l1 h1) j (lt l2 h2)
    rw [h1, h2, h6, h7] at this
    exact of_decide_eq_true this h3
  · intro e he h2 k a b ha hp hb
    exact k3 e he h2 k (lt l1 ha) a ha b hb hp

/-- The polygon of the squares has points of the overlap only. -/
example : ∀ p ∈ [((2, 1) : ℚ × ℚ), (2, 2), (1, 2), (1, 1)], p ∈ gccSt.ix.map (·.pt) ∨
    ∃ m, (m ∈ gccSt.g1 ∨ m ∈ gccSt.g2) ∧ m.pt = p ∧ m.kind = 0 ∧ m.inside = 1 :=
  (C126_polygon gccSame gccIn (fun _ => true) gccHit 100 gccA gccB gccS0 gccSt gcc_start gcc_fresh gcc_hits gcc_consistent _
    (by decide +kernel)).1

end Verif.GcClip
