import Verif.Lemmas.GreatCircleWalk
/-
Helper lemmas for the clipping of cells with sides on great circles: which intersections are found, and the start.
-/
namespace Verif.GcClip
open Verif.Spec

variable {P K : Type} [DecidableEq P] [LinearOrder K] [Zero K] [One K]

omit [DecidableEq P] in
theorem entry_place (h : Hit P K) (n1 n2 : Nat) (i : Nat × Nat) : let e := entry h i.1 ((i.1 + 1) % n1) i.2 ((i.2 + 1) % n2)
    e.pt = h.pt ∧ (e.u1, e.i1) = place n1 i.1 h.u1 ∧ (e.u2, e.i2) = place n2 i.2 h.u2 := by
  refine ⟨rfl, ?_, ?_⟩
  · unfold place entry
    by_cases h1 : h.u1 = 1 <;> simp [h1]
  · unfold place entry
    by_cases h1 : h.u2 = 1 <;> simp [h1]

theorem step_ix {hitOf : P → P → P → P → P → Option (Hit P K)} {cap n1 n2 : Nat} {s t : St P K} {i : Nat × Nat}
    (h : stepPair hitOf cap n1 n2 s i = .ok t) :
    ((∀ x, ¬ HitIn hitOf n1 n2 s i x) ∧ t = s) ∨ ∃ x, HitIn hitOf n1 n2 s i x ∧
      (known s.ix (entry x i.1 ((i.1 + 1) % n1) i.2 ((i.2 + 1) % n2)) = true ∧ t = s ∨
        t.ix = s.ix ++ [entry x i.1 ((i.1 + 1) % n1) i.2 ((i.2 + 1) % n2)]) := by
  unfold stepPair at h
  unfold HitIn
  cases hh : hitOf (s.p1 i.1) (s.p1 ((i.1 + 1) % n1)) (s.p2 i.2) (s.p2 ((i.2 + 1) % n2)) (s.p2 ((i.2 + 2) % n2)) with
  | none =>
    rw [hh] at h
    injection h with h
    exact .inl ⟨fun x hx => (by cases hx), h.symm⟩
  | some x =>
    rw [hh] at h
    refine .inr ⟨x, rfl, ?_⟩
    dsimp only at h
    unfold addHit at h
    dsimp only at h
    by_cases hk : known s.ix (entry x i.1 ((i.1 + 1) % n1) i.2 ((i.2 + 1) % n2)) = true
    · rw [if_pos hk] at h
      injection h with h
      exact .inl ⟨hk, h.symm⟩
    · rw [if_neg hk] at h
      right
      cases h1 : allocIx cap s with
      | error e => rw [h1] at h; cases h
      | ok u =>
        rw [h1] at h
        simp only [bind, Except.bind] at h
        cases h2 : insertSide cap u s.g1 s.p1 i.1 ((i.1 + 1) % n1) x.pt x.u1 x.u2 x.inbound with
        | error e => rw [h2] at h; cases h
        | ok r1 =>
          rw [h2] at h
          dsimp only at h
          cases h3 : insertSide cap r1.1.2 s.g2 s.p2 i.2 ((i.2 + 1) % n2) x.pt x.u2 x.u1 0 with
          | error e => rw [h3] at h; cases h
          | ok r2 =>
            rw [h3] at h
            injection h with h
            rw [← h]

/-- Which intersections are in the list. -/
theorem reach_ix {hitOf : P → P → P → P → P → Option (Hit P K)} {cap n1 n2 : Nat} {s0 : St P K} (hix : s0.ix = []) :
    ∀ ps rest, pairs n1 n2 = ps ++ rest → ∀ st, ps.foldlM (stepPair hitOf cap n1 n2) s0 = .ok st →
      (∀ i ∈ ps, ∃ s, Reach hitOf cap n1 n2 s0 s ∧ ∀ h, HitIn hitOf n1 n2 s i h →
        ∃ t ∈ st.ix, (t.u1, t.i1) = place n1 i.1 h.u1 ∨ (t.u2, t.i2) = place n2 i.2 h.u2) ∧
      (∀ t ∈ st.ix, ∃ i ∈ ps, ∃ s h, Reach hitOf cap n1 n2 s0 s ∧ HitIn hitOf n1 n2 s i h ∧ t.pt = h.pt ∧
        (t.u1, t.i1) = place n1 i.1 h.u1 ∧ (t.u2, t.i2) = place n2 i.2 h.u2) := by
  intro ps
  induction ps using List.reverseRecOn with
  | nil =>
    intro rest _ st h
    injection h with h
    subst h
    exact ⟨by simp, by simp [hix]⟩
  | append_singleton ps i ih =>
    intro rest hps st h
    rw [List.foldlM_append] at h
    cases hr : ps.foldlM (stepPair hitOf cap n1 n2) s0 with
    | error x => rw [hr] at h; cases h
    | ok s =>
      rw [hr] at h
      have h' : stepPair hitOf cap n1 n2 s i = .ok st := by
        simp only [List.foldlM_cons, List.foldlM_nil, bind, Except.bind, pure, Except.pure] at h
        cases hstep : stepPair hitOf cap n1 n2 s i with
        | error x => rw [hstep] at h; cases h
        | ok y => rw [hstep] at h; exact h
      have hreach : Reach hitOf cap n1 n2 s0 s := ⟨ps, i :: rest, by rw [hps]; simp, hr⟩
      obtain ⟨a, b⟩ := ih (i :: rest) (by rw [hps]; simp) s hr
      have hmono : ∀ t ∈ s.ix, t ∈ st.ix := by
        intro t ht
        rcases step_ix h' with ⟨_, h⟩ | ⟨x, _, ⟨_, h⟩ | h⟩
        · rw [h]; exact ht
        · rw [h]; exact ht
        · rw [h]; simp [ht]
      constructor
      · intro j hj
        rcases List.mem_append.mp hj with hj | hj
        · obtain ⟨s1, h1, h2⟩ := a j hj
          refine ⟨s1, h1, fun h hh => ?_⟩
          obtain ⟨t, ht, hp⟩ := h2 h hh
          exact ⟨t, hmono t ht, hp⟩
        · rw [List.mem_singleton.mp hj]
          refine ⟨s, hreach, fun x hx => ?_⟩
          rcases step_ix h' with ⟨h1, _⟩ | ⟨y, hy, h2⟩
          · exact absurd hx (h1 x)
          · have hxy : x = y := by
              unfold HitIn at hx hy
              rw [hx] at hy
              injection hy
            subst hxy
            obtain ⟨_, e1, e2⟩ := entry_place x n1 n2 i
            rcases h2 with ⟨hk, h2⟩ | h2
            · rw [h2]
              unfold known at hk
              obtain ⟨t, ht, hd⟩ := List.any_eq_true.mp hk
              simp only [decide_eq_true_eq] at hd
              refine ⟨t, ht, ?_⟩
              rw [← e1, ← e2]
              simpa using hd
            · exact ⟨_, by rw [h2]; simp, .inl e1⟩
      · have hold : ∀ t ∈ s.ix, ∃ i' ∈ ps ++ [i], ∃ s h, Reach hitOf cap n1 n2 s0 s ∧ HitIn hitOf n1 n2 s i' h ∧ t.pt = h.pt ∧
            (t.u1, t.i1) = place n1 i'.1 h.u1 ∧ (t.u2, t.i2) = place n2 i'.2 h.u2 := by
          intro t ht
          obtain ⟨i', hi', r⟩ := b t ht
          exact ⟨i', by simp [hi'], r⟩
        intro t ht
        rcases step_ix h' with ⟨_, h⟩ | ⟨x, hx, ⟨_, h⟩ | h⟩
        · rw [h] at ht; exact hold t ht
        · rw [h] at ht; exact hold t ht
        · rw [h] at ht
          rcases List.mem_append.mp ht with ht | ht
          · exact hold t ht
          · rw [List.mem_singleton.mp ht]
            obtain ⟨e0, e1, e2⟩ := entry_place x n1 n2 i
            exact ⟨i, by simp, s, x, hreach, hx, e0, e1, e2⟩

/-! ### The start -/

omit [DecidableEq P] in
theorem fold_addPt (same : P → P → Bool) (cap : Nat) : ∀ (c : List P) (r : List P × Nat),
    (∀ e, c.foldlM (addPt same cap) r = .error e → e = .full ∧ cap < r.2 + c.length) ∧
    (∀ r', c.foldlM (addPt same cap) r = .ok r' → r'.2 ≤ r.2 + c.length ∧ r'.1.length ≤ r.1.length + c.length) := by
  intro c
  induction c with
  | nil =>
    intro r
    refine ⟨fun _ h => (by cases h), ?_⟩
    intro r' h
    injection h with h
    subst h
    simp
  | cons p c ih =>
    intro r
    rw [List.foldlM_cons]
    have h1 : (∀ e, addPt same cap r p = .error e → e = .full ∧ cap < r.2 + 1) ∧
        (∀ r', addPt same cap r p = .ok r' → r'.2 ≤ r.2 + 1 ∧ r'.1.length ≤ r.1.length + 1) := by
      unfold addPt
      by_cases he : r.1.isEmpty = true
      · rw [if_pos he]
        refine ⟨fun _ h => (by cases h), ?_⟩
        intro r' h
        injection h with h
        subst h
        simp
      · rw [if_neg he]
        by_cases hs : (r.1.any fun q => same q p) = true
        · rw [if_pos hs]
          refine ⟨fun _ h => (by cases h), ?_⟩
          intro r' h
          injection h with h
          subst h
          simp
        · rw [if_neg hs]
          unfold alloc
          by_cases hc : r.2 + 1 > cap
          · rw [if_pos hc]
            refine ⟨?_, fun _ h => (by cases h)⟩
            intro e h
            injection h with h
            exact ⟨h.symm, hc⟩
          · rw [if_neg hc]
            refine ⟨fun _ h => (by cases h), ?_⟩
            intro r' h
            injection h with h
            subst h
            simp
    cases ha : addPt same cap r p with
    | error x =>
      refine ⟨?_, fun _ h => (by cases h)⟩
      intro e h
      injection h with h
      subst h
      obtain ⟨a, b⟩ := h1.1 _ ha
      simp only [List.length_cons]
      exact ⟨a, by omega⟩
    | ok r1 =>
      obtain ⟨a, b⟩ := h1.2 _ ha
      obtain ⟨c1, c2⟩ := ih r1
      simp only [List.length_cons]
      constructor
      · intro e h
        obtain ⟨d1, d2⟩ := c1 e h
        exact ⟨d1, by omega⟩
      · intro r' h
        obtain ⟨d1, d2⟩ := c2 r' h
        omega

omit [DecidableEq P] [One K] in
theorem mkList_placed [Inhabited P] (ins : P → Bool) (l : List P) :
    Placed (K := K) (mkList (K := K) ins l).length (fun i => l.getD i default) [] (mkList ins l) where
  sides := by simp
  moved := by simp
  kinds := by
    intro m hm
    unfold mkList at hm
    obtain ⟨p, _, rfl⟩ := List.mem_map.mp hm
    simp
  lists := by
    refine ⟨fun _ => [], ?_, fun i _ => ⟨by simp, by simp [onRun]⟩⟩
    have h2 : (List.range (mkList (K := K) ins l).length).flatMap (fun i => (Sum.inl (l.getD i default, atVertex ([] : List (OnSide P K)) i) ::
        ([] : List (P × K)).map Sum.inr)) =
        (List.range l.length).map (fun i => (Sum.inl (l.getD i default, false) : Sum (P × Bool) (P × K))) := by
      simp [mkList, atVertex]
      exact List.map_eq_flatMap.symm
    rw [h2]
    apply List.ext_getElem?
    intro i
    unfold mkList
    simp only [List.map_map, List.getElem?_map]
    by_cases hi : i < l.length
    · rw [List.getElem?_eq_getElem hi, List.getElem?_range hi]
      simp [view, hi]
    · rw [List.getElem?_eq_none (by omega), List.getElem?_eq_none (by simpa using hi)]
      rfl

theorem start_spec [Inhabited P] {same : P → P → Bool} {insideOf : P → List P → Bool} {convex : List P → Bool} {cap : Nat}
    {c1 c2 : List P} :
    (∀ e, start (K := K) same insideOf convex cap c1 c2 = .error e → e = .notConvex ∨ (e = .full ∧ cap < c1.length + c2.length + 6)) ∧
    (∀ s0 : St P K, start same insideOf convex cap c1 c2 = .ok s0 → s0.ix = [] ∧ s0.used ≤ c1.length + c2.length + 6 ∧
      s0.g1.length ≤ c1.length ∧ s0.g2.length ≤ c2.length ∧ Placed s0.g1.length s0.p1 [] s0.g1 ∧
      Placed s0.g2.length s0.p2 [] s0.g2) := by
  unfold start
  obtain ⟨a1, a2⟩ := fold_addPt same cap c1 ([], 4)
  cases h1 : c1.foldlM (addPt same cap) ([], 4) with
  | error x =>
    refine ⟨?_, fun _ h => (by cases h)⟩
    intro e h
    injection h with h
    subst h
    obtain ⟨q1, q2⟩ := a1 _ h1
    dsimp only at q2
    exact .inr ⟨q1, by omega⟩
  | ok l1 =>
    obtain ⟨a3, a4⟩ := a2 _ h1
    obtain ⟨b1, b2⟩ := fold_addPt same cap c2 ([], l1.2)
    simp only [bind, Except.bind]
    cases h2 : c2.foldlM (addPt same cap) ([], l1.2) with
    | error x =>
      refine ⟨?_, fun _ h => (by cases h)⟩
      intro e h
      injection h with h
      subst h
      obtain ⟨q1, q2⟩ := b1 _ h2
      dsimp only at q2 a3
      exact .inr ⟨q1, by omega⟩
    | ok l2 =>
      obtain ⟨b3, b4⟩ := b2 _ h2
      dsimp only at a3 a4 b3 b4 ⊢
      simp only [List.length_nil] at a4 b4
      by_cases hc : (!convex l1.1 || !convex l2.1) = true
      · rw [if_pos hc]
        refine ⟨?_, fun _ h => (by cases h)⟩
        intro e h
        injection h with h
        exact .inl h.symm
      · rw [if_neg hc]
        unfold alloc
        by_cases hu : l2.2 + 1 > cap
        · rw [if_pos hu]
          refine ⟨?_, fun _ h => (by cases h)⟩
          intro e h
          injection h with h
          exact .inr ⟨h.symm, by omega⟩
        · rw [if_neg hu]
          dsimp only
          by_cases hu2 : l2.2 + 1 + 1 > cap
          · rw [if_pos hu2]
            refine ⟨?_, fun _ h => (by cases h)⟩
            intro e h
            injection h with h
            exact .inr ⟨h.symm, by omega⟩
          · rw [if_neg hu2]
            refine ⟨fun _ h => (by cases h), ?_⟩
            intro s0 h
            injection h with h
            subst h
            refine ⟨rfl, by dsimp only; omega, ?_, ?_, mkList_placed _ _, mkList_placed _ _⟩
            · simp only [mkList, List.length_map]; omega
            · simp only [mkList, List.length_map]; omega

theorem start_inv [Inhabited P] {same : P → P → Bool} {insideOf : P → List P → Bool} {convex : List P → Bool} {cap : Nat}
    {c1 c2 : List P} {s0 : St P K} (h : start same insideOf convex cap c1 c2 = .ok s0) : Inv s0.g1.length s0.g2.length s0 s0 := by
  obtain ⟨h1, _, _, _, h5, h6⟩ := start_spec.2 s0 h
  refine ⟨?_, ?_, ?_, ?_, by simp [h1]⟩
  · rw [h1]; exact h5
  · rw [h1]; exact h6
  · rw [h1]; intro i _; simp [side1]
  · rw [h1]; intro i _; simp [side2]

end Verif.GcClip
