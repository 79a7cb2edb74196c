import Verif.Lemmas.GreatCircleClip
import Mathlib.Algebra.NeZero
import Mathlib.Data.List.Induction
/-
Helper lemmas for the clipping of cells with sides on great circles: the loops over the pairs of sides.
-/
namespace Verif.GcClip
open Verif.Spec

variable {P K : Type} [DecidableEq P] [LinearOrder K] [Zero K] [One K] [NeZero (1 : K)]

/-- The record of a hit on a side. -/
def recOf (x : P) (u : K) (i ip : Nat) : OnSide P K := (x, if u = 1 then 0 else u, if u = 1 then ip else i)

omit [DecidableEq P] in
theorem recOf_u {x : P} {u : K} {i ip : Nat} : (recOf x u i ip).2.1 = 0 ↔ u = 0 ∨ u = 1 := by
  unfold recOf
  dsimp only
  by_cases h : u = 1 <;> simp [h]

theorem side_spec {n : Nat} {p0 p : Nat → P} {recs : List (OnSide P K)} {l : List (Nd P K)} (hp : Placed n p recs l)
    (hf : Fresh n p0 recs) (hc : Cur n p0 p recs) {i ip : Nat} (hi : i < n) (hip : ip < n) {x : P} {u u' : K} {inb cap used : Nat}
    (hnew : ∀ r ∈ recs, ¬ (r.2.1 = (recOf x u i ip).2.1 ∧ r.2.2 = (recOf x u i ip).2.2)) :
    (∀ e, insertSide cap used l p i ip x u u' inb = .error e → e = .loop ∨ (e = .full ∧ cap < used + 1)) ∧
    (∀ l' used' p', insertSide cap used l p i ip x u u' inb = .ok ((l', used'), p') →
      Placed n p' (recs ++ [recOf x u i ip]) l' ∧ Cur n p0 p' (recs ++ [recOf x u i ip]) ∧ used ≤ used' ∧ used' ≤ used + 1) := by
  have h01 : (0 : K) ≠ 1 := (NeZero.ne (1 : K)).symm
  have hcur : ∀ (p' : Nat → P) (r : OnSide P K), (p' = p ∨ (r.2.1 = 0 ∧ p' = setPt p r.2.2 r.1)) → Cur n p0 p' (recs ++ [r]) := by
    intro p' r h j hj
    have old : p j = p0 j ∨ ∃ q ∈ recs ++ [r], q.2.1 = 0 ∧ q.2.2 = j ∧ p j = q.1 := by
      rcases hc j hj with h | ⟨q, hq, h⟩
      · exact .inl h
      · exact .inr ⟨q, by simp [hq], h⟩
    rcases h with rfl | ⟨h0, rfl⟩
    · exact old
    · by_cases hjr : j = r.2.2
      · exact .inr ⟨r, by simp, h0, hjr.symm, by simp [setPt, hjr]⟩
      · rw [show setPt p r.2.2 r.1 j = p j by simp [setPt, hjr]]
        exact old
  by_cases hu : u = 1
  · have hr : recOf x u i ip = (x, 0, ip) := by simp [recOf, hu]
    rw [hr] at hnew ⊢
    obtain ⟨s1, s2⟩ := insert_spec (x := x) (u := 0) (u' := u') (inb := inb) (cap := cap) (used := used) hp hf hc hip h01
      (fun _ r hr h h0 => hnew r hr ⟨h0, h⟩)
    have he : insertSide cap used l p i ip x u u' inb =
        (insertIntersect cap used l x 0 u' inb (p ip) >>= fun r => .ok (r, setPt p ip x)) := by
      unfold insertSide
      simp only [hu, if_true]
      rfl
    rw [he]
    cases hins : insertIntersect cap used l x 0 u' inb (p ip) with
    | error e =>
      refine ⟨?_, fun _ _ _ h => by cases h⟩
      intro e' h
      injection h with h
      subst h
      rcases s1 _ hins with h | h
      · exact .inl h
      · exact .inr ⟨h.1, h.2.2⟩
    | ok r =>
      obtain ⟨l1, used1⟩ := r
      refine ⟨fun _ h => (by cases h), ?_⟩
      intro l' used' p' h
      injection h with h
      simp only [Prod.mk.injEq] at h
      obtain ⟨⟨rfl, rfl⟩, rfl⟩ := h
      obtain ⟨t1, t2⟩ := s2 _ _ hins
      rw [if_pos rfl] at t1 t2
      exact ⟨t1, hcur _ _ (.inr ⟨rfl, rfl⟩), by omega, by omega⟩
  · have hr : recOf x u i ip = (x, u, i) := by simp [recOf, hu]
    rw [hr] at hnew ⊢
    obtain ⟨s1, s2⟩ := insert_spec (x := x) (u := u) (u' := u') (inb := inb) (cap := cap) (used := used) hp hf hc hi hu
      (fun h r hr h' h0 => hnew r hr ⟨h0.trans h.symm, h'⟩)
    have he : insertSide cap used l p i ip x u u' inb =
        (insertIntersect cap used l x u u' inb (p i) >>= fun r => .ok (r, if u = 0 then setPt p i x else p)) := by
      unfold insertSide
      simp only [hu, if_false]
      rfl
    rw [he]
    cases hins : insertIntersect cap used l x u u' inb (p i) with
    | error e =>
      refine ⟨?_, fun _ _ _ h => by cases h⟩
      intro e' h
      injection h with h
      subst h
      rcases s1 _ hins with h | h
      · exact .inl h
      · exact .inr ⟨h.1, h.2.2⟩
    | ok r =>
      obtain ⟨l1, used1⟩ := r
      refine ⟨fun _ h => (by cases h), ?_⟩
      intro l' used' p' h
      injection h with h
      simp only [Prod.mk.injEq] at h
      obtain ⟨⟨rfl, rfl⟩, rfl⟩ := h
      obtain ⟨t1, t2⟩ := s2 _ _ hins
      by_cases h0 : u = 0
      · rw [if_pos h0] at t1 t2 ⊢
        exact ⟨t1, hcur _ _ (.inr ⟨h0, rfl⟩), by omega, by omega⟩
      · rw [if_neg h0] at t1 t2 ⊢
        exact ⟨t1, hcur _ _ (.inl rfl), by omega, by omega⟩

/-- What holds between two rounds of the loops. -/
structure Inv (n1 n2 : Nat) (s0 st : St P K) : Prop where
  one : Placed n1 st.p1 (side1 st.ix) st.g1
  two : Placed n2 st.p2 (side2 st.ix) st.g2
  cur1 : Cur n1 s0.p1 st.p1 (side1 st.ix)
  cur2 : Cur n2 s0.p2 st.p2 (side2 st.ix)
  used : st.used ≤ s0.used + 3 * st.ix.length

omit [NeZero (1 : K)] in
theorem known_false {l : List (Ix P K)} {e : Ix P K} (h : known l e = false) :
    ∀ t ∈ l, ¬ (t.u1 = e.u1 ∧ t.i1 = e.i1) ∧ ¬ (t.u2 = e.u2 ∧ t.i2 = e.i2) := by
  intro t ht
  unfold known at h
  rw [List.any_eq_false] at h
  have := h t ht
  simp only [decide_eq_true_eq] at this
  exact not_or.mp this

theorem addHit_spec {n1 n2 : Nat} {s0 st : St P K} {cap : Nat} (hi : Inv n1 n2 s0 st) (hf1 : Fresh n1 s0.p1 (side1 st.ix))
    (hf2 : Fresh n2 s0.p2 (side2 st.ix)) {i1 i2 : Nat} (h1 : i1 < n1) (h2 : i2 < n2) (h : Hit P K) :
    (∀ e, addHit cap n1 n2 st i1 i2 h = .error e → e = .loop ∨ (e = .full ∧ cap < s0.used + 3 * (st.ix.length + 1))) ∧
    (∀ st', addHit cap n1 n2 st i1 i2 h = .ok st' → Inv n1 n2 s0 st' ∧ st'.ix.length ≤ st.ix.length + 1) := by
  unfold addHit
  dsimp only
  generalize he : entry h i1 ((i1 + 1) % n1) i2 ((i2 + 1) % n2) = e
  by_cases hk : known st.ix e = true
  · rw [if_pos hk]
    refine ⟨fun _ h => (by cases h), ?_⟩
    intro st' h
    injection h with h
    subst h
    exact ⟨hi, by omega⟩
  rw [if_neg hk]
  have hkn := known_false (by simpa using hk)
  have hm1 : (i1 + 1) % n1 < n1 := Nat.mod_lt _ (by omega)
  have hm2 : (i2 + 1) % n2 < n2 := Nat.mod_lt _ (by omega)
  have e1 : recOf h.pt h.u1 i1 ((i1 + 1) % n1) = (e.pt, e.u1, e.i1) := by rw [← he]; rfl
  have e2 : recOf h.pt h.u2 i2 ((i2 + 1) % n2) = (e.pt, e.u2, e.i2) := by rw [← he]; rfl
  have hal : (∀ x, allocIx cap st = .error x → x = .full ∧ cap < st.used + 1) ∧ (∀ u, allocIx cap st = .ok u → u ≤ st.used + 1) := by
    unfold allocIx alloc
    split
    · exact ⟨fun _ h => (by cases h), fun u h => by injection h with h; omega⟩
    · split
      · rename_i hc
        exact ⟨fun x h => by injection h with h; exact ⟨h.symm, hc⟩, fun _ h => by cases h⟩
      · exact ⟨fun _ h => (by cases h), fun u h => by injection h with h; omega⟩
  obtain ⟨a1, a2⟩ := hal
  have hused := hi.used
  cases hr0 : allocIx cap st with
  | error x =>
    refine ⟨?_, fun _ h => by cases h⟩
    intro e' h'
    injection h' with h'
    subst h'
    exact .inr ⟨(a1 _ hr0).1, by have := (a1 _ hr0).2; omega⟩
  | ok u0 =>
    have hu0 := a2 u0 hr0
    simp only [bind, Except.bind]
    obtain ⟨s1, s2⟩ := side_spec (x := h.pt) (u := h.u1) (u' := h.u2) (inb := h.inbound) (cap := cap) (used := u0) hi.one hf1 hi.cur1
      h1 hm1 (by
        intro r hr
        obtain ⟨t, ht, rfl⟩ := List.mem_map.mp hr
        rw [e1]
        exact (hkn t ht).1)
    cases hr1 : insertSide cap u0 st.g1 st.p1 i1 ((i1 + 1) % n1) h.pt h.u1 h.u2 h.inbound with
    | error x =>
      refine ⟨?_, fun _ h => by cases h⟩
      intro e' h'
      injection h' with h'
      subst h'
      rcases s1 _ hr1 with h | h
      · exact .inl h
      · exact .inr ⟨h.1, by have := h.2; omega⟩
    | ok r1 =>
      obtain ⟨⟨l1, u1⟩, p1'⟩ := r1
      obtain ⟨t1, t2, t3, t4⟩ := s2 _ _ _ hr1
      dsimp only
      obtain ⟨s3, s4⟩ := side_spec (x := h.pt) (u := h.u2) (u' := h.u1) (inb := 0) (cap := cap) (used := u1) hi.two hf2 hi.cur2
        h2 hm2 (by
          intro r hr
          obtain ⟨t, ht, rfl⟩ := List.mem_map.mp hr
          rw [e2]
          exact (hkn t ht).2)
      cases hr2 : insertSide cap u1 st.g2 st.p2 i2 ((i2 + 1) % n2) h.pt h.u2 h.u1 0 with
      | error x =>
        refine ⟨?_, fun _ h => by cases h⟩
        intro e' h'
        injection h' with h'
        subst h'
        rcases s3 _ hr2 with h | h
        · exact .inl h
        · exact .inr ⟨h.1, by have := h.2; omega⟩
      | ok r2 =>
        obtain ⟨⟨l2, u2⟩, p2'⟩ := r2
        obtain ⟨t5, t6, t7, t8⟩ := s4 _ _ _ hr2
        refine ⟨fun _ h => (by cases h), ?_⟩
        intro st' h'
        injection h' with h'
        subst h'
        rw [e1] at t1 t2
        rw [e2] at t5 t6
        have hs1 : side1 (st.ix ++ [e]) = side1 st.ix ++ [(e.pt, e.u1, e.i1)] := by simp [side1]
        have hs2 : side2 (st.ix ++ [e]) = side2 st.ix ++ [(e.pt, e.u2, e.i2)] := by simp [side2]
        refine ⟨⟨by rw [hs1]; exact t1, by rw [hs2]; exact t5, by rw [hs1]; exact t2, by rw [hs2]; exact t6, ?_⟩, ?_⟩
        · simp only [List.length_append, List.length_singleton]
          omega
        · simp

theorem mem_pairs {n1 n2 : Nat} {i : Nat × Nat} (h : i ∈ pairs n1 n2) : i.1 < n1 ∧ i.2 < n2 := by
  unfold pairs at h
  simp only [List.mem_flatMap, List.mem_map, List.mem_range] at h
  obtain ⟨a, ha, b, hb, rfl⟩ := h
  exact ⟨ha, hb⟩

theorem pairs_length (n1 n2 : Nat) : (pairs n1 n2).length = n1 * n2 := by
  unfold pairs
  rw [List.length_flatMap]
  simp

/-- The loops keep the invariant; they end with an error only for a circle of intersections or a pool that is used
up. -/
theorem hits_spec (hitOf : P → P → P → P → P → Option (Hit P K)) {cap n1 n2 : Nat} {s0 : St P K} (h0 : Inv n1 n2 s0 s0)
    (hix : s0.ix = []) (hf : ∀ st, Reach hitOf cap n1 n2 s0 st → Fresh n1 s0.p1 (side1 st.ix) ∧ Fresh n2 s0.p2 (side2 st.ix)) :
    ∀ ps rest, pairs n1 n2 = ps ++ rest →
      (∀ e, ps.foldlM (stepPair hitOf cap n1 n2) s0 = .error e → e = .loop ∨ (e = .full ∧ cap < s0.used + 3 * ps.length)) ∧
      (∀ st, ps.foldlM (stepPair hitOf cap n1 n2) s0 = .ok st → Inv n1 n2 s0 st ∧ st.ix.length ≤ ps.length) := by
  intro ps
  induction ps using List.reverseRecOn with
  | nil =>
    intro rest _
    refine ⟨fun _ h => (by cases h), ?_⟩
    intro st h
    injection h with h
    subst h
    exact ⟨h0, by simp [hix]⟩
  | append_singleton ps i ih =>
    intro rest hps
    obtain ⟨ih1, ih2⟩ := ih (i :: rest) (by rw [hps]; simp)
    rw [List.foldlM_append]
    cases hr : ps.foldlM (stepPair hitOf cap n1 n2) s0 with
    | error x =>
      refine ⟨?_, fun _ h => by cases h⟩
      intro e h
      injection h with h
      subst h
      rcases ih1 _ hr with h | h
      · exact .inl h
      · exact .inr ⟨h.1, by have := h.2; simp; omega⟩
    | ok st =>
      obtain ⟨hi, hl⟩ := ih2 st hr
      have hreach : Reach hitOf cap n1 n2 s0 st := ⟨ps, i :: rest, by rw [hps]; simp, hr⟩
      obtain ⟨hf1, hf2⟩ := hf st hreach
      obtain ⟨hb1, hb2⟩ := mem_pairs (n1 := n1) (n2 := n2) (i := i) (by rw [hps]; simp)
      have : (Except.ok st >>= fun st => [i].foldlM (stepPair hitOf cap n1 n2) st) = stepPair hitOf cap n1 n2 st i := by
        show ([i].foldlM (stepPair hitOf cap n1 n2) st) = _
        rw [List.foldlM_cons]
        cases stepPair hitOf cap n1 n2 st i <;> rfl
      rw [this]
      unfold stepPair
      cases hitOf (st.p1 i.1) (st.p1 ((i.1 + 1) % n1)) (st.p2 i.2) (st.p2 ((i.2 + 1) % n2)) (st.p2 ((i.2 + 2) % n2)) with
      | none =>
        refine ⟨fun _ h => (by cases h), ?_⟩
        intro st' h
        injection h with h
        subst h
        exact ⟨hi, by simp; omega⟩
      | some h =>
        obtain ⟨a1, a2⟩ := addHit_spec (cap := cap) hi hf1 hf2 hb1 hb2 h
        refine ⟨?_, ?_⟩
        · intro e he
          rcases a1 e he with h | h
          · exact .inl h
          · exact .inr ⟨h.1, by have := h.2; simp; omega⟩
        · intro st' hs
          obtain ⟨b1, b2⟩ := a2 st' hs
          exact ⟨b1, by simp; omega⟩

end Verif.GcClip
