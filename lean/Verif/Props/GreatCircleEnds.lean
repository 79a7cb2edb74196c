import Verif.Props.GreatCircleClip
import Mathlib.Data.List.Pairwise
/-
C126, continued: cells without intersections, marks of vertices and the number of nodes that are taken from the pool.
-/
namespace Verif.GcClip
open Verif.Spec

variable {P K : Type} [DecidableEq P] [LinearOrder K] [Zero K] [One K]

theorem fold_distinct (same : P → P → Bool) (cap : Nat) : ∀ (c acc : List P) (u : Nat), acc ≠ [] →
    (acc ++ c).Pairwise (fun q p => same q p = false) → u + c.length ≤ cap → c.foldlM (addPt same cap) (acc, u) = .ok (acc ++ c, u + c.length) := by
  intro c
  induction c with
  | nil => intro acc u _ _ _; simp; rfl
  | cons p c ih =>
    intro acc u ha hp hc
    rw [List.length_cons] at hc
    have h1 : addPt same cap (acc, u) p = .ok (acc ++ [p], u + 1) := by
      unfold addPt
      have e1 : acc.isEmpty = false := by cases acc <;> simp at ha ⊢
      have e2 : (acc.any fun q => same q p) = false := by
        rw [List.any_eq_false]
        intro q hq
        rw [List.pairwise_append] at hp
        have := hp.2.2 q hq p List.mem_cons_self
        simp [this]
      simp only [e1, e2, Bool.false_eq_true, if_false]
      unfold alloc
      rw [if_neg (by omega)]
      rfl
    rw [List.foldlM_cons, h1]
    show c.foldlM (addPt same cap) (acc ++ [p], u + 1) = _
    rw [ih (acc ++ [p]) (u + 1) (by simp) (by simpa using hp) (by omega)]
    simp only [List.append_assoc, List.singleton_append, List.length_cons]
    congr 2
    omega

theorem fold_cell (same : P → P → Bool) (cap u : Nat) (c : List P) (hn : c ≠ []) (hp : c.Pairwise (fun q p => same q p = false))
    (hc : u + c.length ≤ cap) : c.foldlM (addPt same cap) ([], u) = .ok (c, u + (c.length - 1)) := by
  cases c with
  | nil => exact absurd rfl hn
  | cons p c =>
    rw [List.length_cons] at hc
    rw [List.foldlM_cons]
    show c.foldlM (addPt same cap) ([p], u) = _
    rw [fold_distinct same cap c [p] u (by simp) (by simpa using hp) (by omega)]
    simp

/-- What clipping makes of cells whose sides do not meet: the first cell if it is in the second, otherwise the second if it is in the first, otherwise nothing. -/
def nested (insideOf : P → List P → Bool) (c1 c2 : List P) : List P :=
  if ∀ p ∈ c1, insideOf p c2 = true then c1 else if ∀ p ∈ c2, insideOf p c1 = true then c2 else []

omit [DecidableEq P] [LinearOrder K] [One K] in
theorem whole_mkList (ins : P → Bool) (c : List P) :
    whole (K := K) c.length (mkList ins c) = if ∀ p ∈ c, ins p = true then some c else none := by
  unfold whole mkList
  have e1 : ((c.map fun p => (⟨p, 0, 0, 0, if ins p then 1 else 0⟩ : Nd P K)).filter fun m => decide (m.kind ≠ 1 ∧ m.inside = 1)).length =
      (c.filter ins).length := by
    rw [List.filter_map, List.length_map]
    congr 1
    apply List.filter_congr
    intro p _
    cases h : ins p <;> simp [h]
  rw [e1]
  have e2 : (c.length = (c.filter ins).length) ↔ ∀ p ∈ c, ins p = true := by
    rw [eq_comm, List.length_filter_eq_length_iff]
  by_cases h : ∀ p ∈ c, ins p = true
  · rw [if_pos (e2.2 h), if_pos h, List.map_map]
    congr 1
    rw [List.take_of_length_le (by simp)]
    conv_rhs => rw [← List.map_id c]
    rfl
  · rw [if_neg (fun hc => h (e2.1 hc)), if_neg h]

/-- **C126** (cells apart). If the ranges of the cells do not meet, there is no overlap. If no sides hit each other, the overlap is the cell that is inside the other, and
nothing if none is. -/
theorem C126_no_hits [Inhabited P] (same : P → P → Bool) (insideOf : P → List P → Bool) (convex : List P → Bool)
    (hitOf : P → P → P → P → P → Option (Hit P K)) (cap : Nat) (c1 c2 : List P) :
    clip same insideOf convex true hitOf cap c1 c2 = .ok [] ∧
    ((∀ a b c d e, hitOf a b c d e = none) → c1 ≠ [] → c2 ≠ [] → c1.Pairwise (fun q p => same q p = false) →
      c2.Pairwise (fun q p => same q p = false) → convex c1 = true → convex c2 = true → c1.length + c2.length + 6 ≤ cap →
      clip same insideOf convex false hitOf cap c1 c2 = .ok (nested insideOf c1 c2)) := by
  refine ⟨rfl, ?_⟩
  intro hh n1 n2 p1 p2 v1 v2 hc
  have l1 : 0 < c1.length := List.length_pos_iff.2 n1
  have l2 : 0 < c2.length := List.length_pos_iff.2 n2
  have hs : start (K := K) same insideOf convex cap c1 c2 = .ok ⟨mkList (insideOf · c2) c1, mkList (insideOf · c1) c2, fun i => c1.getD i default,
      fun i => c2.getD i default, [], 4 + (c1.length - 1) + (c2.length - 1) + 1 + 1⟩ := by
    unfold start
    rw [fold_cell same cap 4 c1 n1 p1 (by omega)]
    simp only [bind, Except.bind]
    rw [fold_cell same cap _ c2 n2 p2 (by omega)]
    simp only [v1, v2, Bool.not_true, Bool.or_self, Bool.false_eq_true, if_false]
    unfold alloc
    rw [if_neg (by omega)]
    simp only
    rw [if_neg (by omega)]
    rfl
  unfold clip
  rw [if_neg (by simp), hs]
  simp only [bind, Except.bind]
  have hall : ∀ (st : St P K) n m, allHits hitOf cap n m st = .ok st := by
    intro st n m
    unfold allHits
    generalize pairs n m = l
    induction l with
    | nil => rfl
    | cons x l ih =>
      rw [List.foldlM_cons]
      have : stepPair hitOf cap n m st x = .ok st := by
        unfold stepPair
        rw [hh]
      rw [this]
      exact ih
  rw [hall]
  simp only
  have hw : ∀ (s : St P K), s.ix = [] → walk same cap s = .ok [] := by
    intro s hs
    unfold walk startOf
    rw [hs]
    rfl
  rw [hw _ rfl]
  have m1 : (mkList (K := K) (insideOf · c2) c1).length = c1.length := by simp [mkList]
  have m2 : (mkList (K := K) (insideOf · c1) c2).length = c2.length := by simp [mkList]
  simp only [m1, m2, whole_mkList]
  unfold nested
  by_cases h1 : ∀ p ∈ c1, insideOf p c2 = true
  · simp only [if_pos h1]
    simp [n1]
    rfl
  · simp only [if_neg h1]
    by_cases h2 : ∀ p ∈ c2, insideOf p c1 = true
    · simp only [if_pos h2]
      simp
      rfl
    · simp only [if_neg h2]
      simp
      rfl

/-- **C126** (marks). When the side leaves the other cell at the new intersection (`inbound` 1), the first vertex behind it that is no intersection is marked as outside,
when it enters (`inbound` 2) the vertex before it; nothing else is changed, and nothing at all for an intersection at an end of the other side. -/
theorem C126_marks (l l' : List (Nd P K)) (k : Nat) (u2 : K) (inbound : Nat) (h : markEnds l k u2 inbound = .ok l') :
    (u2 = 0 ∨ u2 = 1 → l' = l) ∧ (u2 ≠ 0 → u2 ≠ 1 → inbound = 2 → l' = l.modify k fun n => { n with inside := 0 }) ∧
    (u2 ≠ 0 → u2 ≠ 1 → inbound = 1 → ∃ o < l.length, (∃ n, l[(k + 1 + o) % l.length]? = some n ∧ n.kind = 0) ∧
      (∀ o' < o, ∀ n, l[(k + 1 + o') % l.length]? = some n → n.kind ≠ 0) ∧
      l' = l.modify ((k + 1 + o) % l.length) fun n => { n with inside := 0 }) := by
  unfold markEnds at h
  refine ⟨?_, ?_, ?_⟩
  · intro hu
    rw [if_neg (by rintro ⟨h0, h1⟩; rcases hu with hu | hu; exact h0 hu; exact h1 hu)] at h
    exact (Except.ok.inj h).symm
  · intro h0 h1 hb
    rw [if_pos ⟨h0, h1⟩, if_neg (by omega), if_pos hb] at h
    exact (Except.ok.inj h).symm
  · intro h0 h1 hb
    rw [if_pos ⟨h0, h1⟩, if_pos hb] at h
    cases hm : nextPlain l k with
    | none => rw [hm] at h; cases h
    | some m =>
      rw [hm] at h
      have h := (Except.ok.inj h).symm
      unfold nextPlain at hm
      rw [List.find?_map] at hm
      rw [Option.map_eq_some_iff] at hm
      obtain ⟨o, ho, rfl⟩ := hm
      rw [List.find?_range_eq_some] at ho
      obtain ⟨h3, h4, h5⟩ := ho
      rw [List.mem_range] at h4
      refine ⟨o, h4, ?_, ?_, h⟩
      · simp only [Function.comp_apply] at h3
        generalize l[(k + 1 + o) % l.length]? = x at h3
        cases x with
        | none => cases h3
        | some n => exact ⟨n, rfl, by simpa using h3⟩
      · intro o' ho' n hn
        have := h5 o' ho'
        simp only [Function.comp_apply, hn] at this
        simpa using this

theorem modify_len (l : List (Nd P K)) (k : Nat) (f : Nd P K → Nd P K) : (l.modify k f).length = l.length := List.length_modify _ _ _

theorem insertIntersect_used {cap used : Nat} {l : List (Nd P K)} {x : P} {u1 u2 : K} {b : Nat} {p : P} {r : List (Nd P K) × Nat}
    (h : insertIntersect cap used l x u1 u2 b p = .ok r) : r.2 + l.length = used + r.1.length := by
  unfold insertIntersect at h
  cases hf : findPt l p with
  | none => rw [hf] at h; cases h
  | some k0 =>
    rw [hf] at h
    simp only at h
    by_cases hu : u1 = 0 ∨ u1 = 1
    · rw [if_pos hu] at h
      have h := (Except.ok.inj h).symm
      rw [h]
      simp only [List.length_modify]
    · rw [if_neg hu] at h
      simp only [bind, Except.bind] at h
      cases hm : markEnds l k0 u2 b with
      | error e => rw [hm] at h; cases h
      | ok l' =>
        rw [hm] at h
        simp only at h
        have hl : l'.length = l.length := by
          obtain ⟨h1, h2, h3⟩ := C126_marks l l' k0 u2 b hm
          unfold markEnds at hm
          split at hm
          · split at hm
            · split at hm
              · cases hm
              · rw [← Except.ok.inj hm, List.length_modify]
            · split at hm
              · rw [← Except.ok.inj hm, List.length_modify]
              · rw [← Except.ok.inj hm]
          · rw [← Except.ok.inj hm]
        unfold alloc at h
        by_cases hc : used + 1 > cap
        · rw [if_pos hc] at h; cases h
        · rw [if_neg hc] at h
          simp only at h
          have h := (Except.ok.inj h).symm
          rw [h]
          have hk : k0 < l.length := by
            unfold findPt at hf
            rw [List.findIdx?_eq_some_iff_getElem] at hf
            exact hf.1
          have hsk : skip l' k0 u1 ≤ l'.length - (k0 + 1) := by
            unfold skip
            refine le_trans (List.takeWhile_prefix _).length_le ?_
            rw [List.length_drop]
          simp only
          rw [List.length_insertIdx_of_le_length (by omega), hl]
          omega

theorem insertSide_used {cap used : Nat} {l : List (Nd P K)} {p : Nat → P} {i ip : Nat} {x : P} {u u' : K} {b : Nat}
    {r : (List (Nd P K) × Nat) × (Nat → P)} (h : insertSide cap used l p i ip x u u' b = .ok r) : r.1.2 + l.length = used + r.1.1.length := by
  unfold insertSide at h
  simp only [bind, Except.bind] at h
  by_cases hu : u = 1
  · simp only [hu, if_true] at h
    cases hi : insertIntersect cap used l x 0 u' b (p ip) with
    | error e => rw [hi] at h; cases h
    | ok q =>
      rw [hi] at h
      have h := (Except.ok.inj h).symm
      rw [h]
      exact insertIntersect_used hi
  · simp only [hu, if_false] at h
    cases hi : insertIntersect cap used l x u u' b (p i) with
    | error e => rw [hi] at h; cases h
    | ok q =>
      rw [hi] at h
      have h := (Except.ok.inj h).symm
      rw [h]
      exact insertIntersect_used hi

/-- Nodes of the list of intersections: the head is there from the start. -/
def ixNodes (l : List (Ix P K)) : Nat := l.length - 1

theorem step_used {hitOf : P → P → P → P → P → Option (Hit P K)} {cap n1 n2 : Nat} {s s' : St P K} {i : Nat × Nat}
    (h : stepPair hitOf cap n1 n2 s i = .ok s') :
    s'.used + s.g1.length + s.g2.length + ixNodes s.ix = s.used + s'.g1.length + s'.g2.length + ixNodes s'.ix := by
  unfold stepPair at h
  split at h
  · rw [← Except.ok.inj h]
  · rename_i hit _
    unfold addHit at h
    simp only at h
    split at h
    · rw [← Except.ok.inj h]
    · simp only [bind, Except.bind] at h
      cases ha : allocIx cap s with
      | error e => rw [ha] at h; cases h
      | ok u =>
        rw [ha] at h
        simp only at h
        cases h1 : insertSide cap u s.g1 s.p1 i.1 ((i.1 + 1) % n1) hit.pt hit.u1 hit.u2 hit.inbound with
        | error e => rw [h1] at h; cases h
        | ok r1 =>
          rw [h1] at h
          simp only at h
          cases h2 : insertSide cap r1.1.2 s.g2 s.p2 i.2 ((i.2 + 1) % n2) hit.pt hit.u2 hit.u1 0 with
          | error e => rw [h2] at h; cases h
          | ok r2 =>
            rw [h2] at h
            have h := (Except.ok.inj h).symm
            rw [h]
            have e1 := insertSide_used h1
            have e2 := insertSide_used h2
            have e3 : u + ixNodes s.ix = s.used + s.ix.length := by
              unfold allocIx at ha
              unfold ixNodes
              cases hx : s.ix with
              | nil =>
                rw [hx] at ha
                simp only [List.isEmpty_nil, if_true] at ha
                rw [← Except.ok.inj ha]
                simp
              | cons a l =>
                rw [hx] at ha
                simp only [List.isEmpty_cons, Bool.false_eq_true, if_false] at ha
                unfold alloc at ha
                by_cases hc : s.used + 1 > cap
                · rw [if_pos hc] at ha; cases ha
                · rw [if_neg hc] at ha
                  rw [← Except.ok.inj ha]
                  simp only [List.length_cons]
                  omega
            have e4 : ixNodes (s.ix ++ [entry hit i.1 ((i.1 + 1) % n1) i.2 ((i.2 + 1) % n2)]) = s.ix.length := by
              unfold ixNodes
              simp
            simp only [e4]
            omega

/-- **C126** (nodes in use). The nodes taken by the loops are those put into the two lists of vertices, and one for each intersection but the first. -/
theorem C126_nodes [Inhabited P] (same : P → P → Bool) (insideOf : P → List P → Bool) (convex : List P → Bool)
    (hitOf : P → P → P → P → P → Option (Hit P K)) (cap : Nat) (c1 c2 : List P) (s0 st : St P K)
    (hs : start same insideOf convex cap c1 c2 = .ok s0) (hst : allHits hitOf cap s0.g1.length s0.g2.length s0 = .ok st) :
    st.used + s0.g1.length + s0.g2.length = s0.used + st.g1.length + st.g2.length + (st.ix.length - 1) := by
  obtain ⟨hix, _⟩ := start_spec.2 s0 hs
  have key : ∀ (l : List (Nat × Nat)) (n m : Nat) (a b : St P K), l.foldlM (stepPair hitOf cap n m) a = .ok b →
      b.used + a.g1.length + a.g2.length + ixNodes a.ix = a.used + b.g1.length + b.g2.length + ixNodes b.ix := by
    intro l n m
    induction l with
    | nil => intro a b h; rw [← Except.ok.inj h]
    | cons x l ih =>
      intro a b h
      rw [List.foldlM_cons] at h
      simp only [bind, Except.bind] at h
      cases hx : stepPair hitOf cap n m a x with
      | error e => rw [hx] at h; cases h
      | ok c =>
        rw [hx] at h
        have e1 := step_used hx
        have e2 := ih c b h
        omega
  have := key _ _ _ _ _ hst
  rw [hix] at this
  unfold ixNodes at this
  simp only [List.length_nil] at this
  omega

/-- `C126_no_hits`: points on a line, inside of the range of the other cell; a small cell in a large one. -/
def gcIns (p : Nat) (c : List Nat) : Bool := c.any (· < p) && c.any (p < ·)

example : nested gcIns [4, 5, 6] [1, 9, 3] = [4, 5, 6] ∧ nested gcIns [1, 9, 3] [4, 5, 6] = [4, 5, 6] ∧ nested gcIns [1, 2, 3] [4, 5, 6] = [] := by
  decide

example : clip (K := Rat) (fun a b : Nat => a == b) gcIns (fun _ => true) false (fun _ _ _ _ _ => none) 20 [1, 9, 3] [4, 5, 6] = .ok [4, 5, 6] := by
  decide +kernel

end Verif.GcClip
