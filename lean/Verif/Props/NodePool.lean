import Verif.Spec.NodePool
import Mathlib.Tactic.Push
import Mathlib.Tactic.ByContra
import Mathlib.Data.List.Basic
import Mathlib.Data.List.Forall2
import Mathlib.Algebra.Order.Ring.Rat
import Mathlib.Algebra.Field.Rat
/-
C41: the node pool.
-/
namespace Verif.NodePool
open Verif.Spec
variable {K : Type*} [Field K] [LinearOrder K] [IsStrictOrderedRing K]

omit [IsStrictOrderedRing K] in
theorem samePoint_iff (eps : K) (a b : Val K) : samePoint eps a b = true ↔ Coincide eps a b := by
  unfold samePoint Coincide
  split
  · rename_i h
    simp only [Bool.false_eq_true, false_iff]
    rintro ⟨h1, h2, h3⟩
    rcases h with h | h | h
    · exact absurd h1 (not_le.2 h)
    · exact absurd h2 (not_le.2 h)
    · exact absurd h3 (not_le.2 h)
  · rename_i h
    push Not at h
    simp [h]

/-! ### Linked lists -/

omit [Field K] [LinearOrder K] [IsStrictOrderedRing K] in
/-- The nodes of `l` are linked in this order, and the last is the end. -/
def Chain (p : Pool K) : List Nat → Prop
  | [] => False
  | [i] => (p.node i).next = none
  | i :: j :: l => (p.node i).next = some j ∧ Chain p (j :: l)

section
omit [Field K] [LinearOrder K] [IsStrictOrderedRing K]

theorem Chain.nodesFrom {p : Pool K} : ∀ {l : List Nat} {i : Nat} {f : Nat}, Chain p (i :: l) → (i :: l).length ≤ f →
    nodesFrom p f i = some (i :: l) := by
  intro l
  induction l with
  | nil =>
    intro i f h hf
    cases f with
    | zero => simp at hf
    | succ f =>
      simp only [Chain] at h
      simp [NodePool.nodesFrom, h]
  | cons j l ih =>
    intro i f h hf
    cases f with
    | zero => simp at hf
    | succ f =>
      obtain ⟨h1, h2⟩ := h
      simp only [NodePool.nodesFrom, h1]
      rw [ih h2 (by simpa using hf)]
      rfl

theorem Chain.congr {p q : Pool K} : ∀ {l : List Nat}, (∀ i ∈ l, (q.node i).next = (p.node i).next) → Chain p l → Chain q l := by
  intro l
  induction l with
  | nil => intro _ h; exact h
  | cons i l ih =>
    intro h hc
    cases l with
    | nil => simp only [Chain] at *; rw [h i (by simp)]; exact hc
    | cons j l =>
      simp only [Chain] at *
      exact ⟨by rw [h i (by simp)]; exact hc.1, ih (fun k hk => h k (List.mem_cons_of_mem _ hk)) hc.2⟩

theorem Chain.snoc {p q : Pool K} {t : Nat} : ∀ {l : List Nat} {i : Nat}, Chain p (i :: l) → (i :: l).Nodup →
    (∀ k ∈ i :: l, k ≠ (i :: l).getLast (by simp) → (q.node k).next = (p.node k).next) →
    (q.node ((i :: l).getLast (by simp))).next = some t → (q.node t).next = none → Chain q (i :: l ++ [t]) := by
  intro l
  induction l with
  | nil =>
    intro i _ _ _ h2 h3
    simp only [List.getLast_singleton] at h2
    exact ⟨h2, h3⟩
  | cons j l ih =>
    intro i hc hn h1 h2 h3
    have hne : i ≠ (i :: j :: l).getLast (by simp) := by
      rw [List.getLast_cons (by simp)]
      rintro e
      have := List.getLast_mem (l := j :: l) (by simp)
      rw [← e] at this
      exact (List.nodup_cons.1 hn).1 this
    refine ⟨?_, ?_⟩
    · rw [h1 i (by simp) hne]; exact hc.1
    · apply ih hc.2 (List.nodup_cons.1 hn).2
      · intro k hk hkl
        apply h1 k (List.mem_cons_of_mem _ hk)
        rw [List.getLast_cons (by simp)]; exact hkl
      · rw [List.getLast_cons (by simp)] at h2; exact h2
      · exact h3

/-- The nodes `l` hold the vertices `vs`. -/
def Rep (p : Pool K) (l : List Nat) (vs : List (Val K)) : Prop :=
  Chain p l ∧ ((vs = [] ∧ ∃ i, l = [i] ∧ (p.node i).initialized = false) ∨
    (vs ≠ [] ∧ l.map (fun i => (p.node i).val) = vs ∧ ∀ i ∈ l, (p.node i).initialized = true))

theorem Rep.congr {p q : Pool K} {l : List Nat} {vs : List (Val K)} (h : ∀ i ∈ l, q.node i = p.node i) (hr : Rep p l vs) :
    Rep q l vs := by
  obtain ⟨hc, hr⟩ := hr
  refine ⟨hc.congr fun i hi => by rw [h i hi], ?_⟩
  rcases hr with ⟨h1, i, rfl, h2⟩ | ⟨h1, h2, h3⟩
  · exact .inl ⟨h1, i, rfl, by rw [h i (by simp)]; exact h2⟩
  · refine .inr ⟨h1, ?_, fun i hi => by rw [h i hi]; exact h3 i hi⟩
    rw [← h2]
    exact List.map_congr_left fun i hi => by rw [h i hi]

theorem Rep.length {p : Pool K} {l : List Nat} {vs : List (Val K)} (hr : Rep p l vs) : l.length = max 1 vs.length := by
  rcases hr.2 with ⟨rfl, i, rfl, -⟩ | ⟨h1, rfl, -⟩
  · rfl
  · have : 0 < l.length := by
      cases l with
      | nil => simp at h1
      | cons => simp
    simp only [List.length_map]; omega

end

/-! ### One vertex -/

omit [IsStrictOrderedRing K] in
theorem addEnd_spec (cap : Nat) (eps : K) (p : Pool K) (i : Nat) (l : List Nat) (vs : List (Val K)) (v : Val K)
    (hr : Rep p (i :: l) vs) (hn : (i :: l).Nodup) (hlen : (i :: l).length ≤ cap) (hpos : p.pos ∉ i :: l)
    (hfresh : p.pos < cap → (p.node p.pos).next = none) :
    (addVertex eps vs v).length = vs.length ∧ addEnd cap eps p (some i) v = .ok p ∧ addVertex eps vs v = vs ∧ vs ≠ [] ∨
    (vs = [] ∧ addVertex eps vs v = [v] ∧ ∃ q, addEnd cap eps p (some i) v = .ok q ∧ q.pos = p.pos ∧
      (∀ k, k ≠ i → q.node k = p.node k) ∧ Rep q (i :: l) [v]) ∨
    (vs ≠ [] ∧ addVertex eps vs v = vs ++ [v] ∧
      (p.pos < cap → ∃ q, addEnd cap eps p (some i) v = .ok q ∧ q.pos = p.pos + 1 ∧
        (∀ k, k ∉ i :: l → k ≠ p.pos → q.node k = p.node k) ∧ Rep q (i :: l ++ [p.pos]) (vs ++ [v])) ∧
      (cap ≤ p.pos → addEnd cap eps p (some i) v = .error .full)) := by
  obtain ⟨hc, hr⟩ := hr
  rcases hr with ⟨rfl, i', hi', hinit⟩ | ⟨hne, hmap, hinit⟩
  · right; left
    obtain ⟨rfl, rfl⟩ := List.cons.inj hi'
    refine ⟨rfl, by simp [addVertex], p.set i { p.node i with val := v, initialized := true }, ?_, rfl, ?_, ?_, ?_⟩
    · simp [addEnd, hinit]
    · intro k hk; simp [Pool.set, hk]
    · simp only [Chain] at hc ⊢; simp [Pool.set, hc]
    · right; simp [Pool.set]
  · have hi := hinit i (by simp)
    have hex : (∃ w ∈ vs, Coincide eps w v) ↔ ((i :: l).any fun k => samePoint eps (p.node k).val v) = true := by
      rw [← hmap]
      simp only [List.any_eq_true, samePoint_iff, List.mem_map]
      constructor
      · rintro ⟨w, ⟨k, hk, rfl⟩, h⟩; exact ⟨k, hk, h⟩
      · rintro ⟨k, hk, h⟩; exact ⟨_, ⟨k, hk, rfl⟩, h⟩
    by_cases hs : ∃ w ∈ vs, Coincide eps w v
    · left
      have e : addVertex eps vs v = vs := by unfold addVertex; rw [if_pos hs]
      refine ⟨by rw [e], ?_, e, hne⟩
      simp only [addEnd, hi, if_true, hc.nodesFrom hlen, hex.1 hs]
    · right; right
      have e : addVertex eps vs v = vs ++ [v] := by unfold addVertex; rw [if_neg hs]
      have hany : ((i :: l).any fun k => samePoint eps (p.node k).val v) = false := by
        rw [Bool.eq_false_iff]; intro h; exact hs (hex.2 h)
      refine ⟨hne, e, ?_, ?_⟩
      · intro hcap
        have hlast : (i :: l).getLast?.getD i = (i :: l).getLast (by simp) := by
          rw [List.getLast?_eq_getLast_of_ne_nil (by simp)]; rfl
        have hlm : (i :: l).getLast (by simp) ∈ i :: l := List.getLast_mem _
        have hlp : (i :: l).getLast (by simp) ≠ p.pos := fun h => hpos (h ▸ hlm)
        refine ⟨(({ p with pos := p.pos + 1 } : Pool K).set ((i :: l).getLast (by simp))
            { p.node ((i :: l).getLast (by simp)) with next := some p.pos }).set p.pos
              { p.node p.pos with val := v, initialized := true }, ?_, ?_, ?_, ?_, ?_⟩
        · simp only [addEnd, hi, if_true, hc.nodesFrom hlen, hany, Bool.false_eq_true, if_false, getNext,
            if_neg (show ¬(p.pos + 1 > cap) by omega), bind, Except.bind, hlast]
          have hlp' : ¬(p.pos = (i :: l).getLast (by simp)) := fun h => hlp h.symm
          simp only [Pool.set, if_neg hlp']
        · simp [Pool.set]
        · intro k hk hkp
          have : k ≠ (i :: l).getLast (by simp) := fun h => hk (h ▸ hlm)
          simp [Pool.set, hkp, this]
        · apply hc.snoc hn
          · intro k hk hkl
            have : k ≠ p.pos := fun h => hpos (h ▸ hk)
            simp [Pool.set, this, hkl]
          · simp [Pool.set, hlp]
          · simp [Pool.set, hfresh hcap]
        · right
          refine ⟨by simp, ?_, ?_⟩
          · rw [List.map_append, ← hmap]
            congr 1
            · apply List.map_congr_left
              intro k hk
              have : k ≠ p.pos := fun h => hpos (h ▸ hk)
              simp only [Pool.set, if_neg this]
              split
              · rename_i h; rw [h]
              · rfl
            · simp [Pool.set]
          · intro k hk
            rcases List.mem_append.1 hk with hk | hk
            · have h1 : k ≠ p.pos := fun h => hpos (h ▸ hk)
              have h2 := hinit k hk
              simp only [Pool.set, if_neg h1]
              split
              · rename_i h; rw [h] at h2; exact h2
              · exact h2
            · simp only [List.mem_singleton] at hk
              simp [Pool.set, hk]
      · intro hcap
        simp only [addEnd, hi, if_true, hc.nodesFrom hlen, hany, Bool.false_eq_true, if_false, getNext,
          if_pos (show p.pos + 1 > cap by omega), bind, Except.bind]

/-! ### All lists -/

/-- The pool holds the lists `s`, which start at the nodes `hs`. -/
def Holds (cap : Nat) (p : Pool K) (hs : List Nat) (s : List (List (Val K))) : Prop :=
  ∃ L : List (List Nat), List.Forall₂ (fun h l => l.head? = some h) hs L ∧ List.Forall₂ (Rep p) L s ∧ L.flatten.Nodup ∧
    (∀ i ∈ L.flatten, i < p.pos) ∧ L.flatten.length = p.pos ∧ p.pos ≤ cap ∧
    ∀ i, p.pos ≤ i → i < cap → (p.node i).next = none ∧ (p.node i).initialized = false

omit [Field K] [LinearOrder K] [IsStrictOrderedRing K] in
theorem reps_length {p : Pool K} {L : List (List Nat)} {s : List (List (Val K))} (h : List.Forall₂ (Rep p) L s) :
    L.flatten.length = nodesUsed s := by
  induction h with
  | nil => rfl
  | cons h _ ih =>
    simp only [List.flatten_cons, List.length_append, ih, nodesUsed, List.map_cons, List.sum_cons]
    rw [h.length]

theorem forall₂_split {α β : Type*} {R : α → β → Prop} : ∀ {L : List α} {s : List β} {k : Nat}, List.Forall₂ R L s →
    k < s.length → ∃ L1 l L2 s1 v s2, L = L1 ++ l :: L2 ∧ s = s1 ++ v :: s2 ∧ L1.length = k ∧ s1.length = k ∧
      List.Forall₂ R L1 s1 ∧ R l v ∧ List.Forall₂ R L2 s2 := by
  intro L s k h
  induction h generalizing k with
  | nil => intro h; simp at h
  | @cons a b L s hab h ih =>
    intro hk
    cases k with
    | zero => exact ⟨[], a, L, [], b, s, rfl, rfl, rfl, rfl, .nil, hab, h⟩
    | succ k =>
      obtain ⟨L1, l, L2, s1, v, s2, rfl, rfl, h1, h2, h3, h4, h5⟩ := ih (by simpa using hk)
      exact ⟨a :: L1, l, L2, b :: s1, v, s2, rfl, rfl, by simp [h1], by simp [h2], .cons hab h3, h4, h5⟩

theorem modify_middle {α : Type*} (f : α → α) (s1 : List α) (v : α) (s2 : List α) (k : Nat) (h : s1.length = k) :
    (s1 ++ v :: s2).modify k f = s1 ++ f v :: s2 := by
  subst h
  induction s1 with
  | nil => simp
  | cons a s1 ih => simpa using ih

theorem forall₂_append {α β : Type*} {R : α → β → Prop} {L1 L2 : List α} {s1 s2 : List β} (h1 : List.Forall₂ R L1 s1)
    (h2 : List.Forall₂ R L2 s2) : List.Forall₂ R (L1 ++ L2) (s1 ++ s2) := by
  induction h1 with
  | nil => exact h2
  | cons h _ ih => exact .cons h ih

omit [IsStrictOrderedRing K] in
/-- One request. -/
theorem perform_spec (cap : Nat) (eps : K) (p : Pool K) (hs : List Nat) (s : List (List (Val K))) (r : Request K)
    (hh : Holds cap p hs s) (hp : Possible s r) :
    (nodesUsed (afterRequest eps s r) ≤ cap → ∃ q hs', perform cap eps (p, hs) r = .ok (q, hs') ∧
      Holds cap q hs' (afterRequest eps s r) ∧ hs <+: hs') ∧
    (cap < nodesUsed (afterRequest eps s r) → perform cap eps (p, hs) r = .error .full) := by
  obtain ⟨L, hL, hrep, hnd, hlt, hlen, hcap, hfresh⟩ := hh
  have hused := reps_length hrep
  cases r with
  | newList =>
    have hu : nodesUsed (afterRequest eps s .newList) = p.pos + 1 := by
      rw [← hlen, hused]
      simp [afterRequest, nodesUsed]
    constructor
    · intro h
      refine ⟨{ p with pos := p.pos + 1 }, hs ++ [p.pos], ?_, ?_, List.prefix_append _ _⟩
      · simp only [perform, getNext]
        rw [if_neg (by omega)]
      · refine ⟨L ++ [[p.pos]], forall₂_append hL (.cons rfl .nil), ?_, ?_, ?_, ?_, ?_, ?_⟩
        · refine forall₂_append (hrep.imp fun l v h => Rep.congr (p := p) (q := { p with pos := p.pos + 1 }) (fun _ _ => rfl) h) (.cons ⟨?_, .inl ⟨rfl, p.pos, rfl, ?_⟩⟩ .nil)
          · exact (hfresh p.pos (le_refl _) (by omega)).1
          · exact (hfresh p.pos (le_refl _) (by omega)).2
        · rw [List.flatten_append]
          simp only [List.flatten_cons, List.flatten_nil, List.append_nil]
          rw [List.nodup_append]
          refine ⟨hnd, by simp, ?_⟩
          intro a ha b hb e
          have := hlt a ha
          simp only [List.mem_singleton] at hb
          omega
        · intro i hi
          rw [List.flatten_append] at hi
          rcases List.mem_append.1 hi with hi | hi
          · have := hlt i hi; simp only; omega
          · simp at hi; simp only; omega
        · simp [hlen]
        · simp only; omega
        · intro i h1 h2
          exact hfresh i (by simp only at h1; omega) h2
    · intro h
      simp only [perform, getNext]
      rw [if_pos (by omega)]
  | vertex k v =>
    simp only [Possible] at hp
    obtain ⟨L1, l, L2, s1, vs, s2, rfl, rfl, hl1, hs1, hr1, hr, hr2⟩ := forall₂_split hrep hp
    have hkL : k < (L1 ++ l :: L2).length := by simp; omega
    obtain ⟨h1, i, h2, L1', l', L2', rfl, eL, hh1, hl1', hq1, hq, hq2⟩ := forall₂_split hL hkL
    obtain ⟨rfl, eL'⟩ := List.append_inj eL (by omega)
    obtain ⟨rfl, rfl⟩ := List.cons.inj eL'
    clear eL eL'
    obtain ⟨t, rfl⟩ : ∃ t, l = i :: t := by
      cases l with
      | nil => simp at hq
      | cons a t => simp at hq; exact ⟨t, by rw [hq]⟩
    have hget : (h1 ++ i :: h2)[k]? = some i := by
      rw [List.getElem?_append_right (by omega), hh1]; simp
    have hafter : afterRequest eps (s1 ++ vs :: s2) (.vertex k v) = s1 ++ addVertex eps vs v :: s2 := by
      simp only [afterRequest]
      exact modify_middle _ s1 vs s2 k hs1
    rw [hafter]
    have hflat : (L1 ++ (i :: t) :: L2).flatten = L1.flatten ++ ((i :: t) ++ L2.flatten) := by
      rw [List.flatten_append, List.flatten_cons]
    rw [hflat] at hnd hlt hlen
    have hnd' := List.nodup_append.1 hnd
    have hnd2 := List.nodup_append.1 hnd'.2.1
    have hmem : ∀ j ∈ i :: t, j < p.pos := fun j hj => hlt j (by simp only [List.mem_append]; exact .inr (.inl hj))
    have hmem1 : ∀ l' ∈ L1, ∀ j ∈ l', j ∉ i :: t ∧ j < p.pos := by
      intro l' hl' j hj
      have : j ∈ L1.flatten := List.mem_flatten.2 ⟨l', hl', hj⟩
      exact ⟨fun h => hnd'.2.2 j this j (List.mem_append_left _ h) rfl, hlt j (List.mem_append_left _ this)⟩
    have hmem2 : ∀ l' ∈ L2, ∀ j ∈ l', j ∉ i :: t ∧ j < p.pos := by
      intro l' hl' j hj
      have : j ∈ L2.flatten := List.mem_flatten.2 ⟨l', hl', hj⟩
      exact ⟨fun h => hnd2.2.2 j h j this rfl, hlt j (List.mem_append_right _ (List.mem_append_right _ this))⟩
    have hframe : ∀ (q : Pool K) (M : List (List Nat)) (ss : List (List (Val K))), List.Forall₂ (Rep p) M ss →
        (∀ l' ∈ M, ∀ j ∈ l', q.node j = p.node j) → List.Forall₂ (Rep q) M ss := by
      intro q M ss hM
      induction hM with
      | nil => intro _; exact .nil
      | cons h _ ih =>
        intro hq
        exact .cons (h.congr (hq _ (by simp))) (ih fun l' hl' => hq l' (List.mem_cons_of_mem _ hl'))
    have husedL : nodesUsed (s1 ++ vs :: s2) = p.pos := by rw [← hused, hflat, hlen]
    have hlenle : (i :: t).length ≤ cap := by
      simp only [List.length_append] at hlen
      omega
    have hsplit : ∀ w : List (Val K), nodesUsed (s1 ++ w :: s2) + max 1 vs.length = p.pos + max 1 w.length := by
      intro w
      have : nodesUsed (s1 ++ w :: s2) + max 1 vs.length = nodesUsed (s1 ++ vs :: s2) + max 1 w.length := by
        simp only [nodesUsed, List.map_append, List.map_cons, List.sum_append, List.sum_cons]
        omega
      rw [this, husedL]
    rcases addEnd_spec cap eps p i t vs v hr hnd2.1 hlenle (fun h => absurd (hmem _ h) (by omega))
      (fun h => (hfresh p.pos (le_refl _) h).1) with
      ⟨-, he, ha, hne⟩ | ⟨rfl, ha, q, he, hqp, hqn, hqr⟩ | ⟨hne, ha, hok, herr⟩
    · rw [ha, husedL]
      constructor
      · intro _
        refine ⟨p, h1 ++ i :: h2, ?_, ?_, List.prefix_refl _⟩
        · simp only [perform, hget, he]
        · exact ⟨L1 ++ (i :: t) :: L2, hL, hrep, by rw [hflat]; exact hnd, by rw [hflat]; exact hlt,
            by rw [hflat]; exact hlen, hcap, hfresh⟩
      · intro h; omega
    · rw [ha]
      have hu := hsplit [v]
      simp only [List.length_nil, List.length_singleton] at hu
      constructor
      · intro _
        refine ⟨q, h1 ++ i :: h2, ?_, ?_, List.prefix_refl _⟩
        · simp only [perform, hget, he]
        · refine ⟨L1 ++ (i :: t) :: L2, hL, ?_, by rw [hflat]; exact hnd, by rw [hflat, hqp]; exact hlt,
            by rw [hflat, hqp]; exact hlen, by omega, ?_⟩
          · refine forall₂_append (hframe q _ _ hr1 ?_) (.cons hqr (hframe q _ _ hr2 ?_))
            · intro l' hl' j hj
              exact hqn j fun h => (hmem1 l' hl' j hj).1 (h ▸ by simp)
            · intro l' hl' j hj
              exact hqn j fun h => (hmem2 l' hl' j hj).1 (h ▸ by simp)
          · intro j h1 h2
            rw [hqp] at h1
            rw [hqn j fun h => by have := hmem i (by simp); omega]
            exact hfresh j h1 h2
      · intro h; omega
    · rw [ha]
      have hu := hsplit (vs ++ [v])
      have hvl : 1 ≤ vs.length := by
        cases vs with
        | nil => exact absurd rfl hne
        | cons => simp
      simp only [List.length_append, List.length_singleton] at hu
      rw [Nat.max_eq_right hvl, Nat.max_eq_right (by omega)] at hu
      constructor
      · intro hle
        obtain ⟨q, he, hqp, hqn, hqr⟩ := hok (by omega)
        refine ⟨q, h1 ++ i :: h2, ?_, ?_, List.prefix_refl _⟩
        · simp only [perform, hget, he]
        · have hflat' : (L1 ++ (i :: t ++ [p.pos]) :: L2).flatten = L1.flatten ++ ((i :: t ++ [p.pos]) ++ L2.flatten) := by
            rw [List.flatten_append, List.flatten_cons]
          have hperm : (L1.flatten ++ ((i :: t ++ [p.pos]) ++ L2.flatten)).Perm
              (p.pos :: (L1.flatten ++ ((i :: t) ++ L2.flatten))) := by
            rw [List.append_assoc (i :: t), ← List.append_assoc L1.flatten, ← List.append_assoc L1.flatten]
            exact List.perm_middle
          refine ⟨L1 ++ (i :: t ++ [p.pos]) :: L2, forall₂_append hq1 (.cons rfl hq2), ?_, ?_, ?_, ?_, by omega, ?_⟩
          · refine forall₂_append (hframe q _ _ hr1 ?_) (.cons hqr (hframe q _ _ hr2 ?_))
            · intro l' hl' j hj
              have := hmem1 l' hl' j hj
              exact hqn j this.1 (by omega)
            · intro l' hl' j hj
              have := hmem2 l' hl' j hj
              exact hqn j this.1 (by omega)
          · rw [hflat', hperm.nodup_iff, List.nodup_cons]
            exact ⟨fun h => absurd (hlt _ h) (by omega), hnd⟩
          · intro j hj
            rw [hflat', hperm.mem_iff] at hj
            rcases List.mem_cons.1 hj with rfl | hj
            · omega
            · have := hlt j hj; omega
          · rw [hflat', hperm.length_eq, List.length_cons, hlen, hqp]
          · intro j h1 h2
            rw [hqn j (fun h => by have := hmem j h; omega) (by omega)]
            exact hfresh j (by omega) h2
      · intro hgt
        simp only [perform, hget, herr (by omega)]

/-! ### Claims -/

/-- All requests of a history are possible. -/
def AllPossible (eps : K) : List (List (Val K)) → List (Request K) → Prop
  | _, [] => True
  | s, r :: rs => Possible s r ∧ AllPossible eps (afterRequest eps s r) rs

omit [IsStrictOrderedRing K] in
theorem holds_rewind (cap : Nat) (p : Pool K) : Holds cap (rewindList cap p) [] [] := by
  refine ⟨[], .nil, .nil, by simp, by simp, rfl, Nat.zero_le _, ?_⟩
  intro i _ h
  simp [rewindList, h, initNode]

omit [IsStrictOrderedRing K] in
theorem addVertex_length (eps : K) (l : List (Val K)) (v : Val K) : l.length ≤ (addVertex eps l v).length := by
  unfold addVertex
  split <;> simp

omit [IsStrictOrderedRing K] in
theorem nodesUsed_mono (eps : K) (s : List (List (Val K))) (r : Request K) : nodesUsed s ≤ nodesUsed (afterRequest eps s r) := by
  cases r with
  | newList => simp [afterRequest, nodesUsed]
  | vertex k v =>
    simp only [afterRequest]
    induction s generalizing k with
    | nil => simp
    | cons l s ih =>
      cases k with
      | zero =>
        have := addVertex_length eps l v
        simp only [List.modify_zero_cons, nodesUsed, List.map_cons, List.sum_cons]
        omega
      | succ k =>
        have := ih k
        simp only [List.modify_succ_cons, nodesUsed, List.map_cons, List.sum_cons] at *
        omega

omit [IsStrictOrderedRing K] in
/-- C41. Any history of requests after a rewind, whatever the pool held before: as long as the lists need no more than
`cap` nodes the program succeeds, and the linked lists hold exactly the lists of the abstract machine (in which vertices
are appended in order and coinciding ones left out), the lists share no node, and the first nodes of all lists differ.
The program stops at the first request for which the nodes do not suffice. -/
theorem C41_history (cap : Nat) (eps : K) (p0 : Pool K) (rs : List (Request K)) (hp : AllPossible eps [] rs) :
    (nodesUsed (rs.foldl (afterRequest eps) []) ≤ cap → ∃ q hs,
      rs.foldlM (perform cap eps) (rewindList cap p0, []) = .ok (q, hs) ∧
      Holds cap q hs (rs.foldl (afterRequest eps) []) ∧ hs.Nodup) ∧
    (cap < nodesUsed (rs.foldl (afterRequest eps) []) →
      rs.foldlM (perform cap eps) (rewindList cap p0, []) = .error .full) := by
  have key : ∀ (rs : List (Request K)) (p : Pool K) (hs : List Nat) (s : List (List (Val K))), Holds cap p hs s →
      AllPossible eps s rs →
      (nodesUsed (rs.foldl (afterRequest eps) s) ≤ cap → ∃ q hs', rs.foldlM (perform cap eps) (p, hs) = .ok (q, hs') ∧
        Holds cap q hs' (rs.foldl (afterRequest eps) s)) ∧
      (cap < nodesUsed (rs.foldl (afterRequest eps) s) → rs.foldlM (perform cap eps) (p, hs) = .error .full) := by
    intro rs
    induction rs with
    | nil =>
      intro p hs s hh _
      obtain ⟨L, -, hrep, -, -, hlen, hcap, -⟩ := id hh
      have := reps_length hrep
      refine ⟨fun _ => ⟨p, hs, rfl, hh⟩, fun h => ?_⟩
      simp only [List.foldl_nil] at h
      omega
    | cons r rs ih =>
      intro p hs s hh hpos
      obtain ⟨h1, h2⟩ := perform_spec cap eps p hs s r hh hpos.1
      have hmono : ∀ (rs : List (Request K)) (s : List (List (Val K))), nodesUsed s ≤ nodesUsed (rs.foldl (afterRequest eps) s) := by
        intro rs
        induction rs with
        | nil => intro s; exact le_refl _
        | cons r rs ih => intro s; exact le_trans (nodesUsed_mono eps s r) (ih _)
      by_cases hu : nodesUsed (afterRequest eps s r) ≤ cap
      · obtain ⟨q, hs', he, hh', -⟩ := h1 hu
        simp only [List.foldl_cons, List.foldlM_cons, he, bind, Except.bind]
        exact ih q hs' _ hh' hpos.2
      · have he := h2 (by omega)
        have := hmono rs (afterRequest eps s r)
        simp only [List.foldl_cons, List.foldlM_cons, he, bind, Except.bind]
        exact ⟨fun h => by omega, fun _ => trivial⟩
  obtain ⟨k1, k2⟩ := key rs (rewindList cap p0) [] [] (holds_rewind cap p0) hp
  refine ⟨fun h => ?_, k2⟩
  obtain ⟨q, hs, he, hh⟩ := k1 h
  refine ⟨q, hs, he, hh, ?_⟩
  obtain ⟨L, hL, -, hnd, -⟩ := hh
  clear he k1 k2
  induction hL with
  | nil => simp
  | @cons a l hs L hal hL ih =>
    rw [List.flatten_cons, List.nodup_append] at hnd
    rw [List.nodup_cons]
    refine ⟨?_, ih hnd.2.1⟩
    intro ha
    have hal' : a ∈ l := List.mem_of_mem_head? hal
    have : a ∈ L.flatten := by
      clear ih hnd
      induction hL with
      | nil => simp at ha
      | @cons b l' hs L hb hL ih =>
        rw [List.flatten_cons, List.mem_append]
        rcases List.mem_cons.1 ha with rfl | ha
        · exact .inl (List.mem_of_mem_head? hb)
        · exact .inr (ih ha)
    exact hnd.2.2 a hal' a this rfl

theorem takeWhile_all {α : Type*} (f : α → Bool) (l : List α) (h : ∀ a ∈ l, f a = true) : l.takeWhile f = l := by
  induction l with
  | nil => rfl
  | cons a l ih => rw [List.takeWhile_cons, if_pos (h a (by simp)), ih fun b hb => h b (List.mem_cons_of_mem _ hb)]

omit [Field K] [LinearOrder K] [IsStrictOrderedRing K] in
/-- What it means for a program that reads the lists: following the links from the first node of list `k` ends, the
nodes hold the vertices of the list, `length` is their number, and no node belongs to two lists. -/
theorem C41_read (cap : Nat) (p : Pool K) (hs : List Nat) (s : List (List (Val K))) (h : Holds cap p hs s) :
    hs.length = s.length ∧
    (∀ (k i : Nat) (vs : List (Val K)), hs[k]? = some i → s[k]? = some vs → length cap p (some i) = .ok vs.length ∧
      ∃ l, nodesFrom p cap i = some l ∧ (vs ≠ [] → l.map (fun j => (p.node j).val) = vs)) ∧
    (∀ (k k' i i' : Nat) (l l' : List Nat), k ≠ k' → hs[k]? = some i → hs[k']? = some i' → nodesFrom p cap i = some l →
      nodesFrom p cap i' = some l' → ∀ j ∈ l, j ∉ l') := by
  obtain ⟨L, hL, hrep, hnd, hlt, hlen, hcap, hfresh⟩ := h
  have hlenL : ∀ l ∈ L, l.length ≤ cap := by
    intro l hl
    have : l.Sublist L.flatten := List.sublist_flatten_of_mem hl
    have := this.length_le
    omega
  have walk : ∀ (k i : Nat), hs[k]? = some i → ∃ t, L[k]? = some (i :: t) ∧ nodesFrom p cap i = some (i :: t) := by
    intro k i hk
    have hkl : k < L.length := by
      rw [← hL.length_eq]; exact (List.getElem?_eq_some_iff.1 hk).1
    have hkl' : k < hs.length := by rw [hL.length_eq]; exact hkl
    have e1 : hs[k] = i := (List.getElem?_eq_some_iff.1 hk).2
    have hhead := hL.get hkl' hkl
    simp only [List.get_eq_getElem, e1] at hhead
    have hm : L[k] ∈ L := List.getElem_mem hkl
    cases hl : L[k] with
    | nil => rw [hl] at hhead; simp at hhead
    | cons a t =>
      rw [hl] at hhead hm
      simp only [List.head?_cons, Option.some.injEq] at hhead
      subst hhead
      refine ⟨t, by rw [List.getElem?_eq_getElem hkl, hl], ?_⟩
      have hc : Chain p (a :: t) := by
        have hks : k < s.length := by rw [← hrep.length_eq]; exact hkl
        have := (hrep.get hkl hks).1
        simp only [List.get_eq_getElem, hl] at this
        exact this
      exact hc.nodesFrom (hlenL _ hm)
  refine ⟨by rw [hL.length_eq, hrep.length_eq], ?_, ?_⟩
  · intro k i vs hk hs'
    obtain ⟨t, hLk, hw⟩ := walk k i hk
    have hkl : k < L.length := (List.getElem?_eq_some_iff.1 hLk).1
    have hks : k < s.length := (List.getElem?_eq_some_iff.1 hs').1
    have hr := hrep.get hkl hks
    simp only [List.get_eq_getElem, (List.getElem?_eq_some_iff.1 hLk).2, (List.getElem?_eq_some_iff.1 hs').2] at hr
    refine ⟨?_, i :: t, hw, ?_⟩
    · simp only [length, hw]
      rcases hr.2 with ⟨rfl, i', e, hi⟩ | ⟨hne, hm, hi⟩
      · obtain ⟨rfl, rfl⟩ := List.cons.inj e
        simp [hi]
      · rw [takeWhile_all _ _ hi, ← hm, List.length_map]
    · intro hne
      rcases hr.2 with ⟨h, -⟩ | ⟨-, hm, -⟩
      · exact absurd h hne
      · exact hm
  · intro k k' i i' l l' hkk hk hk' hl hl' j hj hj'
    obtain ⟨t, hLk, hw⟩ := walk k i hk
    obtain ⟨t', hLk', hw'⟩ := walk k' i' hk'
    rw [hw] at hl
    rw [hw'] at hl'
    simp only [Option.some.injEq] at hl hl'
    subst hl hl'
    unfold List.Nodup at hnd
    rw [List.pairwise_flatten] at hnd
    have hpw := List.pairwise_iff_getElem.1 hnd.2
    obtain ⟨b1, e1⟩ := List.getElem?_eq_some_iff.1 hLk
    obtain ⟨b2, e2⟩ := List.getElem?_eq_some_iff.1 hLk'
    rcases Nat.lt_or_gt_of_ne hkk with h | h
    · have := hpw k k' b1 b2 h
      rw [e1, e2] at this
      exact this j hj j hj' rfl
    · have := hpw k' k b2 b1 h
      rw [e1, e2] at this
      exact this j hj' j hj rfl

omit [IsStrictOrderedRing K] in
/-- C41. The list made of the vertices of a polygon: they are in their order, no two of them coincide, and each vertex of
the polygon is in the list or coincides with one there. -/
theorem C41_polygon (eps : K) (vs : List (Val K)) :
    (vs.foldl (addVertex eps) []).Sublist vs ∧
    (vs.foldl (addVertex eps) []).Pairwise (fun a b => ¬Coincide eps a b) ∧
    ∀ v ∈ vs, v ∈ vs.foldl (addVertex eps) [] ∨ ∃ w ∈ vs.foldl (addVertex eps) [], Coincide eps w v := by
  have key : ∀ (vs pre l : List (Val K)), l.Sublist pre → l.Pairwise (fun a b => ¬Coincide eps a b) →
      (vs.foldl (addVertex eps) l).Sublist (pre ++ vs) ∧
      (vs.foldl (addVertex eps) l).Pairwise (fun a b => ¬Coincide eps a b) ∧
      (∀ v ∈ vs, v ∈ vs.foldl (addVertex eps) l ∨ ∃ w ∈ vs.foldl (addVertex eps) l, Coincide eps w v) ∧
      l.Sublist (vs.foldl (addVertex eps) l) := by
    intro vs
    induction vs with
    | nil => intro pre l h1 h2; simp [h1, h2]
    | cons v vs ih =>
      intro pre l h1 h2
      have hstep : (addVertex eps l v).Sublist (pre ++ [v]) ∧ (addVertex eps l v).Pairwise (fun a b => ¬Coincide eps a b) ∧
          (v ∈ addVertex eps l v ∨ ∃ w ∈ addVertex eps l v, Coincide eps w v) ∧ l.Sublist (addVertex eps l v) := by
        unfold addVertex
        split
        · rename_i h
          exact ⟨h1.trans (List.sublist_append_left _ _), h2, .inr h, List.Sublist.refl _⟩
        · rename_i h
          refine ⟨h1.append (List.Sublist.refl _), ?_, .inl (by simp), List.sublist_append_left _ _⟩
          rw [List.pairwise_append]
          refine ⟨h2, by simp, ?_⟩
          intro a ha b hb hab
          simp only [List.mem_singleton] at hb
          subst hb
          exact h ⟨a, ha, hab⟩
      obtain ⟨s1, s2, s3, s4⟩ := hstep
      obtain ⟨i1, i2, i3, i4⟩ := ih (pre ++ [v]) (addVertex eps l v) s1 s2
      simp only [List.foldl_cons]
      refine ⟨by simpa using i1, i2, ?_, s4.trans i4⟩
      intro w hw
      rcases List.mem_cons.1 hw with rfl | hw
      · rcases s3 with h | ⟨u, hu, h⟩
        · exact .inl (i4.subset h)
        · exact .inr ⟨u, i4.subset hu, h⟩
      · exact i3 w hw
  obtain ⟨h1, h2, h3, -⟩ := key vs [] [] (List.Sublist.refl _) .nil
  exact ⟨by simpa using h1, h2, h3⟩

/-! ### Lists of intersections -/

/-- The place of an intersection on a polygon: parameter and index of the edge; the end of an edge is the begin of the
next. -/
def place (u : K) (e : Int × Int) : K × Int := if u = 1 then (0, e.2) else (u, e.1)

omit [IsStrictOrderedRing K] in
/-- C41. The list of intersections: a point is added exactly if no point of the list has the same place on the first
polygon or the same place on the second, and then at the end; the points before keep their contents. So no two points
of the list ever have the same place on a polygon. -/
theorem C41_intersections (cap : Nat) (p : Pool K) (i : Nat) (l : List Nat) (x y z : K) (intersect : Int) (u1 u2 : K)
    (inbound : Int) (i1 i2 : Int × Int) (hc : Chain p (i :: l)) (hinit : ∀ k ∈ i :: l, (p.node k).initialized = true)
    (hn : (i :: l).Nodup) (hlen : (i :: l).length ≤ cap) (hpos : p.pos ∉ i :: l)
    (hfresh : p.pos < cap → (p.node p.pos).next = none) :
    ((∃ k ∈ i :: l, ((p.node k).val.u, (p.node k).subjIndex) = place u1 i1 ∨
        ((p.node k).uClip, (p.node k).clipIndex) = place u2 i2) →
      addIntersect cap p (some i) x y z intersect u1 u2 inbound i1 i2 = .ok (false, p)) ∧
    ((¬∃ k ∈ i :: l, ((p.node k).val.u, (p.node k).subjIndex) = place u1 i1 ∨
        ((p.node k).uClip, (p.node k).clipIndex) = place u2 i2) → p.pos < cap →
      ∃ q, addIntersect cap p (some i) x y z intersect u1 u2 inbound i1 i2 = .ok (true, q) ∧ q.pos = p.pos + 1 ∧
        Chain q (i :: l ++ [p.pos]) ∧ (∀ k ∈ i :: l ++ [p.pos], (q.node k).initialized = true) ∧
        (∀ k ∈ i :: l, (q.node k).val = (p.node k).val ∧ (q.node k).uClip = (p.node k).uClip ∧
          (q.node k).subjIndex = (p.node k).subjIndex ∧ (q.node k).clipIndex = (p.node k).clipIndex) ∧
        ((q.node p.pos).val.u, (q.node p.pos).subjIndex) = place u1 i1 ∧
        ((q.node p.pos).uClip, (q.node p.pos).clipIndex) = place u2 i2 ∧
        (q.node p.pos).val.x = x ∧ (q.node p.pos).val.y = y ∧ (q.node p.pos).val.z = z) ∧
    ((¬∃ k ∈ i :: l, ((p.node k).val.u, (p.node k).subjIndex) = place u1 i1 ∨
        ((p.node k).uClip, (p.node k).clipIndex) = place u2 i2) → cap ≤ p.pos →
      addIntersect cap p (some i) x y z intersect u1 u2 inbound i1 i2 = .error .full) := by
  have hi := hinit i (by simp)
  obtain ⟨a1, b1, e1⟩ : ∃ a b, place u1 i1 = (a, b) := ⟨_, _, rfl⟩
  obtain ⟨a2, b2, e2⟩ : ∃ a b, place u2 i2 = (a, b) := ⟨_, _, rfl⟩
  have e1' := e1
  have e2' := e2
  unfold place at e1' e2'
  have hany : (∃ k ∈ i :: l, ((p.node k).val.u, (p.node k).subjIndex) = place u1 i1 ∨
        ((p.node k).uClip, (p.node k).clipIndex) = place u2 i2) ↔
      ((i :: l).any fun k => decide (((p.node k).val.u = a1 ∧ (p.node k).subjIndex = b1) ∨
        ((p.node k).uClip = a2 ∧ (p.node k).clipIndex = b2))) = true := by
    rw [e1, e2]
    simp only [List.any_eq_true, decide_eq_true_eq, Prod.mk.injEq]
  have hlast : (i :: l).getLast?.getD i = (i :: l).getLast (by simp) := by
    rw [List.getLast?_eq_getLast_of_ne_nil (by simp)]; rfl
  have hlm : (i :: l).getLast (by simp) ∈ i :: l := List.getLast_mem _
  have hlp : (i :: l).getLast (by simp) ≠ p.pos := fun h => hpos (h ▸ hlm)
  have hlp' : ¬(p.pos = (i :: l).getLast (by simp)) := fun h => hlp h.symm
  refine ⟨?_, ?_, ?_⟩
  · intro h
    simp only [addIntersect, e1', e2', hi, if_true, hc.nodesFrom hlen, hany.1 h]
  · intro h hcap
    have hf : ((i :: l).any fun k => decide (((p.node k).val.u = a1 ∧ (p.node k).subjIndex = b1) ∨
        ((p.node k).uClip = a2 ∧ (p.node k).clipIndex = b2))) = false := by
      rw [Bool.eq_false_iff]; intro h'; exact h (hany.2 h')
    refine ⟨(({ p with pos := p.pos + 1 } : Pool K).set ((i :: l).getLast (by simp))
      { p.node ((i :: l).getLast (by simp)) with next := some p.pos }).set p.pos
        { p.node p.pos with val := ⟨x, y, z, intersect, a1, inbound, 0⟩, uClip := a2, subjIndex := b1, clipIndex := b2,
                            initialized := true }, ?_, ?_, ?_, ?_, ?_, ?_, ?_, ?_, ?_, ?_⟩
    · simp only [addIntersect, e1', e2', hi, if_true, hc.nodesFrom hlen, hf, Bool.false_eq_true, if_false, getNext,
        if_neg (show ¬(p.pos + 1 > cap) by omega), bind, Except.bind, hlast]
      simp only [Pool.set, if_neg hlp']
    · simp [Pool.set]
    · apply hc.snoc hn
      · intro k hk hkl
        have : k ≠ p.pos := fun h => hpos (h ▸ hk)
        simp [Pool.set, this, hkl]
      · simp [Pool.set, hlp]
      · simp [Pool.set, hfresh hcap]
    · intro k hk
      rcases List.mem_append.1 hk with hk | hk
      · have h1 : k ≠ p.pos := fun h => hpos (h ▸ hk)
        have h2 := hinit k hk
        simp only [Pool.set, if_neg h1]
        split
        · rename_i h; rw [h] at h2; exact h2
        · exact h2
      · simp only [List.mem_singleton] at hk
        simp [Pool.set, hk]
    · intro k hk
      have h1 : k ≠ p.pos := fun h => hpos (h ▸ hk)
      simp only [Pool.set, if_neg h1]
      split
      · rename_i h; rw [h]; exact ⟨rfl, rfl, rfl, rfl⟩
      · exact ⟨rfl, rfl, rfl, rfl⟩
    · rw [e1]; simp [Pool.set]
    · rw [e2]; simp [Pool.set]
    · simp [Pool.set]
    · simp [Pool.set]
    · simp [Pool.set]
  · intro h hcap
    have hf : ((i :: l).any fun k => decide (((p.node k).val.u = a1 ∧ (p.node k).subjIndex = b1) ∨
        ((p.node k).uClip = a2 ∧ (p.node k).clipIndex = b2))) = false := by
      rw [Bool.eq_false_iff]; intro h'; exact h (hany.2 h')
    simp only [addIntersect, e1', e2', hi, if_true, hc.nodesFrom hlen, hf, Bool.false_eq_true, if_false, getNext,
      if_pos (show p.pos + 1 > cap by omega), bind, Except.bind]

/-! ### Example -/

def pt (x y z : ℚ) : Val ℚ := ⟨x, y, z, 0, 0, 0, -1⟩

def exRequests : List (Request ℚ) :=
  [.newList, .newList, .vertex 0 (pt 1 0 0), .vertex 1 (pt 0 0 1), .vertex 0 (pt 0 1 0), .vertex 0 (pt 1 0 0)]

/-- A case of `C41_history`: two lists, with a vertex given twice; three nodes are needed. -/
example : AllPossible (1 / 10) [] exRequests ∧
    exRequests.foldl (afterRequest (1 / 10)) [] = [[pt 1 0 0, pt 0 1 0], [pt 0 0 1]] ∧
    nodesUsed (exRequests.foldl (afterRequest (1 / 10)) []) = 3 := by
  refine ⟨⟨trivial, trivial, ?_⟩, by decide +kernel, by decide +kernel⟩
  simp only [AllPossible, Possible]
  decide +kernel

end Verif.NodePool
