import Verif.Spec.Contact
import Mathlib.Tactic.NormNum
import Mathlib.Algebra.Order.Ring.Rat
import Mathlib.Tactic.Linarith
import Mathlib.Tactic.Tauto
/-
C37: reported tile contacts are genuine.
-/
namespace Verif.Contact
open Verif.Spec
variable {K : Type*} [Field K] [LinearOrder K] [IsStrictOrderedRing K]

theorem coincide_iff (px py : K) (p q : K × K) : coincide px py p q = true ↔ SamePlace px py p q := by
  simp [coincide, SamePlace, epsln, min_lt_iff]

theorem SamePlace_symm {px py : K} {p q : K × K} : SamePlace px py p q ↔ SamePlace px py q p := by
  unfold SamePlace
  rw [abs_sub_comm p.1 q.1, abs_sub_comm p.2 q.2]

/-! ### Loops -/

theorem firstHit_none {m : Nat → Nat → Bool} {l1 l2 : List Nat} (h : firstHit m l1 l2 = none) :
    ∀ i ∈ l1, ∀ j ∈ l2, m i j = false := by
  unfold firstHit at h
  rw [List.findSome?_eq_none_iff] at h
  intro i hi j hj
  have := h i hi
  rw [List.findSome?_eq_none_iff] at this
  simpa using this j hj

theorem firstHit_some {m : Nat → Nat → Bool} {l1 l2 : List Nat} {a c : Nat} (h : firstHit m l1 l2 = some (a, c)) :
    ∃ u v, l1 = u ++ a :: v ∧ c ∈ l2 ∧ m a c = true ∧ ∀ i ∈ u, ∀ j ∈ l2, m i j = false := by
  unfold firstHit at h
  rw [List.findSome?_eq_some_iff] at h
  obtain ⟨u, x, v, e, hx, hu⟩ := h
  rw [List.findSome?_eq_some_iff] at hx
  obtain ⟨u', y, v', e', hy, -⟩ := hx
  split at hy
  · rename_i hm
    simp only [Option.some.injEq, Prod.mk.injEq] at hy
    obtain ⟨rfl, rfl⟩ := hy
    refine ⟨u, v, e, by rw [e']; simp, hm, ?_⟩
    intro i hi j hj
    have := hu i hi
    rw [List.findSome?_eq_none_iff] at this
    simpa using this j hj
  · exact absurd hy (by simp)

theorem range_split {n a : Nat} {u v : List Nat} (h : List.range n = u ++ a :: v) : ∀ i < a, i ∈ u := by
  have hs : (u ++ a :: v).Pairwise (· < ·) := h ▸ List.pairwise_lt_range
  intro i hi
  have ha : a < n := by
    have : a ∈ List.range n := by rw [h]; simp
    simpa using this
  have : i ∈ u ++ a :: v := by rw [← h]; simp; omega
  rcases List.mem_append.1 this with h1 | h1
  · exact h1
  · rcases List.mem_cons.1 h1 with h2 | h2
    · omega
    · have := (List.pairwise_cons.1 (List.pairwise_append.1 hs).2.1).1 i h2
      omega

theorem range_reverse_split {n a : Nat} {u v : List Nat} (h : (List.range n).reverse = u ++ a :: v) :
    ∀ i, a < i → i < n → i ∈ u := by
  have hs : (u ++ a :: v).Pairwise (· > ·) := h ▸ List.pairwise_reverse.2 List.pairwise_lt_range
  intro i hi hn
  have : i ∈ u ++ a :: v := by rw [← h]; simp; omega
  rcases List.mem_append.1 this with h1 | h1
  · exact h1
  · rcases List.mem_cons.1 h1 with h2 | h2
    · omega
    · have := (List.pairwise_cons.1 (List.pairwise_append.1 hs).2.1).1 i h2
      omega

/-- What `get_contact_index` returns. -/
theorem contactIndex_some {n1 n2 : Nat} {m : Nat → Nat → Bool} {r : Nat × Nat × Nat × Nat}
    (h : contactIndex n1 n2 m = some r) :
    ∃ a b c d : Nat, a < b ∧ b < n1 ∧ c < n2 ∧ d < n2 ∧ c ≠ d ∧ m a c = true ∧ m b d = true ∧
      (∀ i < n1, ∀ j < n2, m i j = true → a ≤ i ∧ i ≤ b) ∧
      r = ((cellsBetween a b).1, (cellsBetween a b).2, (cellsBetween c d).1, (cellsBetween c d).2) := by
  unfold contactIndex at h
  split at h
  · exact absurd h (by simp)
  · rename_i a c hac
    split at h
    · exact absurd h (by simp)
    · rename_i b d hbd
      obtain ⟨u, v, e, hc, hm, hu⟩ := firstHit_some hac
      obtain ⟨u', v', e', hd, hm', hu'⟩ := firstHit_some hbd
      simp only at h
      split at h
      · exact absurd h (by simp)
      · rename_i hne
        have hc : c < n2 := by simpa using hc
        have hd : d < n2 := by simpa using hd
        have ha : a < n1 := by
          have : a ∈ List.range n1 := by rw [e]; simp
          simpa using this
        have hb : b < n1 := by
          have : b ∈ (List.range n1).reverse := by rw [e']; simp
          simpa using this
        have low : ∀ i < n1, ∀ j < n2, m i j = true → a ≤ i ∧ i ≤ b := by
          intro i hi j hj hij
          constructor
          · refine Classical.byContradiction fun hlt => ?_
            have := hu i (range_split e i (by omega)) j (by simpa using hj)
            rw [this] at hij; exact absurd hij (by decide)
          · refine Classical.byContradiction fun hlt => ?_
            have := hu' i (range_reverse_split e' i (by omega) hi) j (by simpa using hj)
            rw [this] at hij; exact absurd hij (by decide)
        have hab : a < b := by
          have := low b hb d hd hm'
          omega
        refine ⟨a, b, c, d, hab, hb, hc, hd, by omega, hm, hm', low, ?_⟩
        simp only [Option.some.injEq] at h
        rw [← h]
        unfold cellsBetween
        rw [if_pos hab]
        have e1 : ¬(a + 1 > b + 1) := by omega
        by_cases hcd : c < d
        · have e2 : ¬(c + 1 > d + 1) := by omega
          simp only [if_neg e1, if_neg e2, if_pos hcd]
          simp
        · have e2 : c + 1 > d + 1 := by omega
          simp only [if_neg e1, if_pos e2, if_neg hcd]
          simp

theorem contactIndex_none {n1 n2 : Nat} {m : Nat → Nat → Bool} (h : contactIndex n1 n2 m = none) :
    (∀ i < n1, ∀ j < n2, m i j = false) ∨
    ∃ a b c d : Nat, a < n1 ∧ b < n1 ∧ c < n2 ∧ d < n2 ∧ m a c = true ∧ m b d = true ∧ (a = b ∨ c = d) ∧
      (∀ i < n1, ∀ j < n2, m i j = true → a ≤ i ∧ i ≤ b) := by
  unfold contactIndex at h
  split at h
  · rename_i h1
    left
    intro i hi j hj
    exact firstHit_none h1 i (by simpa using hi) j (by simpa using hj)
  · rename_i a c hac
    split at h
    · rename_i h1
      left
      intro i hi j hj
      exact firstHit_none h1 i (by simpa using hi) j (by simpa using hj)
    · rename_i b d hbd
      obtain ⟨u, v, e, hc, hm, hu⟩ := firstHit_some hac
      obtain ⟨u', v', e', hd, hm', hu'⟩ := firstHit_some hbd
      simp only at h
      split at h
      · rename_i hne
        right
        have hc : c < n2 := by simpa using hc
        have hd : d < n2 := by simpa using hd
        have ha : a < n1 := by
          have : a ∈ List.range n1 := by rw [e]; simp
          simpa using this
        have hb : b < n1 := by
          have : b ∈ (List.range n1).reverse := by rw [e']; simp
          simpa using this
        refine ⟨a, b, c, d, ha, hb, hc, hd, hm, hm', by omega, ?_⟩
        intro i hi j hj hij
        constructor
        · refine Classical.byContradiction fun hlt => ?_
          have := hu i (range_split e i (by omega)) j (by simpa using hj)
          rw [this] at hij; exact absurd hij (by decide)
        · refine Classical.byContradiction fun hlt => ?_
          have := hu' i (range_reverse_split e' i (by omega) hi) j (by simpa using hj)
          rw [this] at hij; exact absurd hij (by decide)
      · exact absurd h (by simp)

/-! ### Sides -/

theorem sidePairs_mem {periodx periody px py : K} {b : Bool} {s1 s2 : Side} :
    (b, s1, s2, px, py) ∈ sidePairs periodx periody →  Touching periodx periody s1 s2 px py := by
  unfold sidePairs
  simp only [List.mem_cons, List.not_mem_nil, or_false, Prod.mk.injEq]
  rintro (⟨-, rfl, rfl, rfl, rfl⟩ | ⟨-, rfl, rfl, rfl, rfl⟩ | ⟨-, rfl, rfl, rfl, rfl⟩ | ⟨-, rfl, rfl, rfl, rfl⟩ |
    ⟨-, rfl, rfl, rfl, rfl⟩ | ⟨-, rfl, rfl, rfl, rfl⟩ | ⟨-, rfl, rfl, rfl, rfl⟩ | ⟨-, rfl, rfl, rfl, rfl⟩) <;>
    exact ⟨rfl, rfl⟩

theorem sidePairs_of_touching {periodx periody px py : K} {s1 s2 : Side} (h : Touching periodx periody s1 s2 px py) :
    ∃ b, (b, s1, s2, px, py) ∈ sidePairs periodx periody := by
  unfold sidePairs
  cases s1 <;> cases s2 <;> first
    | exact h.elim
    | (obtain ⟨rfl, rfl⟩ := h; first | (refine ⟨false, ?_⟩; simp; done) | (refine ⟨true, ?_⟩; simp; done))

theorem touching_symm {periodx periody px py : K} {s1 s2 : Side} (h : Touching periodx periody s1 s2 px py) :
    Touching periodx periody s2 s1 px py := by
  cases s1 <;> cases s2 <;> exact h

theorem part_onSide (t : Tile K) (s : Side) (r : Nat × Nat) : t.part s r.1 r.2 = onSide t s r := by
  cases s <;> rfl

/-- The contacts of two different tiles are those of the pairs of sides that can touch. -/
theorem mem_align {t1 t2 : Tile K} {periodx periody : K} {p : Part × Part} :
    p ∈ alignContact false t1 t2 periodx periody ↔
      ∃ s1 s2 px py, Touching periodx periody s1 s2 px py ∧ sideContact t1 t2 s1 s2 px py = some p := by
  unfold alignContact
  simp only [Bool.false_and, Bool.not_false, List.filter_eq_self.2 (fun _ _ => rfl), Bool.false_eq_true, if_false, List.append_nil,
    List.mem_filterMap]
  constructor
  · rintro ⟨⟨b, s1, s2, px, py⟩, hm, h⟩
    exact ⟨s1, s2, px, py, sidePairs_mem hm, h⟩
  · rintro ⟨s1, s2, px, py, ht, h⟩
    obtain ⟨b, hb⟩ := sidePairs_of_touching ht
    exact ⟨_, hb, h⟩

theorem sideContact_some {t1 t2 : Tile K} {s1 s2 : Side} {px py : K} {p : Part × Part}
    (h : sideContact t1 t2 s1 s2 px py = some p) :
    ∃ a b c d : Nat, a < b ∧ c ≠ d ∧ Match t1 t2 s1 s2 px py a c ∧ Match t1 t2 s1 s2 px py b d ∧
      (∀ i j, Match t1 t2 s1 s2 px py i j → a ≤ i ∧ i ≤ b) ∧
      p = (onSide t1 s1 (cellsBetween a b), onSide t2 s2 (cellsBetween c d)) := by
  unfold sideContact at h
  rw [Option.map_eq_some_iff] at h
  obtain ⟨r, hr, rfl⟩ := h
  obtain ⟨a, b, c, d, hab, hb, hc, hd, hcd, m1, m2, hall, rfl⟩ := contactIndex_some hr
  refine ⟨a, b, c, d, hab, hcd, ⟨by omega, hc, (coincide_iff ..).1 m1⟩, ⟨hb, hd, (coincide_iff ..).1 m2⟩, ?_, ?_⟩
  · rintro i j ⟨hi, hj, hm⟩
    exact hall i hi j hj ((coincide_iff ..).2 hm)
  · rw [← part_onSide, ← part_onSide]

theorem sideContact_none {t1 t2 : Tile K} {s1 s2 : Side} {px py : K}
    (h : sideContact t1 t2 s1 s2 px py = none) :
    (∀ i j, ¬Match t1 t2 s1 s2 px py i j) ∨
    ∃ a b c d : Nat, Match t1 t2 s1 s2 px py a c ∧ Match t1 t2 s1 s2 px py b d ∧ (a = b ∨ c = d) ∧
      (∀ i j, Match t1 t2 s1 s2 px py i j → a ≤ i ∧ i ≤ b) := by
  unfold sideContact at h
  rw [Option.map_eq_none_iff] at h
  rcases contactIndex_none h with h | ⟨a, b, c, d, ha, hb, hc, hd, m1, m2, he, hall⟩
  · left
    rintro i j ⟨hi, hj, hm⟩
    have := (coincide_iff ..).2 hm
    rw [h i hi j hj] at this
    exact absurd this (by decide)
  · right
    refine ⟨a, b, c, d, ⟨ha, hc, (coincide_iff ..).1 m1⟩, ⟨hb, hd, (coincide_iff ..).1 m2⟩, he, ?_⟩
    rintro i j ⟨hi, hj, hm⟩
    exact hall i hi j hj ((coincide_iff ..).2 hm)

/-! ### Claims -/

/-- C37. A contact reported for two different tiles lies along one side of each, and these sides can touch. It begins
and ends at points `a`, `b` of the first side and `c`, `d` of the second, where `a` is at the same place as `c` and `b`
as `d`; `a` and `b` are the first and the last point of the first side that is also on the second. The numbers stored
are those of the cells on the way from `a` to `b` and from `c` to `d`. -/
theorem C37_genuine (t1 t2 : Tile K) (periodx periody : K) (p : Part × Part)
    (h : p ∈ alignContact false t1 t2 periodx periody) :
    ∃ s1 s2 px py, Touching periodx periody s1 s2 px py ∧ ∃ a b c d : Nat, a < b ∧ c ≠ d ∧
      Match t1 t2 s1 s2 px py a c ∧ Match t1 t2 s1 s2 px py b d ∧
      (∀ i j, Match t1 t2 s1 s2 px py i j → a ≤ i ∧ i ≤ b) ∧
      p = (onSide t1 s1 (cellsBetween a b), onSide t2 s2 (cellsBetween c d)) := by
  obtain ⟨s1, s2, px, py, ht, hs⟩ := mem_align.1 h
  exact ⟨s1, s2, px, py, ht, sideContact_some hs⟩

theorem onSide_inside (t : Tile K) (s : Side) (r : Nat × Nat) (hx : 2 ≤ t.nx) (hy : 2 ≤ t.ny)
    (h1 : 1 ≤ r.1 ∧ r.1 ≤ t.size s - 1) (h2 : 1 ≤ r.2 ∧ r.2 ≤ t.size s - 1) :
    let q := onSide t s r
    (1 ≤ q.is ∧ q.is ≤ t.nx - 1) ∧ (1 ≤ q.ie ∧ q.ie ≤ t.nx - 1) ∧ (1 ≤ q.js ∧ q.js ≤ t.ny - 1) ∧
      (1 ≤ q.je ∧ q.je ≤ t.ny - 1) := by
  cases s <;> simp only [onSide, Tile.size] at * <;> omega

/-- C37. The numbers of a reported contact are cells of the tiles. -/
theorem C37_inside (t1 t2 : Tile K) (periodx periody : K) (p : Part × Part)
    (h1 : 2 ≤ t1.nx ∧ 2 ≤ t1.ny) (h2 : 2 ≤ t2.nx ∧ 2 ≤ t2.ny)
    (h : p ∈ alignContact false t1 t2 periodx periody) :
    ((1 ≤ p.1.is ∧ p.1.is ≤ t1.nx - 1) ∧ (1 ≤ p.1.ie ∧ p.1.ie ≤ t1.nx - 1) ∧ (1 ≤ p.1.js ∧ p.1.js ≤ t1.ny - 1) ∧
      (1 ≤ p.1.je ∧ p.1.je ≤ t1.ny - 1)) ∧
    ((1 ≤ p.2.is ∧ p.2.is ≤ t2.nx - 1) ∧ (1 ≤ p.2.ie ∧ p.2.ie ≤ t2.nx - 1) ∧ (1 ≤ p.2.js ∧ p.2.js ≤ t2.ny - 1) ∧
      (1 ≤ p.2.je ∧ p.2.je ≤ t2.ny - 1)) := by
  obtain ⟨s1, s2, px, py, -, a, b, c, d, hab, hcd, m1, m2, -, rfl⟩ := C37_genuine t1 t2 periodx periody p h
  have b1 := m1.1
  have b2 := m1.2.1
  have b3 := m2.1
  have b4 := m2.2.1
  constructor
  · apply onSide_inside t1 s1 _ h1.1 h1.2 <;> (unfold cellsBetween; split <;> simp only [] <;> omega)
  · apply onSide_inside t2 s2 _ h2.1 h2.2 <;> (unfold cellsBetween; split <;> simp only [] <;> omega)

/-- C37. If no point of a side is at the place of two points of the other, a contact is found exactly when the sides
have two points in common. -/
theorem C37_found (t1 t2 : Tile K) (s1 s2 : Side) (px py : K) (hone : OneToOne (Match t1 t2 s1 s2 px py)) :
    (∃ p, sideContact t1 t2 s1 s2 px py = some p) ↔
      ∃ i j i' j', i ≠ i' ∧ Match t1 t2 s1 s2 px py i j ∧ Match t1 t2 s1 s2 px py i' j' := by
  constructor
  · rintro ⟨p, hp⟩
    obtain ⟨a, b, c, d, hab, -, m1, m2, -⟩ := sideContact_some hp
    exact ⟨a, c, b, d, by omega, m1, m2⟩
  · rintro ⟨i, j, i', j', hne, m1, m2⟩
    cases hs : sideContact t1 t2 s1 s2 px py with
    | some p => exact ⟨p, rfl⟩
    | none =>
      exfalso
      rcases sideContact_none hs with h | ⟨a, b, c, d, ma, mb, he, hall⟩
      · exact h i j m1
      · have : a = b := by
          rcases he with he | he
          · exact he
          · exact (hone a c b d ma mb).2 he
        have q1 := hall i j m1
        have q2 := hall i' j' m2
        omega

theorem match_symm {t1 t2 : Tile K} {s1 s2 : Side} {px py : K} {i j : Nat} :
    Match t1 t2 s1 s2 px py i j ↔ Match t2 t1 s2 s1 px py j i := by
  unfold Match
  rw [SamePlace_symm]
  tauto

theorem aligned_one {m : Nat → Nat → Prop} (h : Aligned m) : OneToOne m := by
  intro i j i' j' h1 h2
  rcases h with h | h
  · have a := h i j i' j' h1 h2
    have b := h i' j' i j h2 h1
    omega
  · have a := h i j i' j' h1 h2
    have b := h i' j' i j h2 h1
    omega

theorem aligned_symm {m : Nat → Nat → Prop} (h : Aligned m) : Aligned fun j i => m i j := by
  rcases h with h | h
  · left
    intro j i j' i' h1 h2
    exact (h i j i' j' h1 h2).symm
  · right
    intro j i j' i' h1 h2
    exact (h i' j' i j h2 h1).symm

theorem cellsBetween_swap {a b : Nat} (h : a ≠ b) :
    cellsBetween b a = ((cellsBetween a b).2, (cellsBetween a b).1) := by
  unfold cellsBetween
  by_cases hab : a < b
  · rw [if_neg (by omega), if_pos hab]
  · rw [if_pos (by omega), if_neg hab]

/-- The same contact followed in the opposite direction. -/
def reversed (q : Part) : Part := ⟨q.ie, q.is, q.je, q.js⟩

theorem onSide_reversed (t : Tile K) (s : Side) (r : Nat × Nat) : reversed (onSide t s r) = onSide t s (r.2, r.1) := by
  cases s <;> rfl

/-- C37. A contact is found from both tiles: when the common points of the sides are in the same or in the opposite
order on both, the search with the tiles exchanged gives the same contact with the tiles exchanged, followed in the
same direction or in the opposite one. -/
theorem C37_both_sides (t1 t2 : Tile K) (periodx periody : K) (p q : Part)
    (hal : ∀ s1 s2 px py, Touching periodx periody s1 s2 px py → Aligned (Match t1 t2 s1 s2 px py))
    (h : (p, q) ∈ alignContact false t1 t2 periodx periody) :
    (q, p) ∈ alignContact false t2 t1 periodx periody ∨
      (reversed q, reversed p) ∈ alignContact false t2 t1 periodx periody := by
  obtain ⟨s1, s2, px, py, ht, hs⟩ := mem_align.1 h
  obtain ⟨a, b, c, d, hab, hcd, m1, m2, hall, e⟩ := sideContact_some hs
  obtain ⟨rfl, rfl⟩ := Prod.mk.inj e
  have al := hal s1 s2 px py ht
  have al' : Aligned (Match t2 t1 s2 s1 px py) := by
    have := aligned_symm al
    have e : (fun j i => Match t1 t2 s1 s2 px py i j) = Match t2 t1 s2 s1 px py := by
      funext j i; exact propext match_symm
    rwa [e] at this
  have n1 := match_symm.1 m1
  have n2 := match_symm.1 m2
  obtain ⟨⟨p', q'⟩, hp'⟩ := (C37_found t2 t1 s2 s1 px py (aligned_one al')).2 ⟨c, a, d, b, hcd, n1, n2⟩
  have hmem : (p', q') ∈ alignContact false t2 t1 periodx periody := mem_align.2 ⟨s2, s1, px, py, touching_symm ht, hp'⟩
  obtain ⟨c', d', a', b', hcd', hab', k1, k2, hall', e'⟩ := sideContact_some hp'
  obtain ⟨rfl, rfl⟩ := Prod.mk.inj e'
  have l1 := match_symm.1 k1
  have l2 := match_symm.1 k2
  have r1 := hall a' c' l1
  have r2 := hall b' d' l2
  have r3 := hall' c a n1
  have r4 := hall' d b n2
  rcases al with al | al
  · left
    have u1 := al a c a' c' m1 l1
    have u2 := al a' c' a c l1 m1
    have u3 := al b d b' d' m2 l2
    have u4 := al b' d' b d l2 m2
    have u5 := al a c b d m1 m2
    have u6 := al a' c' b' d' l1 l2
    have e1 : a' = a := by omega
    have e2 : b' = b := by omega
    have e3 : c' = c := by omega
    have e4 : d' = d := by omega
    rw [e1, e2, e3, e4] at hmem
    exact hmem
  · right
    have u1 := al b d a' c' m2 l1
    have u2 := al a' c' b d l1 m2
    have u3 := al a c b' d' m1 l2
    have u4 := al b' d' a c l2 m1
    have u5 := al a c b d m1 m2
    have u6 := al b' d' a' c' l2 l1
    have e1 : a' = b := by omega
    have e2 : b' = a := by omega
    have e3 : c' = d := by omega
    have e4 : d' = c := by omega
    rw [e1, e2, e3, e4] at hmem
    rw [onSide_reversed, onSide_reversed, ← cellsBetween_swap hab.ne, ← cellsBetween_swap hcd]
    exact hmem

/-! ### A tile with itself -/

/-- C37. The contacts of a tile with itself: its eastern with its western side, its southern with its northern side
(both after one period), as above, and the folded northern side. -/
theorem C37_self (t : Tile K) (periodx periody : K) (p : Part × Part)
    (h : p ∈ alignContact true t t periodx periody) :
    (∃ s1 s2 px py, ((s1 = .east ∧ s2 = .west ∧ px = periodx ∧ py = 0) ∨
          (s1 = .south ∧ s2 = .north ∧ px = 0 ∧ py = periody)) ∧
        ∃ a b c d : Nat, a < b ∧ c ≠ d ∧ Match t t s1 s2 px py a c ∧ Match t t s1 s2 px py b d ∧
          (∀ i j, Match t t s1 s2 px py i j → a ≤ i ∧ i ≤ b) ∧
          p = (onSide t s1 (cellsBetween a b), onSide t s2 (cellsBetween c d))) ∨
      foldContact t = some p := by
  unfold alignContact at h
  rcases List.mem_append.1 h with h | h
  · left
    rw [List.mem_filterMap] at h
    obtain ⟨⟨b, s1, s2, px, py⟩, hm, hs⟩ := h
    refine ⟨s1, s2, px, py, ?_, sideContact_some hs⟩
    simp [sidePairs] at hm
    tauto
  · right
    simpa using h

theorem foldLoop_true (b : Nat → K × K) (nx : Nat) (l : List Nat) (num n : Nat) :
    foldLoop b nx l num = (true, n) ↔
      (∀ i ∈ l, SameLatitude (b i) (b (nx - i - 1)) ∧
        (NearMeridian (b i) (b (nx - i - 1)) ∨ OppositeMeridian (b i) (b (nx - i - 1)))) ∧
      n = num + (l.filter fun i => @decide (¬NearMeridian (b i) (b (nx - i - 1))) (Classical.dec _)).length := by
  induction l generalizing num with
  | nil => simp [foldLoop]; exact eq_comm
  | cons i rest ih =>
    unfold foldLoop
    simp only [List.forall_mem_cons]
    split
    · rename_i hy
      constructor
      · intro h; exact absurd (Prod.mk.inj h).1 (by decide)
      · rintro ⟨⟨⟨hl, -⟩, -⟩, -⟩
        exact absurd hl (not_le.2 hy)
    · rename_i hy
      have hl : SameLatitude (b i) (b (nx - i - 1)) := not_lt.1 hy
      split
      · rename_i hx
        have hm : ¬NearMeridian (b i) (b (nx - i - 1)) := by
          rintro (h | h)
          · exact absurd h (not_le.2 hx.1)
          · exact absurd h (not_le.2 hx.2)
        split
        · rename_i ho
          have ho : OppositeMeridian (b i) (b (nx - i - 1)) := ho
          rw [ih, List.filter_cons_of_pos (by simpa using hm)]
          constructor
          · rintro ⟨h1, h2⟩
            exact ⟨⟨⟨hl, .inr ho⟩, h1⟩, by simp only [List.length_cons]; omega⟩
          · rintro ⟨⟨-, h1⟩, h2⟩
            exact ⟨h1, by simp only [List.length_cons] at h2; omega⟩
        · rename_i ho
          constructor
          · intro h; exact absurd (Prod.mk.inj h).1 (by decide)
          · rintro ⟨⟨⟨-, h | h⟩, -⟩, -⟩
            · exact absurd h hm
            · exact absurd h ho
      · rename_i hx
        have hm : NearMeridian (b i) (b (nx - i - 1)) := by
          by_cases h1 : |(b i).1 - (b (nx - i - 1)).1| > epsln2
          · right
            exact not_lt.1 fun h2 => hx ⟨h1, h2⟩
          · exact .inl (not_lt.1 h1)
        rw [ih, List.filter_cons_of_neg (by simpa using hm)]
        constructor
        · rintro ⟨h1, h2⟩
          exact ⟨⟨⟨hl, .inl hm⟩, h1⟩, h2⟩
        · rintro ⟨⟨-, h1⟩, h2⟩
          exact ⟨h1, h2⟩

/-- C37. The northern side is reported as folded exactly when every point of its first half has the latitude of its
mirror image and lies on the same meridian, where at most one pair may lie on opposite meridians instead. Then the
cells from the first one to the middle are joined to the cells from the last one to the middle. -/
theorem C37_fold (t : Tile K) (p : Part × Part) :
    foldContact t = some p ↔
      ((∀ i < t.nx / 2, SameLatitude (t.bound .north i) (t.bound .north (t.nx - i - 1)) ∧
          (NearMeridian (t.bound .north i) (t.bound .north (t.nx - i - 1)) ∨
            OppositeMeridian (t.bound .north i) (t.bound .north (t.nx - i - 1)))) ∧
        (∀ i j, i < j → j < t.nx / 2 → NearMeridian (t.bound .north i) (t.bound .north (t.nx - i - 1)) ∨
          NearMeridian (t.bound .north j) (t.bound .north (t.nx - j - 1)))) ∧
      p = (onSide t .north (1, t.nx / 2), onSide t .north (t.nx - 1, t.nx / 2 + 1)) := by
  classical
  have count : ∀ (P : Nat → Prop) [DecidablePred P] (n : Nat), ((List.range n).filter fun i => decide (¬P i)).length ≤ 1 ↔
      ∀ i j, i < j → j < n → P i ∨ P j := by
    intro P _ n
    have hp : ((List.range n).filter fun i => decide (¬P i)).Pairwise (· < ·) :=
      List.Pairwise.sublist List.filter_sublist List.pairwise_lt_range
    constructor
    · intro h i j hij hj
      by_contra hc
      push Not at hc
      have hi' : i ∈ (List.range n).filter fun i => decide (¬P i) := by
        simp only [List.mem_filter, List.mem_range, decide_eq_true_eq]; exact ⟨by omega, hc.1⟩
      have hj' : j ∈ (List.range n).filter fun i => decide (¬P i) := by
        simp only [List.mem_filter, List.mem_range, decide_eq_true_eq]; exact ⟨hj, hc.2⟩
      match hl : (List.range n).filter fun i => decide (¬P i), h with
      | [], _ => rw [hl] at hi'; simp at hi'
      | [x], _ => rw [hl] at hi' hj'; simp at hi' hj'; omega
      | _ :: _ :: _, h => simp at h
    · intro h
      match hl : (List.range n).filter fun i => decide (¬P i) with
      | [] => simp
      | [x] => simp
      | x :: y :: l =>
        exfalso
        rw [hl] at hp
        have hx : x ∈ (List.range n).filter fun i => decide (¬P i) := by rw [hl]; simp
        have hy : y ∈ (List.range n).filter fun i => decide (¬P i) := by rw [hl]; simp
        simp only [List.mem_filter, List.mem_range, decide_eq_true_eq] at hx hy
        have hxy : x < y := (List.pairwise_cons.1 hp).1 y (by simp)
        rcases h x y hxy hy.1 with h | h
        · exact hx.2 h
        · exact hy.2 h
  unfold foldContact
  simp only
  cases hr : foldLoop (t.bound .north) t.nx (List.range (t.nx / 2)) 0 with
  | mk f n =>
    cases f with
    | false =>
      simp only [Bool.false_eq_true, false_and, if_false]
      constructor
      · intro h; exact absurd h (by simp)
      · rintro ⟨⟨h1, -⟩, -⟩
        have := (foldLoop_true (t.bound .north) t.nx (List.range (t.nx / 2)) 0 _).2
          ⟨fun i hi => h1 i (by simpa using hi), rfl⟩
        rw [hr] at this
        exact absurd (Prod.mk.inj this).1 (by decide)
    | true =>
      obtain ⟨h1, h2⟩ := (foldLoop_true (t.bound .north) t.nx (List.range (t.nx / 2)) 0 _).1 hr
      have h2' : n = ((List.range (t.nx / 2)).filter fun i =>
          decide (¬NearMeridian (t.bound .north i) (t.bound .north (t.nx - i - 1)))).length := by
        rw [h2, Nat.zero_add]
        congr 1
        apply List.filter_congr
        intro i _
        congr
      have c := count (fun i => NearMeridian (t.bound .north i) (t.bound .north (t.nx - i - 1))) (t.nx / 2)
      rw [← h2'] at c
      constructor
      · intro h
        split at h
        · rename_i hn
          refine ⟨⟨fun i hi => h1 i (by simpa using hi), c.1 (by omega)⟩, ?_⟩
          simp only [Option.some.injEq] at h
          rw [← h]
          rfl
        · exact absurd h (by simp)
      · rintro ⟨⟨-, h3⟩, rfl⟩
        have := c.2 h3
        rw [if_pos ⟨rfl, by omega⟩]
        rfl

/-- C37. With an even number of cells the two halves of a folded side have the same number of cells and cell `c` is
joined to its mirror image `nx - c`. -/
theorem C37_fold_halves (t : Tile K) (p : Part × Part) (h : foldContact t = some p) (hodd : t.nx % 2 = 1)
    (hn : 3 ≤ t.nx) :
    p.1.is ≤ p.1.ie ∧ p.2.ie ≤ p.2.is ∧ p.1.ie - p.1.is = p.2.is - p.2.ie ∧
      ∀ k ≤ p.1.ie - p.1.is, (p.1.is + k) + (p.2.is - k) = t.nx := by
  obtain ⟨-, rfl⟩ := (C37_fold t p).1 h
  simp only [onSide]
  refine ⟨by omega, by omega, by omega, fun k hk => by omega⟩

/-- With an odd number of cells the two ranges reported do not have the same number of cells. -/
theorem C37_fold_odd_wrong (t : Tile K) (p : Part × Part) (h : foldContact t = some p) (heven : t.nx % 2 = 0)
    (hn : 4 ≤ t.nx) : p.1.is ≤ p.1.ie ∧ p.2.ie ≤ p.2.is ∧ p.1.ie - p.1.is ≠ p.2.is - p.2.ie := by
  obtain ⟨-, rfl⟩ := (C37_fold t p).1 h
  simp only [onSide]
  omega

/-! ### Overlap -/

theorem overlapIndex_some {p : K × K} {t : Tile K} {i j : Nat} (h : overlapIndex p t = some (i, j)) :
    i < t.nx ∧ j < t.ny ∧ SamePlace 0 0 p (t.pt i j) := by
  unfold overlapIndex at h
  obtain ⟨j', hj', h⟩ := List.exists_of_findSome?_eq_some h
  obtain ⟨i', hi', h⟩ := List.exists_of_findSome?_eq_some h
  split at h
  · rename_i hm
    simp only [Option.some.injEq, Prod.mk.injEq] at h
    obtain ⟨rfl, rfl⟩ := h
    exact ⟨by simpa using hi', by simpa using hj', .inl hm.1, .inl hm.2⟩
  · exact absurd h (by simp)

theorem cornersIn_some {s t : Tile K} {a b c d : Nat × Nat} (h : cornersIn s t = some (a, b, c, d)) :
    overlapIndex (s.pt 0 0) t = some a ∧ overlapIndex (s.pt (s.nx - 1) 0) t = some b ∧
    overlapIndex (s.pt 0 (s.ny - 1)) t = some c ∧ overlapIndex (s.pt (s.nx - 1) (s.ny - 1)) t = some d := by
  unfold cornersIn at h
  simp only [Option.bind_eq_bind, Option.bind_eq_some_iff, Option.pure_def, Option.some.injEq, Prod.mk.injEq] at h
  obtain ⟨a', ha, b', hb, c', hc, d', hd, rfl, rfl, rfl, rfl⟩ := h
  exact ⟨ha, hb, hc, hd⟩

/-- C37. A reported overlap is a rectangle of each tile, with the corners at the same places; it is the whole of one of
the tiles. -/
theorem C37_overlap (t1 t2 : Tile K) (p : Part × Part) (h : overlapContact t1 t2 = some p) (h1 : 0 < t1.nx ∧ 0 < t1.ny)
    (h2 : 0 < t2.nx ∧ 0 < t2.ny) :
    ∃ r1 r2 : Rect, r1.Within t1 ∧ r2.Within t2 ∧ SameCorners t1 t2 r1 r2 ∧ (r1.Whole t1 ∨ r2.Whole t2) ∧
      p = (r1.cells, r2.cells) := by
  unfold overlapContact at h
  simp only at h
  split at h
  · exact absurd h (by simp)
  · rename_i a1 b1 c1 d1 a2 b2 c2 d2 hp
    repeat' (split at h; exact absurd h (by simp))
    simp only [Option.some.injEq] at h
    obtain ⟨ax, ay⟩ := a1
    obtain ⟨bx, by'⟩ := b1
    obtain ⟨cx, cy⟩ := c1
    obtain ⟨dx, dy⟩ := d1
    obtain ⟨ax', ay'⟩ := a2
    obtain ⟨bx', by''⟩ := b2
    obtain ⟨cx', cy'⟩ := c2
    obtain ⟨dx', dy'⟩ := d2
    simp only [ne_eq, not_not, not_or] at *
    rename_i e1 e2 e9 e4 e5 e6 e7 e10 e11 e12
    subst e1 e2 e4 e5 e6 e7 e11 e12
    refine ⟨⟨ax, bx, ay, cy⟩, ⟨ax', bx', ay', cy'⟩, ?_⟩
    rw [← h]
    split at hp
    · rename_i p1 hc
      simp only [Option.some.injEq, Prod.mk.injEq, ownCorners] at hp
      obtain ⟨rfl, ⟨rfl, rfl⟩, ⟨rfl, -⟩, ⟨-, rfl⟩, -⟩ := hp
      obtain ⟨q1, q2, q3, q4⟩ := cornersIn_some hc
      obtain ⟨u1, u2, u3⟩ := overlapIndex_some q1
      obtain ⟨v1, v2, v3⟩ := overlapIndex_some q2
      obtain ⟨w1, w2, w3⟩ := overlapIndex_some q3
      obtain ⟨x1, x2, x3⟩ := overlapIndex_some q4
      exact ⟨⟨u1, v1, u2, w2, e9.2, e9.1⟩, ⟨h2.1, by simp only; omega, h2.2, by simp only; omega, e10.2, e10.1⟩,
        ⟨SamePlace_symm.1 u3, SamePlace_symm.1 v3, SamePlace_symm.1 w3, SamePlace_symm.1 x3⟩,
        .inr ⟨rfl, rfl, rfl, rfl⟩, rfl⟩
    · rw [Option.map_eq_some_iff] at hp
      obtain ⟨p2, hc, hp⟩ := hp
      simp only [Prod.mk.injEq, ownCorners] at hp
      obtain ⟨⟨⟨rfl, rfl⟩, ⟨rfl, -⟩, ⟨-, rfl⟩, -⟩, rfl⟩ := hp
      obtain ⟨q1, q2, q3, q4⟩ := cornersIn_some hc
      obtain ⟨u1, u2, u3⟩ := overlapIndex_some q1
      obtain ⟨v1, v2, v3⟩ := overlapIndex_some q2
      obtain ⟨w1, w2, w3⟩ := overlapIndex_some q3
      obtain ⟨x1, x2, x3⟩ := overlapIndex_some q4
      exact ⟨⟨h1.1, by simp only; omega, h1.2, by simp only; omega, e9.2, e9.1⟩, ⟨u1, v1, u2, w2, e10.2, e10.1⟩,
        ⟨u3, v3, w3, x3⟩, .inl ⟨rfl, rfl, rfl, rfl⟩, rfl⟩

/-! ### Examples -/

/-- Two squares of 2 by 2 cells side by side. -/
def exA : Tile ℚ := ⟨3, 3, fun i j => (i, j)⟩
def exB : Tile ℚ := ⟨3, 3, fun i j => (i + 2, j)⟩
/-- The second square turned by a half turn: its eastern side has the direction of a western side. -/
def exC : Tile ℚ := ⟨3, 3, fun i j => (2 + j, 2 - i)⟩

example : alignContact false exA exB 0 0 = [(⟨2, 2, 1, 2⟩, ⟨1, 1, 1, 2⟩)] := by decide +kernel
example : alignContact false exB exA 0 0 = [(⟨1, 1, 1, 2⟩, ⟨2, 2, 1, 2⟩)] := by decide +kernel
/-- A contact of an eastern with a southern side in opposite directions. -/
example : alignContact false exA exC 0 0 = [(⟨2, 2, 1, 2⟩, ⟨2, 1, 1, 1⟩)] := by decide +kernel
example : alignContact false exC exA 0 0 = [(⟨1, 2, 1, 1⟩, ⟨2, 2, 2, 1⟩)] := by decide +kernel

/-- A tile with a period of 360 degrees and a folded northern side. -/
def exT : Tile ℚ := ⟨5, 3, fun i j => if j = 2 then ([(0 : ℚ), 10, 180, 370, 360].getD i 0, 80) else (90 * i, 20 * j)⟩
example : alignContact true exT exT 360 0 =
    [(⟨4, 4, 1, 2⟩, ⟨1, 1, 1, 2⟩), (⟨1, 2, 2, 2⟩, ⟨4, 3, 2, 2⟩)] := by decide +kernel

/-- A tile of 2 by 2 cells inside a tile of 4 by 4 cells. -/
def exN : Tile ℚ := ⟨5, 5, fun i j => (i - 1, j - 1)⟩
example : overlapContact exN exA = some (⟨2, 3, 2, 3⟩, ⟨1, 2, 1, 2⟩) := by decide +kernel
example : overlapContact exA exN = some (⟨1, 2, 1, 2⟩, ⟨2, 3, 2, 3⟩) := by decide +kernel

/-! ### Limits of the search -/

/-- Only the ends of a contact are compared: sides that have no other point in common are reported as a contact of
their whole length. -/
theorem C37_interior_wrong : ∃ t1 t2 : Tile ℚ, (⟨2, 2, 1, 2⟩, ⟨1, 1, 1, 2⟩) ∈ alignContact false t1 t2 0 0 ∧
    ∀ i j, Match t1 t2 .east .west 0 0 i j → (i, j) = (0, 0) ∨ (i, j) = (2, 2) := by
  refine ⟨exA, ⟨3, 3, fun i j => (if i = 0 ∧ j = 1 then 7 else i + 2, j)⟩, by decide +kernel, ?_⟩
  rintro i j ⟨hi, hj, hm⟩
  have hi : i < 3 := hi
  have hj : j < 3 := hj
  have := (coincide_iff ..).2 hm
  revert this
  match i, hi with
  | 0, _ => match j, hj with
    | 0, _ => decide +kernel
    | 1, _ => decide +kernel
    | 2, _ => decide +kernel
  | 1, _ => match j, hj with
    | 0, _ => decide +kernel
    | 1, _ => decide +kernel
    | 2, _ => decide +kernel
  | 2, _ => match j, hj with
    | 0, _ => decide +kernel
    | 1, _ => decide +kernel
    | 2, _ => decide +kernel

/-- When points coincide within a side, a contact can be found from one tile only. -/
theorem C37_both_sides_wrong : ∃ t1 t2 : Tile ℚ, alignContact false t1 t2 0 0 = [] ∧
    alignContact false t2 t1 0 0 ≠ [] :=
  ⟨⟨3, 3, fun i j => (2 * i, if i = 2 then [(0 : ℚ), 1, 0].getD j 0 else 10 + j)⟩,
   ⟨3, 2, fun i j => (4 + i, j)⟩, by decide +kernel, by decide +kernel⟩

/-- The direction of a contact of one cell is lost. -/
theorem C37_one_cell_wrong (p : Nat) : cellsBetween p (p + 1) = cellsBetween (p + 1) p := by
  unfold cellsBetween
  rw [if_pos (by omega), if_neg (by omega)]

/-- A contact is not looked for between all sides: when the tiles meet at their eastern sides, nothing is reported. -/
theorem C37_east_east_wrong : ∃ t1 t2 : Tile ℚ, (∀ k < 3, SamePlace 0 0 (t1.bound .east k) (t2.bound .east (2 - k))) ∧
    t1.size .east = 3 ∧ t2.size .east = 3 ∧ alignContact false t1 t2 0 0 = [] := by
  refine ⟨exA, ⟨3, 3, fun i j => (4 - i, 2 - j)⟩, ?_, rfl, rfl, by decide +kernel⟩
  intro k hk
  apply (coincide_iff ..).1
  match k, hk with
  | 0, _ => decide +kernel
  | 1, _ => decide +kernel
  | 2, _ => decide +kernel

/-- A tile inside another that is turned by a half turn is not rejected, and the cells reported are not those of the
overlap: here cells 2 and 3 of the large tile in both directions, for which 4 to 1 is reported. -/
theorem C37_overlap_turned_wrong : ∃ t2 : Tile ℚ, overlapContact exN t2 = some (⟨4, 1, 4, 1⟩, ⟨1, 2, 1, 2⟩) ∧
    ∀ i j, i < 3 → j < 3 → t2.pt i j = exN.pt (3 - i) (3 - j) := by
  refine ⟨⟨3, 3, fun i j => (2 - i, 2 - j)⟩, by decide +kernel, ?_⟩
  intro i j hi hj
  match i, hi with
  | 0, _ => match j, hj with
    | 0, _ => decide +kernel
    | 1, _ => decide +kernel
    | 2, _ => decide +kernel
  | 1, _ => match j, hj with
    | 0, _ => decide +kernel
    | 1, _ => decide +kernel
    | 2, _ => decide +kernel
  | 2, _ => match j, hj with
    | 0, _ => decide +kernel
    | 1, _ => decide +kernel
    | 2, _ => decide +kernel

end Verif.Contact
