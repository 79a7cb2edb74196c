import Verif.Spec.CheckMask
import Mathlib.Algebra.Order.Ring.Rat
/-
C39: the halo update of the cubed sphere.
-/
namespace Verif.CheckMask
open Verif.Spec

/-! ### Loops of copies -/

section copy
variable {I K : Type*} [DecidableEq I]

theorem copyLoop_other (l : List (I × I)) (w : I → K) (x : I) (h : ∀ p ∈ l, p.1 ≠ x) : copyLoop l w x = w x := by
  induction l generalizing w with
  | nil => rfl
  | cons p l ih =>
    have := ih (fun x => if x = p.1 then w p.2 else w x) (fun q hq => h q (List.mem_cons_of_mem _ hq))
    unfold copyLoop at this ⊢
    rw [List.foldl_cons, this, if_neg (fun e => h p (by simp) e.symm)]

/-- If nothing is copied from a place that is written, the order does not matter. -/
theorem copyLoop_get (l : List (I × I)) (w : I → K) (hsrc : ∀ p ∈ l, ∀ q ∈ l, p.1 ≠ q.2)
    (hfun : ∀ p ∈ l, ∀ q ∈ l, p.1 = q.1 → p.2 = q.2) (d s : I) (h : (d, s) ∈ l) : copyLoop l w d = w s := by
  induction l generalizing w with
  | nil => simp at h
  | cons p l ih =>
    by_cases hd : ∃ q ∈ l, q.1 = d
    · obtain ⟨q, hq, rfl⟩ := hd
      have e : q.2 = s := hfun q (List.mem_cons_of_mem _ hq) (q.1, s) h rfl
      have := ih (fun x => if x = p.1 then w p.2 else w x)
        (fun a ha b hb => hsrc a (List.mem_cons_of_mem _ ha) b (List.mem_cons_of_mem _ hb))
        (fun a ha b hb => hfun a (List.mem_cons_of_mem _ ha) b (List.mem_cons_of_mem _ hb))
        (by rw [← e]; exact hq)
      unfold copyLoop at this ⊢
      rw [List.foldl_cons, this, if_neg]
      intro he
      exact hsrc p (by simp) (q.1, s) h he.symm
    · have := copyLoop_other l (fun x => if x = p.1 then w p.2 else w x) d (fun q hq e => hd ⟨q, hq, e⟩)
      unfold copyLoop at this ⊢
      rw [List.foldl_cons, this]
      rcases List.mem_cons.1 h with h | h
      · rw [← h]; simp
      · exact absurd ⟨_, h, rfl⟩ hd

end copy

/-! ### The cube -/

/-- The cell that is copied next to cell `k` of a side. -/
def haloSource (n t : Nat) : CubeSide → Nat → CubeCell
  | .west, k => if t % 2 = 0 then ⟨(t + 6 - 2) % 6, n + 1 - k, n⟩ else ⟨(t + 6 - 1) % 6, n, k⟩
  | .east, k => if t % 2 = 0 then ⟨(t + 1) % 6, 1, k⟩ else ⟨(t + 2) % 6, n + 1 - k, 1⟩
  | .south, k => if t % 2 = 0 then ⟨(t + 6 - 1) % 6, k, n⟩ else ⟨(t + 6 - 2) % 6, n, n + 1 - k⟩
  | .north, k => if t % 2 = 0 then ⟨(t + 2) % 6, 1, n + 1 - k⟩ else ⟨(t + 1) % 6, k, 1⟩

def CubeCell.place (c : CubeCell) : Nat × Nat × Nat := (c.face, c.i, c.j)

theorem mem_cubicLoop {n t : Nat} {p : (Nat × Nat × Nat) × (Nat × Nat × Nat)} :
    p ∈ cubicLoop 6 n n t ↔ ∃ (s : CubeSide) (k : Nat), 1 ≤ k ∧ k ≤ n ∧
      p = ((t, s.haloPlace n k), CubeCell.place (haloSource n t s k)) := by
  have shift : ∀ (P : Nat → Prop), (∃ k, (∃ a, a < n ∧ a + 1 = k) ∧ P k) ↔ ∃ k, 1 ≤ k ∧ k ≤ n ∧ P k := by
    intro P
    constructor
    · rintro ⟨k, ⟨a, ha, rfl⟩, h⟩; exact ⟨a + 1, by omega, by omega, h⟩
    · rintro ⟨k, h1, h2, h⟩; exact ⟨k, ⟨k - 1, by omega, by omega⟩, h⟩
  unfold cubicLoop
  by_cases ht : t % 2 = 0
  · simp only [if_pos ht, List.mem_append, List.mem_flatMap, List.mem_map, List.mem_range, List.mem_cons,
      List.not_mem_nil, or_false, shift]
    constructor
    · rintro (⟨k, h1, h2, rfl | rfl⟩ | ⟨k, h1, h2, rfl | rfl⟩)
      · exact ⟨.west, k, h1, h2, by simp [haloSource, ht, CubeCell.place, CubeSide.haloPlace]⟩
      · exact ⟨.east, k, h1, h2, by simp [haloSource, ht, CubeCell.place, CubeSide.haloPlace]⟩
      · exact ⟨.south, k, h1, h2, by simp [haloSource, ht, CubeCell.place, CubeSide.haloPlace]⟩
      · exact ⟨.north, k, h1, h2, by simp [haloSource, ht, CubeCell.place, CubeSide.haloPlace]⟩
    · rintro ⟨s, k, h1, h2, rfl⟩
      cases s
      · exact .inl ⟨k, h1, h2, .inl (by simp [haloSource, ht, CubeCell.place, CubeSide.haloPlace])⟩
      · exact .inl ⟨k, h1, h2, .inr (by simp [haloSource, ht, CubeCell.place, CubeSide.haloPlace])⟩
      · exact .inr ⟨k, h1, h2, .inl (by simp [haloSource, ht, CubeCell.place, CubeSide.haloPlace])⟩
      · exact .inr ⟨k, h1, h2, .inr (by simp [haloSource, ht, CubeCell.place, CubeSide.haloPlace])⟩
  · simp only [if_neg ht, List.mem_append, List.mem_flatMap, List.mem_map, List.mem_range, List.mem_cons,
      List.not_mem_nil, or_false, shift]
    constructor
    · rintro (⟨k, h1, h2, rfl | rfl⟩ | ⟨k, h1, h2, rfl | rfl⟩)
      · exact ⟨.west, k, h1, h2, by simp [haloSource, ht, CubeCell.place, CubeSide.haloPlace]⟩
      · exact ⟨.east, k, h1, h2, by simp [haloSource, ht, CubeCell.place, CubeSide.haloPlace]⟩
      · exact ⟨.south, k, h1, h2, by simp [haloSource, ht, CubeCell.place, CubeSide.haloPlace]⟩
      · exact ⟨.north, k, h1, h2, by simp [haloSource, ht, CubeCell.place, CubeSide.haloPlace]⟩
    · rintro ⟨s, k, h1, h2, rfl⟩
      cases s
      · exact .inl ⟨k, h1, h2, .inl (by simp [haloSource, ht, CubeCell.place, CubeSide.haloPlace])⟩
      · exact .inl ⟨k, h1, h2, .inr (by simp [haloSource, ht, CubeCell.place, CubeSide.haloPlace])⟩
      · exact .inr ⟨k, h1, h2, .inl (by simp [haloSource, ht, CubeCell.place, CubeSide.haloPlace])⟩
      · exact .inr ⟨k, h1, h2, .inr (by simp [haloSource, ht, CubeCell.place, CubeSide.haloPlace])⟩

theorem haloSource_valid {n t k : Nat} (s : CubeSide) (h1 : 1 ≤ k) (h2 : k ≤ n) (ht : t < 6) :
    (haloSource n t s k).Valid n ∧ (haloSource n t s k).face ≠ t := by
  have : t = 0 ∨ t = 1 ∨ t = 2 ∨ t = 3 ∨ t = 4 ∨ t = 5 := by omega
  rcases this with rfl | rfl | rfl | rfl | rfl | rfl <;> cases s <;>
    simp [haloSource, CubeCell.Valid] <;> omega

theorem haloPlace_inj {n : Nat} {s s' : CubeSide} {k k' : Nat} (h : 1 ≤ k ∧ k ≤ n) (h' : 1 ≤ k' ∧ k' ≤ n)
    (e : s.haloPlace n k = s'.haloPlace n k') : s = s' ∧ k = k' := by
  cases s <;> cases s' <;> simp [CubeSide.haloPlace] at e ⊢ <;> omega

theorem haloPlace_outside {n : Nat} (s : CubeSide) (k : Nat) :
    (s.haloPlace n k).1 = 0 ∨ (s.haloPlace n k).1 = n + 1 ∨ (s.haloPlace n k).2 = 0 ∨ (s.haloPlace n k).2 = n + 1 := by
  cases s <;> simp [CubeSide.haloPlace]

variable {K : Type*} [Field K] [LinearOrder K] [IsStrictOrderedRing K]

omit [LinearOrder K] [IsStrictOrderedRing K] [Field K] in
theorem update_get (n : Nat) (data : Nat × Nat × Nat → K) (t : Nat) (ht : t < 6) (s : CubeSide) (k : Nat) (h1 : 1 ≤ k)
    (h2 : k ≤ n) : updateCubicHalo 6 n n data (t, s.haloPlace n k) = data (CubeCell.place (haloSource n t s k)) := by
  unfold updateCubicHalo
  apply copyLoop_get
  · intro p hp q hq
    obtain ⟨t1, ht1, hp⟩ := List.mem_flatMap.1 hp
    obtain ⟨t2, ht2, hq⟩ := List.mem_flatMap.1 hq
    obtain ⟨s1, k1, a1, b1, rfl⟩ := mem_cubicLoop.1 hp
    obtain ⟨s2, k2, a2, b2, rfl⟩ := mem_cubicLoop.1 hq
    have v := (haloSource_valid s2 a2 b2 (by simpa using ht2)).1
    have o := haloPlace_outside (n := n) s1 k1
    intro e
    simp only [CubeCell.place, Prod.mk.injEq] at e
    rw [e.2] at o
    obtain ⟨-, v1, v2, v3, v4⟩ := v
    simp only at o
    omega
  · intro p hp q hq e
    obtain ⟨t1, ht1, hp⟩ := List.mem_flatMap.1 hp
    obtain ⟨t2, ht2, hq⟩ := List.mem_flatMap.1 hq
    obtain ⟨s1, k1, a1, b1, rfl⟩ := mem_cubicLoop.1 hp
    obtain ⟨s2, k2, a2, b2, rfl⟩ := mem_cubicLoop.1 hq
    simp only [Prod.mk.injEq] at e
    obtain ⟨rfl, e⟩ := e
    obtain ⟨rfl, rfl⟩ := haloPlace_inj ⟨a1, b1⟩ ⟨a2, b2⟩ e
    rfl
  · exact List.mem_flatMap.2 ⟨t, by simpa using ht, mem_cubicLoop.2 ⟨s, k, h1, h2, rfl⟩⟩

theorem corner_of {n : Nat} {c : CubeCell} {p : Nat × Nat × Nat}
    (h : p = cubePoint n c.face (c.i - 1) (c.j - 1) ∨ p = cubePoint n c.face (c.i - 1) c.j ∨
      p = cubePoint n c.face c.i (c.j - 1) ∨ p = cubePoint n c.face c.i c.j) : c.Corner n p := by
  rcases h with h | h | h | h
  · exact ⟨_, _, .inl rfl, .inl rfl, h⟩
  · exact ⟨_, _, .inl rfl, .inr rfl, h⟩
  · exact ⟨_, _, .inr rfl, .inl rfl, h⟩
  · exact ⟨_, _, .inr rfl, .inr rfl, h⟩

theorem haloSource_corners {n t k : Nat} (s : CubeSide) (h1 : 1 ≤ k) (h2 : k ≤ n) (ht : t < 6) :
    (haloSource n t s k).Corner n (s.edge n t k).1 ∧ (haloSource n t s k).Corner n (s.edge n t k).2 := by
  have : t = 0 ∨ t = 1 ∨ t = 2 ∨ t = 3 ∨ t = 4 ∨ t = 5 := by omega
  constructor
  all_goals
    apply corner_of
    rcases this with rfl | rfl | rfl | rfl | rfl | rfl <;> cases s <;>
      simp [haloSource, CubeSide.edge, cubePoint] <;> omega

set_option maxHeartbeats 400000 in
theorem haloSource_unique {n t k : Nat} (s : CubeSide) (h1 : 1 ≤ k) (h2 : k ≤ n) (ht : t < 6) (c : CubeCell)
    (hv : c.Valid n) (hf : c.face ≠ t) (e1 : c.Corner n (s.edge n t k).1) (e2 : c.Corner n (s.edge n t k).2) :
    c = haloSource n t s k := by
  have hT : t = 0 ∨ t = 1 ∨ t = 2 ∨ t = 3 ∨ t = 4 ∨ t = 5 := by omega
  obtain ⟨f, i, j⟩ := c
  obtain ⟨hv0, hv1, hv2, hv3, hv4⟩ := hv
  obtain ⟨a1, b1, ha1, hb1, e1⟩ := e1
  obtain ⟨a2, b2, ha2, hb2, e2⟩ := e2
  simp only at *
  have hF : f = 0 ∨ f = 1 ∨ f = 2 ∨ f = 3 ∨ f = 4 ∨ f = 5 := by omega
  rcases hT with rfl | rfl | rfl | rfl | rfl | rfl <;> rcases hF with rfl | rfl | rfl | rfl | rfl | rfl <;>
    first
    | exact absurd rfl hf
    | (cases s <;> simp only [CubeSide.edge, cubePoint, Prod.mk.injEq] at e1 e2 <;>
        simp [haloSource] <;> omega)

theorem haloSource_back {n t k : Nat} (s : CubeSide) (h1 : 1 ≤ k) (h2 : k ≤ n) (ht : t < 6) :
    ∃ (s' : CubeSide) (k' : Nat), 1 ≤ k' ∧ k' ≤ n ∧ haloSource n t s k = s'.cell n (haloSource n t s k).face k' ∧
      haloSource n (haloSource n t s k).face s' k' = s.cell n t k := by
  have : t = 0 ∨ t = 1 ∨ t = 2 ∨ t = 3 ∨ t = 4 ∨ t = 5 := by omega
  by_cases hp : t % 2 = 0
  · cases s
    · exact ⟨.north, n + 1 - k, by omega, by omega, by
        rcases this with rfl | rfl | rfl | rfl | rfl | rfl <;> simp [haloSource, CubeSide.cell] at hp ⊢, by
        rcases this with rfl | rfl | rfl | rfl | rfl | rfl <;> simp [haloSource, CubeSide.cell] at hp ⊢ <;> omega⟩
    · exact ⟨.west, k, by omega, by omega, by
        rcases this with rfl | rfl | rfl | rfl | rfl | rfl <;> simp [haloSource, CubeSide.cell] at hp ⊢, by
        rcases this with rfl | rfl | rfl | rfl | rfl | rfl <;> simp [haloSource, CubeSide.cell] at hp ⊢⟩
    · exact ⟨.north, k, by omega, by omega, by
        rcases this with rfl | rfl | rfl | rfl | rfl | rfl <;> simp [haloSource, CubeSide.cell] at hp ⊢, by
        rcases this with rfl | rfl | rfl | rfl | rfl | rfl <;> simp [haloSource, CubeSide.cell] at hp ⊢⟩
    · exact ⟨.west, n + 1 - k, by omega, by omega, by
        rcases this with rfl | rfl | rfl | rfl | rfl | rfl <;> simp [haloSource, CubeSide.cell] at hp ⊢, by
        rcases this with rfl | rfl | rfl | rfl | rfl | rfl <;> simp [haloSource, CubeSide.cell] at hp ⊢ <;> omega⟩
  · cases s
    · exact ⟨.east, k, by omega, by omega, by
        rcases this with rfl | rfl | rfl | rfl | rfl | rfl <;> simp [haloSource, CubeSide.cell] at hp ⊢, by
        rcases this with rfl | rfl | rfl | rfl | rfl | rfl <;> simp [haloSource, CubeSide.cell] at hp ⊢⟩
    · exact ⟨.south, n + 1 - k, by omega, by omega, by
        rcases this with rfl | rfl | rfl | rfl | rfl | rfl <;> simp [haloSource, CubeSide.cell] at hp ⊢, by
        rcases this with rfl | rfl | rfl | rfl | rfl | rfl <;> simp [haloSource, CubeSide.cell] at hp ⊢ <;> omega⟩
    · exact ⟨.east, n + 1 - k, by omega, by omega, by
        rcases this with rfl | rfl | rfl | rfl | rfl | rfl <;> simp [haloSource, CubeSide.cell] at hp ⊢, by
        rcases this with rfl | rfl | rfl | rfl | rfl | rfl <;> simp [haloSource, CubeSide.cell] at hp ⊢ <;> omega⟩
    · exact ⟨.south, k, by omega, by omega, by
        rcases this with rfl | rfl | rfl | rfl | rfl | rfl <;> simp [haloSource, CubeSide.cell] at hp ⊢, by
        rcases this with rfl | rfl | rfl | rfl | rfl | rfl <;> simp [haloSource, CubeSide.cell] at hp ⊢⟩

/-! ### Claims -/

/-- C39. Whatever the size of the faces and the data, after the update the place next to cell `k` of any side of any
face holds the value of a cell of another face, and this cell has the edge of cell `k` on that side as one of its own:
it is the neighbour on the surface of the cube. -/
theorem C39_neighbour (n : Nat) (data : Nat × Nat × Nat → K) (t : Nat) (ht : t < 6) (s : CubeSide) (k : Nat)
    (h1 : 1 ≤ k) (h2 : k ≤ n) :
    ∃ c : CubeCell, c.Valid n ∧ c.face ≠ t ∧ c.Corner n (s.edge n t k).1 ∧ c.Corner n (s.edge n t k).2 ∧
      updateCubicHalo 6 n n data (t, s.haloPlace n k) = data (c.face, c.i, c.j) := by
  refine ⟨haloSource n t s k, (haloSource_valid s h1 h2 ht).1, (haloSource_valid s h1 h2 ht).2, ?_, ?_,
    update_get n data t ht s k h1 h2⟩
  · exact (haloSource_corners s h1 h2 ht).1
  · exact (haloSource_corners s h1 h2 ht).2

omit [LinearOrder K] [IsStrictOrderedRing K] [Field K] in
/-- C39. The cells of the faces keep their values, and the corners of the halo are not touched. -/
theorem C39_rest (n : Nat) (data : Nat × Nat × Nat → K) (t i j : Nat) (h : ∀ (s : CubeSide) (k : Nat), 1 ≤ k → k ≤ n →
    (i, j) ≠ s.haloPlace n k) : updateCubicHalo 6 n n data (t, i, j) = data (t, i, j) := by
  unfold updateCubicHalo
  apply copyLoop_other
  intro p hp e
  obtain ⟨t1, ht1, hp⟩ := List.mem_flatMap.1 hp
  obtain ⟨s1, k1, a1, b1, rfl⟩ := mem_cubicLoop.1 hp
  simp only [Prod.mk.injEq] at e
  exact h s1 k1 a1 b1 e.2.symm

/-- C39. The cells seen from each other: if for all data the place next to cell `k` of a side gets the value of cell
`c`, then `c` is at a side of its face and the place next to it there gets the value of cell `k`. -/
theorem C39_symmetric (n : Nat) (t : Nat) (ht : t < 6) (s : CubeSide) (k : Nat) (h1 : 1 ≤ k) (h2 : k ≤ n) (c : CubeCell)
    (hc : ∀ data : Nat × Nat × Nat → Nat × Nat × Nat,
      updateCubicHalo 6 n n data (t, s.haloPlace n k) = data (c.face, c.i, c.j)) :
    ∃ (s' : CubeSide) (k' : Nat), 1 ≤ k' ∧ k' ≤ n ∧ c = s'.cell n c.face k' ∧ ∀ data : Nat × Nat × Nat → K,
      updateCubicHalo 6 n n data (c.face, s'.haloPlace n k') =
        data ((s.cell n t k).face, (s.cell n t k).i, (s.cell n t k).j) := by
  have e := hc id
  have e' := update_get n (id : Nat × Nat × Nat → Nat × Nat × Nat) t ht s k h1 h2
  rw [e'] at e
  simp only [CubeCell.place, id, Prod.mk.injEq] at e
  have ec : c = haloSource n t s k := by
    cases c
    simp only at e
    obtain ⟨rfl, rfl, rfl⟩ := e
    rfl
  subst ec
  have hf : (haloSource n t s k).face < 6 := (haloSource_valid s h1 h2 ht).1.1
  obtain ⟨s', k', a, b, e1, e2⟩ := haloSource_back s h1 h2 ht
  refine ⟨s', k', a, b, e1, fun data => ?_⟩
  rw [update_get n data _ hf s' k' a b, e2]
  rfl

/-- A face of 2 by 2 cells: west of the first row of face 1 (tile 2) is the last column of face 0. -/
example : updateCubicHalo 6 2 2 (fun p => (100 * p.1 + 10 * p.2.1 + p.2.2 : ℚ)) (1, 0, 2) = 22 := by decide +kernel
/-- West of the first row of face 0 is the last row of face 4, from the end. -/
example : updateCubicHalo 6 2 2 (fun p => (100 * p.1 + 10 * p.2.1 + p.2.2 : ℚ)) (0, 0, 1) = 422 := by decide +kernel

/-- C39. There is only one cell on another face with this edge: the value beside a side cannot come from another. -/
theorem C39_unique (n t : Nat) (ht : t < 6) (s : CubeSide) (k : Nat) (h1 : 1 ≤ k) (h2 : k ≤ n) (c : CubeCell)
    (hv : c.Valid n) (hf : c.face ≠ t) (e1 : c.Corner n (s.edge n t k).1) (e2 : c.Corner n (s.edge n t k).2)
    (data : Nat × Nat × Nat → K) : updateCubicHalo 6 n n data (t, s.haloPlace n k) = data (c.face, c.i, c.j) := by
  rw [haloSource_unique s h1 h2 ht c hv hf e1 e2]
  exact update_get n data t ht s k h1 h2

end Verif.CheckMask
