import Verif.Model.CubeGrid
import Verif.Spec.Cube
import Mathlib.Tactic.Ring
import Mathlib.Tactic.IntervalCases
import Mathlib.Tactic.SplitIfs
import Mathlib.Tactic.Linarith
namespace Verif.CubeGrid

open Verif.Spec.Cube

/-! Index arithmetic -/

/-- Index of a point -/
def idx (n t j i : Nat) : Nat := t * n * n + j * n + i

theorem split_eq {n a b c d : Nat} (hb : b < n) (hd : d < n) (h : a * n + b = c * n + d) : a = c ∧ b = d := by
  have h1 : (a * n + b) / n = a := by
    rw [Nat.mul_comm, Nat.mul_add_div (by omega), Nat.div_eq_of_lt hb, Nat.add_zero]
  have h2 : (c * n + d) / n = c := by
    rw [Nat.mul_comm, Nat.mul_add_div (by omega), Nat.div_eq_of_lt hd, Nat.add_zero]
  have h3 : a = c := by rw [← h1, h, h2]
  subst h3
  exact ⟨rfl, by omega⟩

theorem idx_inj {n t j i t' j' i' : Nat} (hj : j < n) (hi : i < n) (hj' : j' < n) (hi' : i' < n)
    (h : idx n t j i = idx n t' j' i') : t = t' ∧ j = j' ∧ i = i' := by
  have h' : (t * n + j) * n + i = (t' * n + j') * n + i' := by
    unfold idx at h; rw [Nat.add_mul, Nat.add_mul]; exact h
  obtain ⟨h1, h2⟩ := split_eq hi hi' h'
  obtain ⟨h3, h4⟩ := split_eq hj hj' h1
  exact ⟨h3, h4, h2⟩

theorem idx_lt {n t j i : Nat} (ht : t < 6) (hj : j < n) (hi : i < n) : idx n t j i < 6 * n * n := by
  unfold idx
  have h1 : (t * n + j) * n + i < (t * n + j + 1) * n := by rw [Nat.add_mul (t * n + j) 1]; omega
  have h2 : t * n + j + 1 ≤ 6 * n := by
    have : t * n + n ≤ 6 * n := by
      have := Nat.mul_le_mul_right n (show t + 1 ≤ 6 by omega)
      rw [Nat.add_mul] at this; omega
    omega
  have h3 := Nat.mul_le_mul_right n h2
  rw [Nat.add_mul (t * n) j n] at h1
  omega

/-! Copies between points -/

/-- A point of the six tiles -/
structure Pt where
  t : Nat
  j : Nat
  i : Nat
deriving DecidableEq

/-- Its index -/
def Pt.ix (n : Nat) (p : Pt) : Nat := idx n p.t p.j p.i

/-- On a tile with `n` points -/
def Pt.ok (n : Nat) (p : Pt) : Prop := p.j < n ∧ p.i < n

/-- Assignment between points -/
def assignP {P : Type} (a : Pt → P) (c : Pt × Pt) : Pt → P := fun k => if k = c.1 then a c.2 else a k

theorem foldl_points {P : Type} (n : Nat) (L : List (Pt × Pt)) (hL : ∀ c ∈ L, c.1.ok n ∧ c.2.ok n) (a : Nat → P)
    (p : Pt) (hp : p.ok n) :
    ((L.map fun c => Copy.mk (c.1.ix n) (c.2.ix n)).foldl assign a) (p.ix n)
      = (L.foldl assignP (fun q => a (q.ix n))) p := by
  induction L generalizing a with
  | nil => rfl
  | cons c L ih =>
    have hc := hL c (by simp)
    rw [List.map_cons, List.foldl_cons, List.foldl_cons, ih (fun d hd => hL d (by simp [hd]))]
    -- the arrays agree at valid points
    have key : ∀ (L : List (Pt × Pt)), (∀ c ∈ L, c.1.ok n ∧ c.2.ok n) → ∀ (f g : Pt → P), (∀ q : Pt, q.ok n → f q = g q) →
        ∀ q : Pt, q.ok n → (L.foldl assignP f) q = (L.foldl assignP g) q := by
      intro L
      induction L with
      | nil => intro _ f g h q hq; exact h q hq
      | cons d L ih2 =>
        intro hL f g h q hq
        rw [List.foldl_cons, List.foldl_cons]
        apply ih2 (fun e he => hL e (by simp [he])) _ _ _ q hq
        intro r hr
        unfold assignP
        split_ifs
        · exact h _ (hL d (by simp)).2
        · exact h _ hr
    apply key L (fun d hd => hL d (by simp [hd])) _ _ _ p hp
    intro q hq
    unfold assign assignP
    by_cases h : q = c.1
    · subst h; simp
    · rw [if_neg h, if_neg]
      intro he
      apply h
      obtain ⟨h1, h2, h3⟩ := idx_inj hq.1 hq.2 hc.1.1 hc.1.2 he
      cases q; cases hcc : c.1
      simp_all

theorem foldl_mem {P : Type} (L : List (Pt × Pt)) (a : Pt → P) (h1 : ∀ c ∈ L, ∀ d ∈ L, c.1 ≠ d.2)
    (h2 : ∀ c ∈ L, ∀ d ∈ L, c.1 = d.1 → c.2 = d.2) (c : Pt × Pt) (hc : c ∈ L) : (L.foldl assignP a) c.1 = a c.2 := by
  induction L generalizing a with
  | nil => simp at hc
  | cons d L ih =>
    rw [List.foldl_cons]
    by_cases hm : c ∈ L
    · rw [ih (assignP a d) (fun x hx y hy => h1 x (by simp [hx]) y (by simp [hy]))
        (fun x hx y hy => h2 x (by simp [hx]) y (by simp [hy])) hm]
      unfold assignP
      rw [if_neg (fun h => h1 d (by simp) c (by simp [hm]) h.symm)]
    · have hcd : c = d := by
        rcases List.mem_cons.1 hc with h | h
        · exact h
        · exact absurd h hm
      subst hcd
      clear ih
      have : ∀ (L : List (Pt × Pt)), (∀ x ∈ L, ∀ y ∈ L, x.1 ≠ y.2) → (∀ x ∈ L, x.1 = c.1 → x.2 = c.2) →
          (∀ x ∈ L, x.1 ≠ c.2) → ∀ b : Pt → P, b c.1 = b c.2 → b c.2 = a c.2 → (L.foldl assignP b) c.1 = a c.2 := by
        intro L
        induction L with
        | nil => intro _ _ _ b hb hb2; rw [List.foldl_nil, hb, hb2]
        | cons x L ih =>
          intro k1 k2 k3 b hb hb2
          rw [List.foldl_cons]
          have e2 : assignP b x c.2 = b c.2 := by
            unfold assignP; rw [if_neg (fun h => k3 x (by simp) h.symm)]
          apply ih (fun u hu v hv => k1 u (by simp [hu]) v (by simp [hv])) (fun u hu => k2 u (by simp [hu]))
            (fun u hu => k3 u (by simp [hu]))
          · rw [e2]
            unfold assignP
            split_ifs with h
            · rw [k2 x (by simp) h.symm]
            · exact hb
          · rw [e2, hb2]
      apply this L (fun x hx y hy => h1 x (by simp [hx]) y (by simp [hy]))
        (fun x hx h => h2 x (by simp [hx]) c (by simp) h) (fun x hx => h1 x (by simp [hx]) c (by simp))
      · unfold assignP
        rw [if_pos rfl]
        split_ifs <;> rfl
      · unfold assignP
        rw [if_neg (fun h => h1 c (by simp) c (by simp) h.symm)]

theorem foldl_not_mem {P : Type} (L : List (Pt × Pt)) (a : Pt → P) (p : Pt) (h : ∀ c ∈ L, c.1 ≠ p) :
    (L.foldl assignP a) p = a p := by
  induction L generalizing a with
  | nil => rfl
  | cons c L ih =>
    rw [List.foldl_cons, ih _ (fun d hd => h d (by simp [hd]))]
    unfold assignP
    rw [if_neg (fun e => h c (by simp) e.symm)]

/-! The five loops -/

/-- Copies of one loop between points -/
def pc1 (ni j : Nat) : List (Pt × Pt) := [(⟨1, j, 0⟩, ⟨0, j, ni⟩), (⟨2, j, 0⟩, ⟨0, ni, ni - j⟩)]
def pc2 (ni i : Nat) : List (Pt × Pt) :=
  [(⟨4, ni, i⟩, ⟨0, ni - i, 0⟩), (⟨5, ni, i⟩, ⟨0, 0, i⟩), (⟨2, 0, i⟩, ⟨1, ni, i⟩), (⟨3, 0, i⟩, ⟨1, ni - i, ni⟩)]
def pc3 (ni j : Nat) : List (Pt × Pt) :=
  [(⟨5, j, ni⟩, ⟨1, 0, ni - j⟩), (⟨3, j, 0⟩, ⟨2, j, ni⟩), (⟨4, j, 0⟩, ⟨2, ni, ni - j⟩)]
def pc4 (ni i : Nat) : List (Pt × Pt) := [(⟨4, 0, i⟩, ⟨3, ni, i⟩), (⟨5, 0, i⟩, ⟨3, ni - i, ni⟩)]
def pc5 (ni j : Nat) : List (Pt × Pt) := [(⟨5, j, 0⟩, ⟨4, j, ni⟩)]

def toCopies (n : Nat) (L : List (Pt × Pt)) : List Copy := L.map fun c => Copy.mk (c.1.ix n) (c.2.ix n)

theorem flat_copies (n m : Nat) (f : Nat → List (Pt × Pt)) (g : Nat → List Copy)
    (h : ∀ j, j < m → g j = toCopies n (f j)) :
    (List.range m).flatMap g = toCopies n ((List.range m).flatMap f) := by
  unfold toCopies
  rw [List.map_flatMap]
  have : ∀ L : List Nat, (∀ x ∈ L, x < m) → L.flatMap g
      = L.flatMap (fun j => (f j).map fun c => Copy.mk (c.1.ix n) (c.2.ix n)) := by
    intro L
    induction L with
    | nil => intro _; rfl
    | cons x L ih =>
      intro hL
      rw [List.flatMap_cons, List.flatMap_cons, ih (fun y hy => hL y (by simp [hy])), h x (hL x (by simp))]
      rfl
  exact this _ (fun x hx => List.mem_range.1 hx)

theorem copies1_eq {ni j : Nat} (hj : j < ni + 1) : copies1 ni j = toCopies (ni + 1) (pc1 ni j) := by
  simp only [copies1, toCopies, pc1, List.map_cons, List.map_nil, Pt.ix, idx]
  congr 2 <;> simp <;> omega

theorem copies2_eq {ni i : Nat} (hi : i < ni + 1) : copies2 ni i = toCopies (ni + 1) (pc2 ni i) := by
  simp [copies2, toCopies, pc2, Pt.ix, idx]

theorem copies3_eq {ni j : Nat} (hj : j < ni + 1) : copies3 ni j = toCopies (ni + 1) (pc3 ni j) := by
  simp only [copies3, toCopies, pc3, List.map_cons, List.map_nil, Pt.ix, idx]
  have e1 : (ni + 1) * (ni + 1) + ni - j = 1 * (ni + 1) * (ni + 1) + 0 * (ni + 1) + (ni - j) := by
    rw [Nat.one_mul, Nat.zero_mul]; omega
  have e2 : 2 * (ni + 1) * (ni + 1) + ni * (ni + 1) + ni - j
      = 2 * (ni + 1) * (ni + 1) + ni * (ni + 1) + (ni - j) := by omega
  rw [e1, e2]
  rfl

theorem copies4_eq {ni i : Nat} (hi : i < ni + 1) : copies4 ni i = toCopies (ni + 1) (pc4 ni i) := by
  simp [copies4, toCopies, pc4, Pt.ix, idx]

theorem copies5_eq {ni j : Nat} (hj : j < ni + 1) : copies5 ni j = toCopies (ni + 1) (pc5 ni j) := by
  simp [copies5, toCopies, pc5, Pt.ix, idx]

/-- All copies between points -/
def pcAll (ni : Nat) : List (Pt × Pt) :=
  (List.range (ni + 1)).flatMap (pc1 ni) ++ (List.range (ni + 1)).flatMap (pc2 ni)
    ++ (List.range (ni + 1)).flatMap (pc3 ni) ++ (List.range (ni + 1)).flatMap (pc4 ni)
    ++ (List.range (ni + 1)).flatMap (pc5 ni)

theorem edgeCopies_eq (ni : Nat) : edgeCopies ni = toCopies (ni + 1) (pcAll ni) := by
  unfold edgeCopies pcAll
  rw [flat_copies (ni + 1) _ (pc1 ni) _ (fun j h => copies1_eq h),
    flat_copies (ni + 1) _ (pc2 ni) _ (fun j h => copies2_eq h),
    flat_copies (ni + 1) _ (pc3 ni) _ (fun j h => copies3_eq h),
    flat_copies (ni + 1) _ (pc4 ni) _ (fun j h => copies4_eq h),
    flat_copies (ni + 1) _ (pc5 ni) _ (fun j h => copies5_eq h)]
  simp only [toCopies, List.map_append]

theorem pcAll_ok (ni : Nat) (c : Pt × Pt) (hc : c ∈ pcAll ni) :
    (c.1.ok (ni + 1) ∧ c.1.t < 6) ∧ (c.2.ok (ni + 1) ∧ c.2.t < 6) := by
  simp only [pcAll, pc1, pc2, pc3, pc4, pc5, List.mem_append, List.mem_flatMap, List.mem_range, List.mem_cons,
    List.not_mem_nil, or_false] at hc
  rcases hc with (((⟨j, hj, h | h⟩ | ⟨j, hj, h | h | h | h⟩) | ⟨j, hj, h | h | h⟩) | ⟨j, hj, h | h⟩) | ⟨j, hj, h⟩ <;>
    subst h <;> simp only [Pt.ok] <;> omega

theorem loop1 {P : Type} (ni : Nat) (a : Pt → P) (t j i : Nat) (hj : j ≤ ni) (hi : i ≤ ni) :
    (((List.range (ni + 1)).flatMap (pc1 ni)).foldl assignP a) ⟨t, j, i⟩
      = if t = 1 ∧ i = 0 then a ⟨0, j, ni⟩ else if t = 2 ∧ i = 0 then a ⟨0, ni, ni - j⟩ else a ⟨t, j, i⟩ := by
  have hm : ∀ c : Pt × Pt, c ∈ (List.range (ni + 1)).flatMap (pc1 ni) ↔
      ∃ k, k < ni + 1 ∧ (c = (⟨1, k, 0⟩, ⟨0, k, ni⟩) ∨ c = (⟨2, k, 0⟩, ⟨0, ni, ni - k⟩)) := by
    intro c; simp only [pc1, List.mem_flatMap, List.mem_range, List.mem_cons, List.not_mem_nil, or_false]
  have h1 : ∀ c ∈ (List.range (ni + 1)).flatMap (pc1 ni), ∀ d ∈ (List.range (ni + 1)).flatMap (pc1 ni), c.1 ≠ d.2 := by
    intro c hc d hd
    rw [hm] at hc hd
    obtain ⟨k, _, rfl | rfl⟩ := hc <;> obtain ⟨l, _, rfl | rfl⟩ := hd <;> simp
  have h2 : ∀ c ∈ (List.range (ni + 1)).flatMap (pc1 ni), ∀ d ∈ (List.range (ni + 1)).flatMap (pc1 ni), c.1 = d.1 →
      c.2 = d.2 := by
    intro c hc d hd
    rw [hm] at hc hd
    obtain ⟨k, _, rfl | rfl⟩ := hc <;> obtain ⟨l, _, rfl | rfl⟩ := hd <;> simp +contextual
  split_ifs with c1 c2
  · obtain ⟨rfl, rfl⟩ := c1
    exact foldl_mem _ a h1 h2 (⟨1, j, 0⟩, ⟨0, j, ni⟩) ((hm _).2 ⟨j, by omega, by simp⟩)
  · obtain ⟨rfl, rfl⟩ := c2
    exact foldl_mem _ a h1 h2 (⟨2, j, 0⟩, ⟨0, ni, ni - j⟩) ((hm _).2 ⟨j, by omega, by simp⟩)
  · apply foldl_not_mem
    intro c hc
    rw [hm] at hc
    obtain ⟨k, _, rfl | rfl⟩ := hc <;> simp only [ne_eq, Pt.mk.injEq] <;> omega

theorem loop2 {P : Type} (ni : Nat) (a : Pt → P) (t j i : Nat) (hj : j ≤ ni) (hi : i ≤ ni) :
    (((List.range (ni + 1)).flatMap (pc2 ni)).foldl assignP a) ⟨t, j, i⟩
      = if t = 4 ∧ j = ni then a ⟨0, ni - i, 0⟩ else if t = 5 ∧ j = ni then a ⟨0, 0, i⟩
        else if t = 2 ∧ j = 0 then a ⟨1, ni, i⟩ else if t = 3 ∧ j = 0 then a ⟨1, ni - i, ni⟩ else a ⟨t, j, i⟩ := by
  have hm : ∀ c : Pt × Pt, c ∈ (List.range (ni + 1)).flatMap (pc2 ni) ↔
      ∃ k, k < ni + 1 ∧ (c = (⟨4, ni, k⟩, ⟨0, ni - k, 0⟩) ∨ c = (⟨5, ni, k⟩, ⟨0, 0, k⟩) ∨ c = (⟨2, 0, k⟩, ⟨1, ni, k⟩)
        ∨ c = (⟨3, 0, k⟩, ⟨1, ni - k, ni⟩)) := by
    intro c; simp only [pc2, List.mem_flatMap, List.mem_range, List.mem_cons, List.not_mem_nil, or_false]
  have h1 : ∀ c ∈ (List.range (ni + 1)).flatMap (pc2 ni), ∀ d ∈ (List.range (ni + 1)).flatMap (pc2 ni), c.1 ≠ d.2 := by
    intro c hc d hd
    rw [hm] at hc hd
    obtain ⟨k, _, rfl | rfl | rfl | rfl⟩ := hc <;> obtain ⟨l, _, rfl | rfl | rfl | rfl⟩ := hd <;> simp
  have h2 : ∀ c ∈ (List.range (ni + 1)).flatMap (pc2 ni), ∀ d ∈ (List.range (ni + 1)).flatMap (pc2 ni), c.1 = d.1 →
      c.2 = d.2 := by
    intro c hc d hd
    rw [hm] at hc hd
    obtain ⟨k, _, rfl | rfl | rfl | rfl⟩ := hc <;> obtain ⟨l, _, rfl | rfl | rfl | rfl⟩ := hd <;> simp +contextual
  split_ifs with c1 c2 c3 c4
  · obtain ⟨rfl, rfl⟩ := c1
    exact foldl_mem _ a h1 h2 (⟨4, j, i⟩, ⟨0, j - i, 0⟩) ((hm _).2 ⟨i, by omega, by simp⟩)
  · obtain ⟨rfl, rfl⟩ := c2
    exact foldl_mem _ a h1 h2 (⟨5, j, i⟩, ⟨0, 0, i⟩) ((hm _).2 ⟨i, by omega, by simp⟩)
  · obtain ⟨rfl, rfl⟩ := c3
    exact foldl_mem _ a h1 h2 (⟨2, 0, i⟩, ⟨1, ni, i⟩) ((hm _).2 ⟨i, by omega, by simp⟩)
  · obtain ⟨rfl, rfl⟩ := c4
    exact foldl_mem _ a h1 h2 (⟨3, 0, i⟩, ⟨1, ni - i, ni⟩) ((hm _).2 ⟨i, by omega, by simp⟩)
  · apply foldl_not_mem
    intro c hc
    rw [hm] at hc
    obtain ⟨k, _, rfl | rfl | rfl | rfl⟩ := hc <;> simp only [ne_eq, Pt.mk.injEq] <;> omega

theorem loop3 {P : Type} (ni : Nat) (a : Pt → P) (t j i : Nat) (hj : j ≤ ni) (hi : i ≤ ni) :
    (((List.range (ni + 1)).flatMap (pc3 ni)).foldl assignP a) ⟨t, j, i⟩
      = if t = 5 ∧ i = ni then a ⟨1, 0, ni - j⟩ else if t = 3 ∧ i = 0 then a ⟨2, j, ni⟩
        else if t = 4 ∧ i = 0 then a ⟨2, ni, ni - j⟩ else a ⟨t, j, i⟩ := by
  have hm : ∀ c : Pt × Pt, c ∈ (List.range (ni + 1)).flatMap (pc3 ni) ↔
      ∃ k, k < ni + 1 ∧ (c = (⟨5, k, ni⟩, ⟨1, 0, ni - k⟩) ∨ c = (⟨3, k, 0⟩, ⟨2, k, ni⟩)
        ∨ c = (⟨4, k, 0⟩, ⟨2, ni, ni - k⟩)) := by
    intro c; simp only [pc3, List.mem_flatMap, List.mem_range, List.mem_cons, List.not_mem_nil, or_false]
  have h1 : ∀ c ∈ (List.range (ni + 1)).flatMap (pc3 ni), ∀ d ∈ (List.range (ni + 1)).flatMap (pc3 ni), c.1 ≠ d.2 := by
    intro c hc d hd
    rw [hm] at hc hd
    obtain ⟨k, _, rfl | rfl | rfl⟩ := hc <;> obtain ⟨l, _, rfl | rfl | rfl⟩ := hd <;> simp
  have h2 : ∀ c ∈ (List.range (ni + 1)).flatMap (pc3 ni), ∀ d ∈ (List.range (ni + 1)).flatMap (pc3 ni), c.1 = d.1 →
      c.2 = d.2 := by
    intro c hc d hd
    rw [hm] at hc hd
    obtain ⟨k, _, rfl | rfl | rfl⟩ := hc <;> obtain ⟨l, _, rfl | rfl | rfl⟩ := hd <;> simp +contextual
  split_ifs with c1 c2 c3
  · obtain ⟨rfl, rfl⟩ := c1
    exact foldl_mem _ a h1 h2 (⟨5, j, i⟩, ⟨1, 0, i - j⟩) ((hm _).2 ⟨j, by omega, by simp⟩)
  · obtain ⟨rfl, rfl⟩ := c2
    exact foldl_mem _ a h1 h2 (⟨3, j, 0⟩, ⟨2, j, ni⟩) ((hm _).2 ⟨j, by omega, by simp⟩)
  · obtain ⟨rfl, rfl⟩ := c3
    exact foldl_mem _ a h1 h2 (⟨4, j, 0⟩, ⟨2, ni, ni - j⟩) ((hm _).2 ⟨j, by omega, by simp⟩)
  · apply foldl_not_mem
    intro c hc
    rw [hm] at hc
    obtain ⟨k, _, rfl | rfl | rfl⟩ := hc <;> simp only [ne_eq, Pt.mk.injEq] <;> omega

theorem loop4 {P : Type} (ni : Nat) (a : Pt → P) (t j i : Nat) (hj : j ≤ ni) (hi : i ≤ ni) :
    (((List.range (ni + 1)).flatMap (pc4 ni)).foldl assignP a) ⟨t, j, i⟩
      = if t = 4 ∧ j = 0 then a ⟨3, ni, i⟩ else if t = 5 ∧ j = 0 then a ⟨3, ni - i, ni⟩ else a ⟨t, j, i⟩ := by
  have hm : ∀ c : Pt × Pt, c ∈ (List.range (ni + 1)).flatMap (pc4 ni) ↔
      ∃ k, k < ni + 1 ∧ (c = (⟨4, 0, k⟩, ⟨3, ni, k⟩) ∨ c = (⟨5, 0, k⟩, ⟨3, ni - k, ni⟩)) := by
    intro c; simp only [pc4, List.mem_flatMap, List.mem_range, List.mem_cons, List.not_mem_nil, or_false]
  have h1 : ∀ c ∈ (List.range (ni + 1)).flatMap (pc4 ni), ∀ d ∈ (List.range (ni + 1)).flatMap (pc4 ni), c.1 ≠ d.2 := by
    intro c hc d hd
    rw [hm] at hc hd
    obtain ⟨k, _, rfl | rfl⟩ := hc <;> obtain ⟨l, _, rfl | rfl⟩ := hd <;> simp
  have h2 : ∀ c ∈ (List.range (ni + 1)).flatMap (pc4 ni), ∀ d ∈ (List.range (ni + 1)).flatMap (pc4 ni), c.1 = d.1 →
      c.2 = d.2 := by
    intro c hc d hd
    rw [hm] at hc hd
    obtain ⟨k, _, rfl | rfl⟩ := hc <;> obtain ⟨l, _, rfl | rfl⟩ := hd <;> simp +contextual
  split_ifs with c1 c2
  · obtain ⟨rfl, rfl⟩ := c1
    exact foldl_mem _ a h1 h2 (⟨4, 0, i⟩, ⟨3, ni, i⟩) ((hm _).2 ⟨i, by omega, by simp⟩)
  · obtain ⟨rfl, rfl⟩ := c2
    exact foldl_mem _ a h1 h2 (⟨5, 0, i⟩, ⟨3, ni - i, ni⟩) ((hm _).2 ⟨i, by omega, by simp⟩)
  · apply foldl_not_mem
    intro c hc
    rw [hm] at hc
    obtain ⟨k, _, rfl | rfl⟩ := hc <;> simp only [ne_eq, Pt.mk.injEq] <;> omega

theorem loop5 {P : Type} (ni : Nat) (a : Pt → P) (t j i : Nat) (hj : j ≤ ni) (hi : i ≤ ni) :
    (((List.range (ni + 1)).flatMap (pc5 ni)).foldl assignP a) ⟨t, j, i⟩
      = if t = 5 ∧ i = 0 then a ⟨4, j, ni⟩ else a ⟨t, j, i⟩ := by
  have hm : ∀ c : Pt × Pt, c ∈ (List.range (ni + 1)).flatMap (pc5 ni) ↔
      ∃ k, k < ni + 1 ∧ (c = (⟨5, k, 0⟩, ⟨4, k, ni⟩)) := by
    intro c; simp only [pc5, List.mem_flatMap, List.mem_range, List.mem_cons, List.not_mem_nil, or_false]
  have h1 : ∀ c ∈ (List.range (ni + 1)).flatMap (pc5 ni), ∀ d ∈ (List.range (ni + 1)).flatMap (pc5 ni), c.1 ≠ d.2 := by
    intro c hc d hd
    rw [hm] at hc hd
    obtain ⟨k, _, rfl⟩ := hc; obtain ⟨l, _, rfl⟩ := hd; simp
  have h2 : ∀ c ∈ (List.range (ni + 1)).flatMap (pc5 ni), ∀ d ∈ (List.range (ni + 1)).flatMap (pc5 ni), c.1 = d.1 →
      c.2 = d.2 := by
    intro c hc d hd
    rw [hm] at hc hd
    obtain ⟨k, _, rfl⟩ := hc; obtain ⟨l, _, rfl⟩ := hd; simp
  split_ifs with c1
  · obtain ⟨rfl, rfl⟩ := c1
    exact foldl_mem _ a h1 h2 (⟨5, j, 0⟩, ⟨4, j, ni⟩) ((hm _).2 ⟨j, by omega, by simp⟩)
  · apply foldl_not_mem
    intro c hc
    rw [hm] at hc
    obtain ⟨k, _, rfl⟩ := hc; simp only [ne_eq, Pt.mk.injEq]; omega

/-! The result of all loops -/

/-- The point with the lowest tile at a place of the cube -/
def low (ni : Nat) (q : Nat × Nat × Nat) : Pt :=
  if q.1 = ni then ⟨0, q.2.2, q.2.1⟩ else if q.2.1 = ni then ⟨1, q.2.2, ni - q.1⟩
  else if q.2.2 = ni then ⟨2, ni - q.2.1, ni - q.1⟩ else if q.1 = 0 then ⟨3, ni - q.2.1, ni - q.2.2⟩
  else if q.2.1 = 0 then ⟨4, q.1, ni - q.2.2⟩ else ⟨5, q.1, q.2.1⟩

theorem all_loops {P : Type} (ni : Nat) (hni : 0 < ni) (a : Pt → P) (t j i : Nat) (ht : t < 6) (hj : j ≤ ni)
    (hi : i ≤ ni) : ((pcAll ni).foldl assignP a) ⟨t, j, i⟩ = a (low ni (place ni t j i)) := by
  unfold pcAll
  rw [List.foldl_append, List.foldl_append, List.foldl_append, List.foldl_append]
  have h1 := loop1 ni a
  generalize ((List.range (ni + 1)).flatMap (pc1 ni)).foldl assignP a = a1 at h1 ⊢
  have h2 := loop2 ni a1
  generalize ((List.range (ni + 1)).flatMap (pc2 ni)).foldl assignP a1 = a2 at h2 ⊢
  have h3 := loop3 ni a2
  generalize ((List.range (ni + 1)).flatMap (pc3 ni)).foldl assignP a2 = a3 at h3 ⊢
  have h4 := loop4 ni a3
  generalize ((List.range (ni + 1)).flatMap (pc4 ni)).foldl assignP a3 = a4 at h4 ⊢
  rw [loop5 ni a4 t j i hj hi]
  split_ifs <;>
  (rw [h4 _ _ _ (by omega) (by omega)]; split_ifs) <;> (try omega) <;>
  (rw [h3 _ _ _ (by omega) (by omega)]; split_ifs) <;> (try omega) <;>
  (rw [h2 _ _ _ (by omega) (by omega)]; split_ifs) <;> (try omega) <;>
  (rw [h1 _ _ _ (by omega) (by omega)]; split_ifs) <;> (try omega) <;>
  (congr 1; interval_cases t) <;> (try omega) <;> (simp only [low, place]; split_ifs) <;> (try omega) <;>
  simp only [Pt.mk.injEq, true_and, and_true] <;> first | omega | exact (‹False ∧ (0 : Nat) = 0›).1.elim

theorem consistent_eq {P : Type} (ni : Nat) (hni : 0 < ni) (a : Nat → P) (t j i : Nat) (ht : t < 6) (hj : j ≤ ni)
    (hi : i ≤ ni) :
    consistent ni a (idx (ni + 1) t j i) = a ((low ni (place ni t j i)).ix (ni + 1)) := by
  unfold consistent
  rw [edgeCopies_eq]
  rw [show idx (ni + 1) t j i = (Pt.mk t j i).ix (ni + 1) from rfl, toCopies,
    foldl_points (ni + 1) (pcAll ni) (fun c hc => ⟨(pcAll_ok ni c hc).1.1, (pcAll_ok ni c hc).2.1⟩) a ⟨t, j, i⟩
      ⟨by show j < ni + 1; omega, by show i < ni + 1; omega⟩, all_loops ni hni _ t j i ht hj hi]

/-! Supergrid -/

theorem super_eq {P : Type} (mid2 : P → P → P) (mid4 : P → P → P → P → P) (ni : Nat) (c : Nat → P) (t j i : Nat) :
    super mid2 mid4 ni c t j i =
      if j % 2 = 0 then
        (if i % 2 = 0 then c (idx (ni + 1) t (j / 2) (i / 2))
          else mid2 (c (idx (ni + 1) t (j / 2) (i / 2))) (c (idx (ni + 1) t (j / 2) (i / 2 + 1))))
      else
        (if i % 2 = 0 then mid2 (c (idx (ni + 1) t (j / 2) (i / 2))) (c (idx (ni + 1) t (j / 2 + 1) (i / 2)))
          else mid4 (c (idx (ni + 1) t (j / 2) (i / 2))) (c (idx (ni + 1) t (j / 2) (i / 2 + 1)))
            (c (idx (ni + 1) t (j / 2 + 1) (i / 2 + 1))) (c (idx (ni + 1) t (j / 2 + 1) (i / 2)))) := by
  unfold super superPoint idx
  simp only [Nat.add_assoc]

/-- Value of the supergrid at a place of the cube which is not inside a cell -/
def onPlace {P : Type} (mid2 : P → P → P) (f : Nat × Nat × Nat → P) (q : Nat × Nat × Nat) : P :=
  if q.1 % 2 = 1 then mid2 (f (q.1 / 2, q.2.1 / 2, q.2.2 / 2)) (f (q.1 / 2 + 1, q.2.1 / 2, q.2.2 / 2))
  else if q.2.1 % 2 = 1 then mid2 (f (q.1 / 2, q.2.1 / 2, q.2.2 / 2)) (f (q.1 / 2, q.2.1 / 2 + 1, q.2.2 / 2))
  else if q.2.2 % 2 = 1 then mid2 (f (q.1 / 2, q.2.1 / 2, q.2.2 / 2)) (f (q.1 / 2, q.2.1 / 2, q.2.2 / 2 + 1))
  else f (q.1 / 2, q.2.1 / 2, q.2.2 / 2)

theorem super_onPlace {P : Type} (mid2 : P → P → P) (mid4 : P → P → P → P → P) (hc : ∀ x y, mid2 x y = mid2 y x)
    (ni : Nat) (c : Nat → P) (f : Nat × Nat × Nat → P)
    (hf : ∀ t j i, t < 6 → j ≤ ni → i ≤ ni → c (idx (ni + 1) t j i) = f (place ni t j i))
    (t j i : Nat) (ht : t < 6) (hj : j ≤ 2 * ni) (hi : i ≤ 2 * ni) (h : j % 2 = 0 ∨ i % 2 = 0) :
    super mid2 mid4 ni c t j i = onPlace mid2 f (place (2 * ni) t j i) := by
  rw [super_eq]
  split_ifs with h1 h2 h2
  · rw [hf t _ _ ht (by omega) (by omega)]
    interval_cases t <;> simp only [place, onPlace] <;> rw [if_neg (by omega), if_neg (by omega), if_neg (by omega)] <;>
      congr 2 <;> (try omega) <;> congr 1 <;> omega
  · rw [hf t _ _ ht (by omega) (by omega), hf t _ _ ht (by omega) (by omega)]
    interval_cases t
    · simp only [place, onPlace]
      rw [if_neg (by omega), if_pos (by omega)]
      congr 3 <;> omega
    · simp only [place, onPlace]
      rw [if_pos (by omega), hc]
      congr 2 <;> congr 1 <;> (try omega) <;> congr 1 <;> omega
    · simp only [place, onPlace]
      rw [if_pos (by omega), hc]
      congr 2 <;> congr 1 <;> (try omega) <;> congr 1 <;> omega
    · simp only [place, onPlace]
      rw [if_neg (by omega), if_neg (by omega), if_pos (by omega), hc]
      congr 2 <;> congr 1 <;> (try omega) <;> congr 1 <;> omega
    · simp only [place, onPlace]
      rw [if_neg (by omega), if_neg (by omega), if_pos (by omega), hc]
      congr 2 <;> congr 1 <;> (try omega) <;> congr 1 <;> omega
    · simp only [place, onPlace]
      rw [if_neg (by omega), if_pos (by omega)]
  · rw [hf t _ _ ht (by omega) (by omega), hf t _ _ ht (by omega) (by omega)]
    interval_cases t
    · simp only [place, onPlace]
      rw [if_neg (by omega), if_neg (by omega), if_pos (by omega)]
      congr 2 <;> congr 1 <;> (try omega) <;> congr 1 <;> omega
    · simp only [place, onPlace]
      rw [if_neg (by omega), if_neg (by omega), if_pos (by omega)]
      congr 2 <;> congr 1 <;> (try omega) <;> congr 1 <;> omega
    · simp only [place, onPlace]
      rw [if_neg (by omega), if_pos (by omega), hc]
      congr 2 <;> congr 1 <;> (try omega) <;> congr 1 <;> omega
    · simp only [place, onPlace]
      rw [if_neg (by omega), if_pos (by omega), hc]
      congr 2 <;> congr 1 <;> (try omega) <;> congr 1 <;> omega
    · simp only [place, onPlace]
      rw [if_pos (by omega)]
      congr 2 <;> congr 1 <;> (try omega) <;> congr 1 <;> omega
    · simp only [place, onPlace]
      rw [if_pos (by omega)]
  · omega

theorem place_odd {ni t j i t' j' i' : Nat} (ht : t < 6) (hj : j ≤ 2 * ni) (hi : i ≤ 2 * ni) (ht' : t' < 6)
    (hj' : j' ≤ 2 * ni) (hi' : i' ≤ 2 * ni) (h : place (2 * ni) t j i = place (2 * ni) t' j' i')
    (ho : j % 2 = 1 ∧ i % 2 = 1) : t = t' ∧ j = j' ∧ i = i' := by
  interval_cases t <;> interval_cases t' <;> simp only [place, Prod.mk.injEq] at h <;> omega

theorem super_same {P : Type} (mid2 : P → P → P) (mid4 : P → P → P → P → P) (hc : ∀ x y, mid2 x y = mid2 y x)
    (ni : Nat) (c : Nat → P) (f : Nat × Nat × Nat → P)
    (hf : ∀ t j i, t < 6 → j ≤ ni → i ≤ ni → c (idx (ni + 1) t j i) = f (place ni t j i))
    (t j i t' j' i' : Nat) (ht : t < 6) (hj : j ≤ 2 * ni) (hi : i ≤ 2 * ni) (ht' : t' < 6)
    (hj' : j' ≤ 2 * ni) (hi' : i' ≤ 2 * ni) (h : place (2 * ni) t j i = place (2 * ni) t' j' i') :
    super mid2 mid4 ni c t j i = super mid2 mid4 ni c t' j' i' := by
  by_cases ho : j % 2 = 1 ∧ i % 2 = 1
  · obtain ⟨rfl, rfl, rfl⟩ := place_odd ht hj hi ht' hj' hi' h ho
    rfl
  · by_cases ho' : j' % 2 = 1 ∧ i' % 2 = 1
    · obtain ⟨rfl, rfl, rfl⟩ := place_odd ht' hj' hi' ht hj hi h.symm ho'
      rfl
    · rw [super_onPlace mid2 mid4 hc ni c f hf t j i ht hj hi (by omega),
        super_onPlace mid2 mid4 hc ni c f hf t' j' i' ht' hj' hi' (by omega), h]

theorem midEdge_comm (eps10 : ℝ) (p q : LonLat) : midEdge eps10 p q = midEdge eps10 q p := by
  unfold midEdge
  rw [add_comm (xyz p 0), add_comm (xyz p 1), add_comm (xyz p 2)]

end Verif.CubeGrid
