import Verif.Lemmas.Nest
import Verif.Lemmas.CubeGrid
namespace Verif.Nest

open Verif.Vec3 Verif.CubeGrid Verif.Spec Verif.Spec.Nest Verif.Spec.Cube

/-- A point of a refined tile which lies on a line of the coarse tile; `c j i` is a coarse corner, `mid k x y` the point at
the part `k/r` between two corners. -/
def linePoint {P Q : Type} (r : Nat) (one : P → Q) (mid : Nat → P → P → Q) (c : Nat → Nat → P) (j i : Nat) : Q :=
  if j % r = 0 then (if i % r = 0 then one (c (j / r) (i / r)) else mid (i % r) (c (j / r) (i / r)) (c (j / r) (i / r + 1)))
  else mid (j % r) (c (j / r) (i / r)) (c (j / r + 1) (i / r))

/-- The same as a function of the place on the cube -/
def linePlace {P Q : Type} (r : Nat) (one : P → Q) (mid : Nat → P → P → Q) (f : Nat × Nat × Nat → P) (q : Nat × Nat × Nat) : Q :=
  if q.1 % r ≠ 0 then mid (q.1 % r) (f (q.1 / r, q.2.1 / r, q.2.2 / r)) (f (q.1 / r + 1, q.2.1 / r, q.2.2 / r))
  else if q.2.1 % r ≠ 0 then mid (q.2.1 % r) (f (q.1 / r, q.2.1 / r, q.2.2 / r)) (f (q.1 / r, q.2.1 / r + 1, q.2.2 / r))
  else if q.2.2 % r ≠ 0 then mid (q.2.2 % r) (f (q.1 / r, q.2.1 / r, q.2.2 / r)) (f (q.1 / r, q.2.1 / r, q.2.2 / r + 1))
  else one (f (q.1 / r, q.2.1 / r, q.2.2 / r))

theorem rev_div {n r x : Nat} (hr : 1 ≤ r) (h : x ≤ n * r) :
    (x % r = 0 → (n * r - x) % r = 0 ∧ (n * r - x) / r + x / r = n)
    ∧ (x % r ≠ 0 → (n * r - x) % r = r - x % r ∧ (n * r - x) / r + x / r + 1 = n) := by
  have h1 := Nat.div_add_mod x r
  have h2 := Nat.mod_lt x (show r > 0 by omega)
  set a := x / r
  set m := x % r
  have hx : x = r * a + m := h1.symm
  constructor
  · intro h0
    have ha : a ≤ n := by
      by_contra hc
      have : (n + 1) * r ≤ a * r := Nat.mul_le_mul_right r (by omega)
      rw [Nat.add_mul, Nat.mul_comm a] at this
      omega
    have e : n * r - x = (n - a) * r := by
      rw [Nat.sub_mul, hx, h0, Nat.mul_comm a]; omega
    rw [e, Nat.mul_mod_left, Nat.mul_div_cancel _ (by omega)]
    omega
  · intro h0
    have ha : a + 1 ≤ n := by
      by_contra hc
      have : n * r ≤ a * r := Nat.mul_le_mul_right r (by omega)
      rw [Nat.mul_comm a] at this
      omega
    have e : n * r - x = (r - m) + r * (n - a - 1) := by
      have : r * (n - a - 1) + r * a + r = n * r := by
        rw [← Nat.mul_add, show r * (n - a - 1 + a) + r = r * (n - a - 1 + a + 1) by rw [Nat.mul_add r _ 1, Nat.mul_one],
          show n - a - 1 + a + 1 = n by omega, Nat.mul_comm]
      omega
    rw [e, Nat.add_mul_mod_self_left, Nat.mod_eq_of_lt (by omega), Nat.add_mul_div_left _ _ (by omega),
      Nat.div_eq_of_lt (by omega)]
    omega

theorem line_place {P Q : Type} (n r : Nat) (hr : 1 ≤ r) (one : P → Q) (mid : Nat → P → P → Q) (c : Nat → Nat → Nat → P)
    (f : Nat × Nat × Nat → P) (hf : ∀ t j i, t < 6 → j ≤ n → i ≤ n → c t j i = f (place n t j i))
    (hrow : ∀ t j i k, t < 6 → j ≤ n → i < n → 0 < k → k < r → mid k (c t j i) (c t j (i + 1)) = mid (r - k) (c t j (i + 1)) (c t j i))
    (hcol : ∀ t j i k, t < 6 → j < n → i ≤ n → 0 < k → k < r → mid k (c t j i) (c t (j + 1) i) = mid (r - k) (c t (j + 1) i) (c t j i))
    (t j i : Nat) (ht : t < 6) (hj : j ≤ n * r) (hi : i ≤ n * r) (h : j % r = 0 ∨ i % r = 0) :
    linePoint r one mid (c t) j i = linePlace r one mid f (place (n * r) t j i) := by
  have j1 := rev_div hr hj
  have i1 := rev_div hr hi
  have jm := Nat.mod_lt j (show r > 0 by omega)
  have im := Nat.mod_lt i (show r > 0 by omega)
  have N1 : n * r % r = 0 := Nat.mul_mod_left n r
  have N2 : n * r / r = n := Nat.mul_div_cancel n (by omega)
  have Z1 : 0 % r = 0 := Nat.zero_mod r
  have Z2 : 0 / r = 0 := Nat.zero_div r
  unfold linePoint
  obtain ⟨A, hA⟩ : ∃ x, j / r = x := ⟨_, rfl⟩
  obtain ⟨B, hB⟩ : ∃ x, i / r = x := ⟨_, rfl⟩
  obtain ⟨A', hA'⟩ : ∃ x, (n * r - j) / r = x := ⟨_, rfl⟩
  obtain ⟨B', hB'⟩ : ∃ x, (n * r - i) / r = x := ⟨_, rfl⟩
  obtain ⟨a, ha⟩ : ∃ x, j % r = x := ⟨_, rfl⟩
  obtain ⟨b, hb⟩ : ∃ x, i % r = x := ⟨_, rfl⟩
  obtain ⟨a', ha'⟩ : ∃ x, (n * r - j) % r = x := ⟨_, rfl⟩
  obtain ⟨b', hb'⟩ : ∃ x, (n * r - i) % r = x := ⟨_, rfl⟩
  rw [hA, hA', ha, ha'] at j1
  rw [hB, hB', hb, hb'] at i1
  rw [ha] at jm h
  rw [hb] at im h
  rw [ha, hb, hA, hB]
  clear hj hi
  by_cases ca : a = 0
  · obtain ⟨ja, jb⟩ := j1.1 ca
    rw [if_pos ca]
    by_cases cb : b = 0
    · obtain ⟨ia, ib⟩ := i1.1 cb
      rw [if_pos cb, hf t _ _ ht (by omega) (by omega)]
      interval_cases t <;> simp only [place, linePlace, N1, N2, Z1, Z2, hA, hB, hA', hB', ha, hb, ha', hb', ca, cb, ja, ia, ne_eq, not_true_eq_false, if_false] <;>
        exact congrArg (fun q => one (f q)) (Prod.ext (by dsimp only <;> omega) (Prod.ext (by dsimp only <;> omega) (by dsimp only <;> omega)))
    · obtain ⟨ia, ib⟩ := i1.2 cb
      have hm : ¬ (r - b = 0) := by omega
      have hr1 := hrow t A B b ht (by omega) (by omega) (by omega) im
      rw [if_neg cb]
      interval_cases t
      all_goals
        first
        | (rw [hf _ _ _ (by omega) (by omega) (by omega), hf _ _ _ (by omega) (by omega) (by omega)]
           simp only [place, linePlace, N1, N2, Z1, Z2, hA, hB, hA', hB', ha, hb, ha', hb', ca, cb, ja, ia, hm, ne_eq, not_true_eq_false, not_false_eq_true, if_false, if_true]
           done)
        | (rw [hf _ _ _ (by omega) (by omega) (by omega), hf _ _ _ (by omega) (by omega) (by omega)]
           simp only [place, linePlace, N1, N2, Z1, Z2, hA, hB, hA', hB', ha, hb, ha', hb', ca, cb, ja, ia, hm, ne_eq, not_true_eq_false, not_false_eq_true, if_false, if_true]
           congr 2 <;> congr 1 <;> (try omega) <;> congr 1 <;> omega)
        | (rw [hr1, hf _ _ _ (by omega) (by omega) (by omega), hf _ _ _ (by omega) (by omega) (by omega)]
           simp only [place, linePlace, N1, N2, Z1, Z2, hA, hB, hA', hB', ha, hb, ha', hb', ca, cb, ja, ia, hm, ne_eq, not_true_eq_false, not_false_eq_true, if_false, if_true]
           congr 2 <;> congr 1 <;> (try omega) <;> congr 1 <;> omega)
  · obtain ⟨ja, jb⟩ := j1.2 ca
    have cb : b = 0 := by omega
    obtain ⟨ia, ib⟩ := i1.1 cb
    have hm : ¬ (r - a = 0) := by omega
    have hr1 := hcol t A B a ht (by omega) (by omega) (by omega) jm
    rw [if_neg ca]
    interval_cases t
    all_goals
      first
      | (rw [hf _ _ _ (by omega) (by omega) (by omega), hf _ _ _ (by omega) (by omega) (by omega)]
         simp only [place, linePlace, N1, N2, Z1, Z2, hA, hB, hA', hB', ha, hb, ha', hb', ca, cb, ja, ia, hm, ne_eq, not_true_eq_false, not_false_eq_true, if_false, if_true]
         done)
      | (rw [hf _ _ _ (by omega) (by omega) (by omega), hf _ _ _ (by omega) (by omega) (by omega)]
         simp only [place, linePlace, N1, N2, Z1, Z2, hA, hB, hA', hB', ha, hb, ha', hb', ca, cb, ja, ia, hm, ne_eq, not_true_eq_false, not_false_eq_true, if_false, if_true]
         congr 2 <;> congr 1 <;> (try omega) <;> congr 1 <;> omega)
      | (rw [hr1, hf _ _ _ (by omega) (by omega) (by omega), hf _ _ _ (by omega) (by omega) (by omega)]
         simp only [place, linePlace, N1, N2, Z1, Z2, hA, hB, hA', hB', ha, hb, ha', hb', ca, cb, ja, ia, hm, ne_eq, not_true_eq_false, not_false_eq_true, if_false, if_true]
         congr 2 <;> congr 1 <;> (try omega) <;> congr 1 <;> omega)

end Verif.Nest
