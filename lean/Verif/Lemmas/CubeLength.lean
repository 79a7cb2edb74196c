import Verif.Lemmas.CubeGrid
namespace Verif.CubeGrid

open Verif.Spec.Cube

/-- Index of a length along a row -/
def ldx (nx t j i : Nat) : Nat := t * nx * (nx + 1) + j * nx + i
/-- Index of a length along a column -/
def ldy (nx t j i : Nat) : Nat := t * nx * (nx + 1) + j * (nx + 1) + i

theorem ldy_inj {nx t j i t' j' i' : Nat} (hj : j < nx) (hi : i ≤ nx) (hj' : j' < nx) (hi' : i' ≤ nx)
    (h : ldy nx t j i = ldy nx t' j' i') : t = t' ∧ j = j' ∧ i = i' := by
  have h' : (t * nx + j) * (nx + 1) + i = (t' * nx + j') * (nx + 1) + i' := by
    unfold ldy at h; rw [Nat.add_mul (t * nx), Nat.add_mul (t' * nx)]; exact h
  obtain ⟨h1, h2⟩ := split_eq (by omega) (by omega) h'
  obtain ⟨h3, h4⟩ := split_eq hj hj' h1
  exact ⟨h3, h4, h2⟩

theorem ldx_eq (nx t j i : Nat) : ldx nx t j i = nx * (nx + 1) * t + (j * nx + i) := by
  unfold ldx; ring

theorem ldy_eq (nx t j i : Nat) : ldy nx t j i = nx * (nx + 1) * t + (j * (nx + 1) + i) := by
  unfold ldy; ring

theorem inner_lt {m n j i : Nat} (hj : j < m) (hi : i < n) : j * n + i < n * m := by
  have := Nat.mul_le_mul_right n (show j + 1 ≤ m by omega)
  rw [Nat.add_mul, Nat.mul_comm m n] at this
  omega

theorem dx0_ldx {P L : Type} (dist : P → P → L) (nx : Nat) (g : Nat → Nat → Nat → P) (t j i : Nat) (hj : j ≤ nx)
    (hi : i < nx) : dx0 dist nx g (ldx nx t j i) = dist (g t j i) (g t j (i + 1)) := by
  have hlt : j * nx + i < nx * (nx + 1) := inner_lt (by omega) hi
  have hpos : 0 < nx * (nx + 1) := by omega
  have h1 : ldx nx t j i / (nx * (nx + 1)) = t := by
    rw [ldx_eq, Nat.mul_add_div hpos, Nat.div_eq_of_lt hlt, Nat.add_zero]
  have h2 : ldx nx t j i % (nx * (nx + 1)) = j * nx + i := by
    rw [ldx_eq, Nat.mul_add_mod, Nat.mod_eq_of_lt hlt]
  have h3 : (j * nx + i) / nx = j := by
    rw [Nat.mul_comm, Nat.mul_add_div (by omega), Nat.div_eq_of_lt hi, Nat.add_zero]
  have h4 : (j * nx + i) % nx = i := by rw [Nat.mul_comm, Nat.mul_add_mod, Nat.mod_eq_of_lt hi]
  unfold dx0
  simp only [h1, h2, h3, h4]

theorem dy0_ldy {P L : Type} (dist : P → P → L) (st : Bool) (nx : Nat) (g : Nat → Nat → Nat → P) (t j i : Nat)
    (hj : j < nx) (hi : i ≤ nx) : dy0 dist st nx g (ldy nx t j i)
      = if st then dist (g t j i) (g t (j + 1) i) else dist (g t i j) (g t i (j + 1)) := by
  have hlt : j * (nx + 1) + i < nx * (nx + 1) := by
    rw [Nat.mul_comm nx]; exact inner_lt hj (by omega)
  have hpos : 0 < nx * (nx + 1) := by omega
  have h1 : ldy nx t j i / (nx * (nx + 1)) = t := by
    rw [ldy_eq, Nat.mul_add_div hpos, Nat.div_eq_of_lt hlt, Nat.add_zero]
  have h2 : ldy nx t j i % (nx * (nx + 1)) = j * (nx + 1) + i := by
    rw [ldy_eq, Nat.mul_add_mod, Nat.mod_eq_of_lt hlt]
  have h3 : (j * (nx + 1) + i) / (nx + 1) = j := by
    rw [Nat.mul_comm, Nat.mul_add_div (by omega), Nat.div_eq_of_lt (by omega), Nat.add_zero]
  have h4 : (j * (nx + 1) + i) % (nx + 1) = i := by
    rw [Nat.mul_comm, Nat.mul_add_mod, Nat.mod_eq_of_lt (by omega)]
  unfold dy0
  simp only [h1, h2, h3, h4]
  split_ifs
  · rfl
  · exact dx0_ldx dist nx g t i j hi hj

/-! The copies -/

/-- Value of a source -/
def srcVal {L : Type} (dx dy : Nat → L) : Source → L
  | .dx s => dx s
  | .dy s => dy s

theorem assignLength_eq {L : Type} (dx dy : Nat → L) (c : Nat × Source) (k : Nat) :
    assignLength dx dy c k = if k = c.1 then srcVal dx dy c.2 else dy k := by
  unfold assignLength srcVal
  split_ifs <;> rfl

theorem fold_not {L : Type} (dx : Nat → L) (C : List (Nat × Source)) (dy : Nat → L) (k : Nat) (h : ∀ c ∈ C, c.1 ≠ k) :
    (C.foldl (assignLength dx) dy) k = dy k := by
  induction C generalizing dy with
  | nil => rfl
  | cons c C ih =>
    rw [List.foldl_cons, ih _ (fun d hd => h d (by simp [hd])), assignLength_eq,
      if_neg (fun e => h c (by simp) e.symm)]

theorem fold_src {L : Type} (dx : Nat → L) (C : List (Nat × Source)) (dy : Nat → L) (s : Source)
    (h : ∀ c ∈ C, s ≠ .dy c.1) : srcVal dx (C.foldl (assignLength dx) dy) s = srcVal dx dy s := by
  cases s with
  | dx k => rfl
  | dy k => exact fold_not dx C dy k (fun c hc e => h c hc (by rw [e]))

theorem fold_mem {L : Type} (dx : Nat → L) (C : List (Nat × Source)) (dy : Nat → L)
    (h1 : ∀ c ∈ C, ∀ d ∈ C, d.2 ≠ .dy c.1) (h2 : ∀ c ∈ C, ∀ d ∈ C, c.1 = d.1 → c.2 = d.2) (c : Nat × Source)
    (hc : c ∈ C) : (C.foldl (assignLength dx) dy) c.1 = srcVal dx dy c.2 := by
  induction C generalizing dy with
  | nil => simp at hc
  | cons d C ih =>
    rw [List.foldl_cons]
    have one : srcVal dx (assignLength dx dy d) c.2 = srcVal dx dy c.2 := by
      have := fold_src dx [d] dy c.2 (fun e he => by
        rw [List.mem_singleton] at he; subst he; exact h1 e (by simp) c hc)
      simpa using this
    by_cases hm : ∃ e ∈ C, e.1 = c.1
    · obtain ⟨e, he, hec⟩ := hm
      have := ih (assignLength dx dy d) (fun x hx y hy => h1 x (by simp [hx]) y (by simp [hy]))
        (fun x hx y hy => h2 x (by simp [hx]) y (by simp [hy]))
      have hs : e.2 = c.2 := h2 e (by simp [he]) c hc hec
      have hec' : e = c := Prod.ext hec hs
      rw [this (hec' ▸ he), one]
    · have hcd : c = d := by
        rcases List.mem_cons.1 hc with h | h
        · exact h
        · exact absurd ⟨c, h, rfl⟩ hm
      rw [fold_not dx C _ c.1 (fun e he h => hm ⟨e, he, h⟩), assignLength_eq, if_pos (by rw [hcd]), hcd]

/-- The copies with indices of rows and columns -/
def lc (nx j : Nat) : List (Nat × Source) :=
  [(ldy nx 0 j 0, .dx (ldx nx 4 nx (nx - j - 1))), (ldy nx 0 j nx, .dy (ldy nx 1 j 0)),
    (ldy nx 1 j nx, .dx (ldx nx 3 0 (nx - j - 1))), (ldy nx 2 j 0, .dx (ldx nx 0 nx (nx - j - 1))),
    (ldy nx 2 j nx, .dy (ldy nx 3 j 0)), (ldy nx 3 j nx, .dx (ldx nx 5 0 (nx - j - 1))),
    (ldy nx 4 j 0, .dx (ldx nx 2 nx (nx - j - 1))), (ldy nx 4 j nx, .dy (ldy nx 5 j 0)),
    (ldy nx 5 j nx, .dx (ldx nx 1 0 (nx - j - 1)))]

theorem lengthCopies_eq {nx j : Nat} (hj : j < nx) : lengthCopies nx j = lc nx j := by
  have c : ∀ k, k * (nx + 1) * nx = k * nx * (nx + 1) := fun k => by ring
  have e1 : 4 * nx * (nx + 1) + nx * nx + nx - j - 1 = 4 * nx * (nx + 1) + nx * nx + (nx - j - 1) := by omega
  have e2 : 2 * nx * (nx + 1) + nx * nx + nx - j - 1 = 2 * nx * (nx + 1) + nx * nx + (nx - j - 1) := by omega
  have e3 : nx * nx + nx - j - 1 = 0 * nx * (nx + 1) + nx * nx + (nx - j - 1) := by
    rw [Nat.zero_mul, Nat.zero_mul]; omega
  have e4 : (nx + 1) * nx = 1 * nx * (nx + 1) := by ring
  have e5 : nx * (nx + 1) = 1 * nx * (nx + 1) := by ring
  simp only [lengthCopies, lc, ldx, ldy, e1, e2, e3, c]
  simp only [e4, Nat.zero_mul, Nat.zero_add, Nat.add_zero, Nat.one_mul]

/-- Where the value of a side between rows comes from -/
def dySource (nx t j i : Nat) : Source :=
  if i = 0 then
    (if t = 0 then .dx (ldx nx 4 nx (nx - j - 1)) else if t = 2 then .dx (ldx nx 0 nx (nx - j - 1))
      else if t = 4 then .dx (ldx nx 2 nx (nx - j - 1)) else .dy (ldy nx t j i))
  else if i = nx then
    (if t = 0 then .dy (ldy nx 1 j 0) else if t = 1 then .dx (ldx nx 3 0 (nx - j - 1))
      else if t = 2 then .dy (ldy nx 3 j 0) else if t = 3 then .dx (ldx nx 5 0 (nx - j - 1))
      else if t = 4 then .dy (ldy nx 5 j 0) else .dx (ldx nx 1 0 (nx - j - 1)))
  else .dy (ldy nx t j i)

theorem mem_lc (nx : Nat) (c : Nat × Source) : c ∈ (List.range nx).flatMap (lengthCopies nx) ↔ ∃ k, k < nx ∧ c ∈ lc nx k := by
  rw [List.mem_flatMap]
  constructor
  · rintro ⟨k, hk, h⟩
    rw [List.mem_range] at hk
    exact ⟨k, hk, by rw [← lengthCopies_eq hk]; exact h⟩
  · rintro ⟨k, hk, h⟩
    exact ⟨k, List.mem_range.2 hk, by rw [lengthCopies_eq hk]; exact h⟩

/-- Every copy is to a side of which it is the source. -/
theorem lc_source (nx k : Nat) (hk : k < nx) (c : Nat × Source) (hc : c ∈ lc nx k) :
    ∃ t i, t < 6 ∧ (i = 0 ∧ (t = 0 ∨ t = 2 ∨ t = 4) ∨ i = nx) ∧ c = (ldy nx t k i, dySource nx t k i) := by
  have hx : ¬ nx = 0 := by omega
  simp only [lc, List.mem_cons, List.not_mem_nil, or_false] at hc
  rcases hc with h | h | h | h | h | h | h | h | h
  · exact ⟨0, 0, by omega, by omega, by rw [h]; simp [dySource]⟩
  · exact ⟨0, nx, by omega, by omega, by rw [h]; simp [dySource, hx]⟩
  · exact ⟨1, nx, by omega, by omega, by rw [h]; simp [dySource, hx]⟩
  · exact ⟨2, 0, by omega, by omega, by rw [h]; simp [dySource]⟩
  · exact ⟨2, nx, by omega, by omega, by rw [h]; simp [dySource, hx]⟩
  · exact ⟨3, nx, by omega, by omega, by rw [h]; simp [dySource, hx]⟩
  · exact ⟨4, 0, by omega, by omega, by rw [h]; simp [dySource]⟩
  · exact ⟨4, nx, by omega, by omega, by rw [h]; simp [dySource, hx]⟩
  · exact ⟨5, nx, by omega, by omega, by rw [h]; simp [dySource, hx]⟩

theorem lc_has (nx k t i : Nat) (hk : k < nx) (ht : t < 6)
    (h : i = 0 ∧ (t = 0 ∨ t = 2 ∨ t = 4) ∨ i = nx) : (ldy nx t k i, dySource nx t k i) ∈ lc nx k := by
  have hx : ¬ nx = 0 := by omega
  rcases h with ⟨rfl, h⟩ | rfl
  · rcases h with rfl | rfl | rfl <;> simp [lc, dySource]
  · interval_cases t <;> simp [lc, dySource, hx]

theorem dyFinal_eq {L : Type} (nx : Nat) (dx dy : Nat → L) (t j i : Nat) (ht : t < 6) (hj : j < nx) (hi : i ≤ nx) :
    dyFinal nx dx dy (ldy nx t j i) = srcVal dx dy (dySource nx t j i) := by
  unfold dyFinal
  by_cases h : i = 0 ∧ (t = 0 ∨ t = 2 ∨ t = 4) ∨ i = nx
  · refine fold_mem dx _ dy ?_ ?_ (ldy nx t j i, dySource nx t j i) ((mem_lc nx _).2 ⟨j, hj, lc_has nx j t i hj ht h⟩)
    · intro c hc d hd
      obtain ⟨k, hk, hc⟩ := (mem_lc nx c).1 hc
      obtain ⟨l, hl, hd⟩ := (mem_lc nx d).1 hd
      obtain ⟨s, u, hs, hu, rfl⟩ := lc_source nx k hk c hc
      have hun : u ≤ nx := by omega
      simp only [lc, List.mem_cons, List.not_mem_nil, or_false] at hd
      rcases hd with h | h | h | h | h | h | h | h | h <;> subst h <;>
        simp only [ne_eq, Source.dy.injEq, reduceCtorEq, not_false_eq_true] <;> intro e <;>
        obtain ⟨h1, h2, h3⟩ := ldy_inj hl (by omega) hk hun e <;> omega
    · intro c hc d hd e
      obtain ⟨k, hk, hc⟩ := (mem_lc nx c).1 hc
      obtain ⟨l, hl, hd⟩ := (mem_lc nx d).1 hd
      obtain ⟨s, u, hs, hu, rfl⟩ := lc_source nx k hk c hc
      obtain ⟨s', u', hs', hu', rfl⟩ := lc_source nx l hl d hd
      obtain ⟨h1, h2, h3⟩ := ldy_inj hk (by omega) hl (by omega) e
      subst h1 h2 h3
      rfl
  · rw [fold_not]
    · unfold dySource
      split_ifs <;> first | rfl | omega
    · intro c hc e
      obtain ⟨k, hk, hc⟩ := (mem_lc nx c).1 hc
      obtain ⟨s, u, hs, hu, rfl⟩ := lc_source nx k hk c hc
      obtain ⟨h1, h2, h3⟩ := ldy_inj hk (by omega) hj hi e
      subst h1 h2 h3
      exact h hu

theorem distance_comm (radius : ℝ) (x y : LonLat) : distance radius x y = distance radius y x := by
  unfold distance
  rw [← neg_sub y.2 x.2, ← neg_sub y.1 x.1, neg_div, neg_div, Real.sin_neg, Real.sin_neg, neg_mul_neg, neg_mul_neg,
    mul_comm (Real.cos x.2)]

theorem triple {x y z x' y' z' : Nat} (h1 : x = x') (h2 : y = y') (h3 : z = z') : (x, y, z) = (x', y', z') := by
  rw [h1, h2, h3]

theorem same_across {nx t j i t' j' i' : Nat} (hn : 2 ≤ nx) (ht : t < 6) (hj : j < nx) (hi : i ≤ nx) (ht' : t' < 6)
    (hj' : j' < nx) (hi' : i' ≤ nx) (h : Side.same nx ⟨t, j, i, false⟩ ⟨t', j', i', false⟩) :
    dySource nx t j i = dySource nx t' j' i' := by
  simp only [Side.same, Side.first, Side.second, Bool.false_eq_true, if_false] at h
  have hx : ¬ nx = 0 := by omega
  have key : (t = t' ∧ j = j' ∧ i = i')
      ∨ (j = j' ∧ i = nx ∧ i' = 0 ∧ (t = 0 ∧ t' = 1 ∨ t = 2 ∧ t' = 3 ∨ t = 4 ∧ t' = 5))
      ∨ (j = j' ∧ i = 0 ∧ i' = nx ∧ (t' = 0 ∧ t = 1 ∨ t' = 2 ∧ t = 3 ∨ t' = 4 ∧ t = 5)) := by
    interval_cases t <;> interval_cases t' <;> simp only [place, Prod.mk.injEq] at h <;>
      first
      | (exfalso; omega)
      | (simp; omega)
  clear h
  rcases key with ⟨rfl, rfl, rfl⟩ | ⟨rfl, rfl, rfl, ⟨rfl, rfl⟩ | ⟨rfl, rfl⟩ | ⟨rfl, rfl⟩⟩
    | ⟨rfl, rfl, rfl, ⟨rfl, rfl⟩ | ⟨rfl, rfl⟩ | ⟨rfl, rfl⟩⟩
  · rfl
  all_goals simp [dySource, hx]

theorem same_mixed {nx t j i t' j' i' : Nat} (hn : 2 ≤ nx) (ht : t < 6) (hj : j < nx) (hi : i ≤ nx) (ht' : t' < 6)
    (hj' : j' ≤ nx) (hi' : i' < nx) (h : Side.same nx ⟨t, j, i, false⟩ ⟨t', j', i', true⟩) :
    dySource nx t j i = .dx (ldx nx t' j' i') := by
  simp only [Side.same, Side.first, Side.second, Bool.false_eq_true, if_false, if_true] at h
  have hx : ¬ nx = 0 := by omega
  have key : (i = 0 ∧ i' = nx - j - 1 ∧ j' = nx ∧ (t = 0 ∧ t' = 4 ∨ t = 2 ∧ t' = 0 ∨ t = 4 ∧ t' = 2))
      ∨ (i = nx ∧ i' = nx - j - 1 ∧ j' = 0 ∧ (t = 1 ∧ t' = 3 ∨ t = 3 ∧ t' = 5 ∨ t = 5 ∧ t' = 1)) := by
    interval_cases t <;> interval_cases t' <;> simp only [place, Prod.mk.injEq] at h <;>
      first
      | (exfalso; omega)
      | (simp; omega)
  clear h
  rcases key with ⟨rfl, rfl, rfl, ⟨rfl, rfl⟩ | ⟨rfl, rfl⟩ | ⟨rfl, rfl⟩⟩
    | ⟨rfl, rfl, rfl, ⟨rfl, rfl⟩ | ⟨rfl, rfl⟩ | ⟨rfl, rfl⟩⟩
  all_goals simp [dySource, hx]

theorem same_along {nx t j i t' j' i' : Nat} (hn : 2 ≤ nx) (ht : t < 6) (hj : j ≤ nx) (hi : i < nx) (ht' : t' < 6)
    (hj' : j' ≤ nx) (hi' : i' < nx) (h : Side.same nx ⟨t, j, i, true⟩ ⟨t', j', i', true⟩) :
    place nx t j i = place nx t' j' i' ∧ place nx t j (i + 1) = place nx t' j' (i' + 1) := by
  simp only [Side.same, Side.first, Side.second, if_true] at h
  interval_cases t <;> interval_cases t' <;> simp only [place, Prod.mk.injEq] at h ⊢ <;>
    first
    | (exfalso; omega)
    | omega
    | (simp only [true_and, and_true]; omega)

end Verif.CubeGrid
