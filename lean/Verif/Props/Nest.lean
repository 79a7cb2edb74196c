import Verif.Lemmas.Nest
import Mathlib.Tactic.NormNum
/-
C85: nests of a cubed sphere grid.
-/
namespace Verif

open Verif.Vec3 Verif.CubeGrid Verif.Nest Verif.Spec Verif.Spec.Nest

theorem nest_div {j m r : Nat} (hr : 1 ≤ r) (h : j ≤ m * r) : j / r ≤ m ∧ (j % r ≠ 0 → j / r + 1 ≤ m) := by
  have h1 := Nat.div_add_mod j r
  have h2 : j / r ≤ m := by
    rw [Nat.div_le_iff_le_mul_add_pred (by omega), Nat.mul_comm]; omega
  refine ⟨h2, fun h3 => ?_⟩
  rcases Nat.lt_or_ge (j / r) m with h4 | h4
  · exact h4
  · exfalso
    have h5 : m = j / r := le_antisymm h4 h2
    have h6 : m * r = r * (j / r) := by rw [h5, Nat.mul_comm]
    omega

/-- The value in row `j` and column `i` of a nest -/
def nestAt (g : List (List LonLat)) (j i : Nat) : Option LonLat := (g[j]?).bind fun l => l[i]?

/-- The nest lies inside its parent, with its halo. -/
def NestInside (ni nj halo istart iend jstart jend : Nat) : Prop :=
  halo < istart ∧ halo < jstart ∧ iend + halo ≤ ni ∧ jend + halo ≤ nj

theorem nest_setup {e : Eps} {ni nj : Nat} {parent : Nat → LonLat} {halo r istart iend jstart jend : Nat} {gr : Bool}
    {g : List (List LonLat)} (hg : setup e ni nj parent halo r istart iend jstart jend gr = .ok g) :
    NestInside ni nj halo istart iend jstart jend ∧ g.length = (jend + 1 - jstart) * r + 1
    ∧ (∀ l ∈ g, l.length = (iend + 1 - istart) * r + 1)
    ∧ ∀ j i, j ≤ (jend + 1 - jstart) * r → i ≤ (iend + 1 - istart) * r →
      ∃ p, nestAt g j i = some p ∧ point e ni nj parent r istart jstart gr j i = .ok p := by
  unfold setup at hg
  split at hg
  · simp at hg
  · rename_i hin
    obtain ⟨h1, h2⟩ := mapM_ok hg
    simp only [List.length_range, List.getElem_range] at h1 h2
    refine ⟨by unfold NestInside; omega, h1, ?_, ?_⟩
    · intro l hl
      obtain ⟨k, hk, rfl⟩ := List.mem_iff_getElem.1 hl
      obtain ⟨b, hb, hb2⟩ := h2 k (by omega)
      rw [List.getElem?_eq_getElem hk, Option.some_inj] at hb
      rw [hb, (mapM_ok hb2).1, List.length_range]
    · intro j i hj hi
      obtain ⟨b, hb, hb2⟩ := h2 j (by omega)
      obtain ⟨-, h4⟩ := mapM_ok hb2
      simp only [List.length_range, List.getElem_range] at h4
      obtain ⟨p, hp, hp2⟩ := h4 i (by omega)
      refine ⟨p, ?_, hp2⟩
      unfold nestAt
      rw [hb, Option.bind_some, hp]

/-- C85: a nest is rejected as outside if and only if it does not lie inside its parent with its halo; with a halo no index
outside the parent comes up afterwards, so the only other reason to stop is that two points are too close. -/
theorem C85_accepts (e : Eps) (ni nj : Nat) (parent : Nat → LonLat) (halo r istart iend jstart jend : Nat)
    (hh : 1 ≤ halo) (hr : 1 ≤ r) (hs : istart ≤ iend ∧ jstart ≤ jend) :
    (setup e ni nj parent halo r istart iend jstart jend false = .error .outside
      ↔ ¬NestInside ni nj halo istart iend jstart jend)
    ∧ ∀ x, setup e ni nj parent halo r istart iend jstart jend false = .error x → x = .outside ∨ x = .close := by
  have key : NestInside ni nj halo istart iend jstart jend → ∀ x,
      setup e ni nj parent halo r istart iend jstart jend false = .error x → x = .close := by
    rintro ⟨a1, a2, a3, a4⟩ x hx
    unfold setup at hx
    rw [if_neg (by omega)] at hx
    obtain ⟨j, hj, hx⟩ := mapM_error hx
    obtain ⟨i, hi, hx⟩ := mapM_error hx
    rw [List.mem_range] at hi hj
    obtain ⟨j1, j2⟩ := nest_div hr (show j ≤ (jend + 1 - jstart) * r by omega)
    obtain ⟨i1, i2⟩ := nest_div hr (show i ≤ (iend + 1 - istart) * r by omega)
    rw [point_eq e parent (by omega) (fun h => by have := j2 h; omega) (by omega) (Or.inl (by omega))] at hx
    have hs : ∀ b p q y, slerp e b p q = .error y → y = .close := by
      intro b p q y
      rw [slerp_eq]
      split
      · intro h; simp at h
      · split
        · intro h; simp at h; exact h.symm
        · intro h; simp at h
    have hs2 : ∀ (c : Prop) [Decidable c] (z : LonLat) b p q y, (if c then .ok z else slerp e b p q) = .error y →
        y = Err.close := by
      intro c _ z b p q y
      split
      · intro h; simp at h
      · exact hs b p q y
    dsimp only at hx
    split at hx
    · split at hx
      · simp at hx
      · rename_i h
        simp at hx
        subst hx
        exact hs2 _ _ _ _ _ _ h
    · rename_i h
      simp at hx
      subst hx
      exact hs2 _ _ _ _ _ _ h
    · rename_i h
      simp at hx
      subst hx
      exact hs2 _ _ _ _ _ _ h
  constructor
  · constructor
    · intro h hin
      have := key hin _ h
      simp at this
    · intro h
      unfold setup
      rw [if_pos]
      unfold NestInside at h
      omega
  · intro x hx
    by_cases hin : NestInside ni nj halo istart iend jstart jend
    · exact Or.inr (key hin x hx)
    · left
      unfold setup at hx
      rw [if_pos (by unfold NestInside at hin; omega)] at hx
      simp at hx
      exact hx.symm

/-- A nest which touches the edge of its parent is not accepted. -/
example (e : Eps) (parent : Nat → LonLat) : setup e 8 8 parent 1 3 2 8 2 4 false = .error .outside :=
  ((C85_accepts e 8 8 parent 1 3 2 8 2 4 (by omega) (by omega) (by omega)).1).2 (by unfold NestInside; omega)

/-- C85: the size of a nest. -/
theorem C85_size (e : Eps) (ni nj : Nat) (parent : Nat → LonLat) (halo r istart iend jstart jend : Nat) (gr : Bool)
    (g : List (List LonLat)) (hg : setup e ni nj parent halo r istart iend jstart jend gr = .ok g) :
    g.length = (jend + 1 - jstart) * r + 1 ∧ ∀ l ∈ g, l.length = (iend + 1 - istart) * r + 1 :=
  ⟨(nest_setup hg).2.1, (nest_setup hg).2.2.1⟩

/-- C85: every `r`-th point of a nest is a corner of its parent. -/
theorem C85_aligned (e : Eps) (ni nj : Nat) (parent : Nat → LonLat) (halo r istart iend jstart jend : Nat) (gr : Bool)
    (hr : 1 ≤ r) (hh : 1 ≤ halo ∨ gr = true) (hs : istart ≤ iend ∧ jstart ≤ jend)
    (hlon : ∀ k, 0 ≤ (parent k).1 ∧ (parent k).1 ≤ 2 * Real.pi)
    (g : List (List LonLat)) (hg : setup e ni nj parent halo r istart iend jstart jend gr = .ok g)
    (j i : Nat) (hj : j ≤ jend + 1 - jstart) (hi : i ≤ iend + 1 - istart) :
    nestAt g (j * r) (i * r) = some (parent ((jstart - 1 + j) * (ni + 1) + (istart - 1 + i))) := by
  obtain ⟨⟨a1, a2, a3, a4⟩, -, -, hp⟩ := nest_setup hg
  obtain ⟨p, hp1, hp2⟩ := hp (j * r) (i * r) (Nat.mul_le_mul_right r hj) (Nat.mul_le_mul_right r hi)
  have d1 : j * r / r = j := Nat.mul_div_cancel j hr
  have d2 : i * r / r = i := Nat.mul_div_cancel i hr
  have hi' : istart - 1 + i * r / r + 1 ≤ ni ∨ gr = true := by
    rcases hh with hh | hh
    · left; omega
    · exact Or.inr hh
  rw [point_eq e parent (by omega) (fun h => by simp at h) (by omega) hi'] at hp2
  rw [hp1]
  simp only [Nat.mul_mod_left, if_true, d1, d2] at hp2
  rw [wrap_id (hlon _).1 (hlon _).2] at hp2
  simp at hp2
  rw [hp2]

/-- Thresholds and a parent for the examples: corners on meridians and circles of latitude, 22.5 degrees apart. -/
noncomputable def nestEps : Eps := ⟨0, 1 / 10 ^ 8, 1 / 10 ^ 10⟩
noncomputable def nestParent (k : Nat) : LonLat := ((k % 4 : Nat) * (Real.pi / 8), (k / 4 : Nat) * (Real.pi / 8))

theorem nest_total (e : Eps) (he : e.e5 ≤ 0) (ni nj : Nat) (parent : Nat → LonLat) (halo r istart iend jstart jend : Nat)
    (gr : Bool) (hr : 1 ≤ r) (hh : 1 ≤ halo ∨ gr = true) (hs : istart ≤ iend ∧ jstart ≤ jend)
    (hin : NestInside ni nj halo istart iend jstart jend) :
    ∃ g, setup e ni nj parent halo r istart iend jstart jend gr = .ok g := by
  cases h : setup e ni nj parent halo r istart iend jstart jend gr with
  | ok g => exact ⟨g, rfl⟩
  | error x =>
    exfalso
    obtain ⟨a1, a2, a3, a4⟩ := hin
    have hs : ∀ b p q y, slerp e b p q ≠ .error y := by
      intro b p q y
      rw [slerp_eq]
      split
      · simp
      · rw [if_neg (not_lt.2 (le_trans he (abs_nonneg _)))]
        simp
    unfold setup at h
    rw [if_neg (by omega)] at h
    obtain ⟨j, hj, h⟩ := mapM_error h
    obtain ⟨i, hi, h⟩ := mapM_error h
    rw [List.mem_range] at hi hj
    obtain ⟨j1, j2⟩ := nest_div hr (show j ≤ (jend + 1 - jstart) * r by omega)
    obtain ⟨i1, i2⟩ := nest_div hr (show i ≤ (iend + 1 - istart) * r by omega)
    have hi' : istart - 1 + i / r + 1 ≤ ni ∨ gr = true := by
      rcases hh with hh | hh
      · left; omega
      · exact Or.inr hh
    rw [point_eq e _ (by omega) (fun h => by have := j2 h; omega) (by omega) hi'] at h
    have hs2 : ∀ (c : Prop) [Decidable c] (z : LonLat) b p q y, (if c then .ok z else slerp e b p q) ≠ .error y := by
      intro c _ z b p q y
      split
      · simp
      · exact hs b p q y
    dsimp only at h
    split at h
    · split at h
      · simp at h
      · rename_i h'
        exact hs2 _ _ _ _ _ _ h'
    · rename_i h'
      exact hs2 _ _ _ _ _ _ h'
    · rename_i h'
      exact hs2 _ _ _ _ _ _ h'

theorem nest_example : ∃ g, setup nestEps 3 3 (fun k => if k < 16 then nestParent k else (0, 0)) 1 3 2 2 2 2 false = .ok g :=
  nest_total nestEps (le_refl _) 3 3 _ 1 3 2 2 2 2 false (by omega) (Or.inl (by omega)) (by omega)
    (by unfold NestInside; omega)

example : ∃ g, setup nestEps 3 3 (fun k => if k < 16 then nestParent k else (0, 0)) 1 3 2 2 2 2 false = .ok g := by
  cases h : setup nestEps 3 3 (fun k => if k < 16 then nestParent k else (0, 0)) 1 3 2 2 2 2 false with
  | ok g => exact ⟨g, rfl⟩
  | error x =>
    exfalso
    obtain ⟨h1, h2⟩ := C85_accepts nestEps 3 3 (fun k => if k < 16 then nestParent k else (0, 0)) 1 3 2 2 2 2 (by omega)
      (by omega) (by omega)
    rcases h2 x h with rfl | rfl
    · exact h1.1 h (by unfold NestInside; omega)
    · have hs : ∀ b p q, slerp nestEps b p q ≠ .error .close := by
        intro b p q
        rw [slerp_eq]
        split
        · simp
        · rw [if_neg (not_lt.2 (abs_nonneg _))]
          simp
      unfold setup at h
      rw [if_neg (by omega)] at h
      obtain ⟨j, hj, h⟩ := mapM_error h
      obtain ⟨i, hi, h⟩ := mapM_error h
      rw [List.mem_range] at hi hj
      obtain ⟨j1, j2⟩ := nest_div (m := 1) (r := 3) (by omega) (show j ≤ 1 * 3 by omega)
      obtain ⟨i1, i2⟩ := nest_div (m := 1) (r := 3) (by omega) (show i ≤ 1 * 3 by omega)
      rw [point_eq nestEps _ (by omega) (fun h => by have := j2 h; omega) (by omega) (Or.inl (by omega))] at h
      have hs2 : ∀ (c : Prop) [Decidable c] (z : LonLat) b p q, (if c then .ok z else slerp nestEps b p q) ≠ .error .close := by
        intro c _ z b p q
        split
        · simp
        · exact hs b p q
      dsimp only at h
      split at h
      · split at h
        · simp at h
        · rename_i h'
          simp at h
          subst h
          exact hs2 _ _ _ _ _ h'
      · rename_i h'
        simp at h
        subst h
        exact hs2 _ _ _ _ _ h'
      · rename_i h'
        simp at h
        subst h
        exact hs2 _ _ _ _ _ h'

example : ∃ g, setup nestEps 3 3 (fun k => if k < 16 then nestParent k else (0, 0)) 1 3 2 2 2 2 false = .ok g
    ∧ nestAt g 3 0 = some (Real.pi / 8, 2 * (Real.pi / 8)) := by
  obtain ⟨g, hg⟩ := nest_example
  refine ⟨g, hg, ?_⟩
  have hpi := Real.pi_pos
  have := C85_aligned nestEps 3 3 _ 1 3 2 2 2 2 false (by omega) (Or.inl (by omega)) (by omega) ?_ g hg 1 0 (by omega)
    (by omega)
  · simp [nestParent] at this
    rw [this]
  · intro k
    split
    · unfold nestParent
      have h : k % 4 < 4 := Nat.mod_lt _ (by omega)
      have h' : ((k % 4 : Nat) : ℝ) ≤ 4 := by exact_mod_cast h.le
      dsimp only
      refine ⟨by positivity, ?_⟩
      nlinarith
    · simp only []
      exact ⟨le_refl _, by positivity⟩

/-- C85: where the points of a nest lie. Point `(j, i)` belongs to the parent cell in row `jc` and column `ic`. The points
`q1` and `q2` divide the west and the east side of this cell in the ratio given by `j % r`, and the point of the nest
divides the arc from `q1` to `q2` in the ratio given by `i % r`. So the points on the sides of the parent cell lie on its
great circles, at equal distances. -/
theorem C85_points (e : Eps) (hee : 0 < e.e10) (ni nj : Nat) (parent : Nat → LonLat)
    (halo r istart iend jstart jend : Nat) (hr : 1 ≤ r) (hh : 1 ≤ halo)
    (hs : istart ≤ iend ∧ jstart ≤ jend)
    (hcol : ∀ j i, j < nj → i ≤ ni → Apart e.e5 e.e8 (parent (j * (ni + 1) + i)) (parent ((j + 1) * (ni + 1) + i)))
    (g : List (List LonLat)) (hg : setup e ni nj parent halo r istart iend jstart jend false = .ok g)
    (j i : Nat) (hj : j ≤ (jend + 1 - jstart) * r) (hi : i ≤ (iend + 1 - istart) * r) :
    let c := fun a b => parent ((jstart - 1 + j / r + a) * (ni + 1) + (istart - 1 + i / r + b))
    ∃ p q1 q2, nestAt g j i = some p
      ∧ On e.e10 (((j % r : Nat) : ℝ) / r) (c 0 0) (c 1 0) q1 ∧ On e.e10 (((j % r : Nat) : ℝ) / r) (c 0 1) (c 1 1) q2
      ∧ (j % r = 0 → q1 = c 0 0 ∧ q2 = c 0 1) ∧ (i % r = 0 → spherePoint p = spherePoint q1)
      ∧ (i % r = 0 ∨ Apart e.e5 e.e8 q1 q2 → On e.e10 (((i % r : Nat) : ℝ) / r) q1 q2 p) := by
  intro c
  obtain ⟨⟨a1, a2, a3, a4⟩, -, -, hp⟩ := nest_setup hg
  obtain ⟨p, hp1, hp2⟩ := hp j i hj hi
  obtain ⟨j1, j2⟩ := nest_div hr hj
  obtain ⟨i1, i2⟩ := nest_div hr hi
  have hmod : ∀ k : Nat, 0 ≤ ((k % r : Nat) : ℝ) / r ∧ ((k % r : Nat) : ℝ) / r ≤ 1 := by
    intro k
    have h : (k % r : Nat) < r := Nat.mod_lt _ (by omega)
    have h' : ((k % r : Nat) : ℝ) ≤ r := by exact_mod_cast h.le
    have hr0 : (0 : ℝ) < r := by exact_mod_cast hr
    exact ⟨by positivity, (div_le_one hr0).2 h'⟩
  rw [point_eq e parent (by omega) (fun h => by have := j2 h; omega) (by omega) (Or.inl (by omega))] at hp2
  have hmin : min (istart - 1 + i / r + 1) ni = istart - 1 + i / r + 1 := by omega
  dsimp only at hp2
  rw [hmin] at hp2
  have side : ∀ b, b ≤ 1 → ∃ q, (if j % r = 0 then .ok (c 0 b) else slerp e (((j % r : Nat) : ℝ) / r) (c 0 b) (c 1 b)) = .ok q
      ∧ On e.e10 (((j % r : Nat) : ℝ) / r) (c 0 b) (c 1 b) q ∧ (j % r = 0 → q = c 0 b) := by
    intro b hb
    by_cases h : j % r = 0
    · refine ⟨c 0 b, by rw [if_pos h], ?_, fun _ => rfl⟩
      rw [h]
      simp only [Nat.cast_zero, zero_div]
      exact on_start hee _ _
    · obtain ⟨q, h1, h2⟩ := slerp_on (e := e) hee (hcol (jstart - 1 + j / r) (istart - 1 + i / r + b)
        (by have := j2 h; omega) (by omega)) (hmod j).1 (hmod j).2
      exact ⟨q, by rw [if_neg h]; exact h1, h2, fun h' => absurd h' h⟩
  obtain ⟨q1, s1, o1, z1⟩ := side 0 (by omega)
  obtain ⟨q2, s2, o2, z2⟩ := side 1 (by omega)
  refine ⟨p, q1, q2, hp1, o1, o2, fun h => ⟨z1 h, z2 h⟩, ?_⟩
  have s1' : (if j % r = 0 then .ok (parent ((jstart - 1 + j / r) * (ni + 1) + (istart - 1 + i / r)))
      else slerp e (((j % r : Nat) : ℝ) / r) (parent ((jstart - 1 + j / r) * (ni + 1) + (istart - 1 + i / r)))
        (parent ((jstart - 1 + j / r + 1) * (ni + 1) + (istart - 1 + i / r)))) = Except.ok q1 := s1
  have s2' : (if j % r = 0 then .ok (parent ((jstart - 1 + j / r) * (ni + 1) + (istart - 1 + i / r + 1)))
      else slerp e (((j % r : Nat) : ℝ) / r) (parent ((jstart - 1 + j / r) * (ni + 1) + (istart - 1 + i / r + 1)))
        (parent ((jstart - 1 + j / r + 1) * (ni + 1) + (istart - 1 + i / r + 1)))) = Except.ok q2 := s2
  rw [s1', s2'] at hp2
  dsimp only at hp2
  by_cases h : i % r = 0
  · rw [if_pos h] at hp2
    simp at hp2
    subst hp2
    refine ⟨fun _ => wrap_sphere q1, fun _ => ?_⟩
    rw [h]
    simp only [Nat.cast_zero, zero_div]
    exact on_wrap (on_start hee _ _)
  · refine ⟨fun h' => absurd h' h, ?_⟩
    rintro (h' | hap)
    · exact absurd h' h
    · rw [if_neg h] at hp2
      obtain ⟨x, x1, x2⟩ := slerp_on (e := e) hee hap (hmod i).1 (hmod i).2
      rw [x1] at hp2
      simp at hp2
      subst hp2
      exact on_wrap x2

/-- In the parent of the examples the condition on columns holds. -/
theorem nest_example_apart (j i : Nat) (hj : j < 3) (hi : i ≤ 3) : Apart nestEps.e5 nestEps.e8
    ((fun k => if k < 16 then nestParent k else (0, 0)) (j * (3 + 1) + i))
    ((fun k => if k < 16 then nestParent k else (0, 0)) ((j + 1) * (3 + 1) + i)) := by
  have hpi := Real.pi_pos
  dsimp only
  have e1 : (if j * (3 + 1) + i < 16 then nestParent (j * (3 + 1) + i) else (0, 0)) = ((i : ℝ) * (Real.pi / 8), (j : ℝ) * (Real.pi / 8)) := by
    rw [if_pos (by omega)]
    unfold nestParent
    rw [show (j * (3 + 1) + i) % 4 = i by omega, show (j * (3 + 1) + i) / 4 = j by omega]
  have e2 : (if (j + 1) * (3 + 1) + i < 16 then nestParent ((j + 1) * (3 + 1) + i) else (0, 0)) = ((i : ℝ) * (Real.pi / 8), ((j : ℝ) + 1) * (Real.pi / 8)) := by
    rw [if_pos (by omega)]
    unfold nestParent
    rw [show ((j + 1) * (3 + 1) + i) % 4 = i by omega, show ((j + 1) * (3 + 1) + i) / 4 = j + 1 by omega]
    push_cast
    rfl
  rw [e1, e2]
  have ha : angle (spherePoint ((i : ℝ) * (Real.pi / 8), (j : ℝ) * (Real.pi / 8)))
      (spherePoint ((i : ℝ) * (Real.pi / 8), ((j : ℝ) + 1) * (Real.pi / 8))) = Real.pi / 8 := by
    unfold angle
    have : inner3 (spherePoint ((i : ℝ) * (Real.pi / 8), (j : ℝ) * (Real.pi / 8)))
        (spherePoint ((i : ℝ) * (Real.pi / 8), ((j : ℝ) + 1) * (Real.pi / 8))) = Real.cos (Real.pi / 8) := by
      have h := Real.cos_sub (((j : ℝ) + 1) * (Real.pi / 8)) ((j : ℝ) * (Real.pi / 8))
      rw [show ((j : ℝ) + 1) * (Real.pi / 8) - (j : ℝ) * (Real.pi / 8) = Real.pi / 8 by ring] at h
      rw [h]
      unfold inner3 spherePoint
      simp only [Matrix.cons_val_zero, Matrix.cons_val_one, Matrix.cons_val]
      have h2 := Real.sin_sq_add_cos_sq ((i : ℝ) * (Real.pi / 8))
      linear_combination (Real.cos ((j : ℝ) * (Real.pi / 8)) * Real.cos (((j : ℝ) + 1) * (Real.pi / 8))) * h2
    rw [this, Real.arccos_cos (by positivity) (by linarith)]
  refine ⟨?_, ?_, ?_, ?_⟩
  · rintro ⟨-, h⟩
    have : |(j : ℝ) * (Real.pi / 8) - ((j : ℝ) + 1) * (Real.pi / 8)| = Real.pi / 8 := by
      rw [show (j : ℝ) * (Real.pi / 8) - ((j : ℝ) + 1) * (Real.pi / 8) = -(Real.pi / 8) by ring, abs_neg, abs_of_pos (by positivity)]
    dsimp only at h
    rw [this] at h
    have := Real.two_le_pi
    norm_num [nestEps] at h
    linarith
  · rw [ha]
    simp only [nestEps]
    positivity
  · rw [ha]; positivity
  · rw [ha]; linarith

example : ∃ g p q1 q2, setup nestEps 3 3 (fun k => if k < 16 then nestParent k else (0, 0)) 1 3 2 2 2 2 false = .ok g
    ∧ nestAt g 2 0 = some p ∧ On (1 / 10 ^ 10) (2 / 3) (Real.pi / 8, Real.pi / 8) (Real.pi / 8, 2 * (Real.pi / 8)) q1
    ∧ spherePoint p = spherePoint q1 ∧ On (1 / 10 ^ 10) (2 / 3) (2 * (Real.pi / 8), Real.pi / 8) (2 * (Real.pi / 8), 2 * (Real.pi / 8)) q2 := by
  obtain ⟨g, hg⟩ := nest_example
  obtain ⟨p, q1, q2, h1, h2, h3, -, h5, -⟩ := C85_points nestEps (by norm_num [nestEps]) 3 3 _ 1 3 2 2 2 2 (by omega)
    (by omega) (by omega)
    nest_example_apart g hg 2 0 (by omega) (by omega)
  · refine ⟨g, p, q1, q2, hg, h1, ?_, h5 (by omega), ?_⟩
    · simpa [nestParent, nestEps] using h2
    · simpa [nestParent, nestEps] using h3

end Verif
