import Verif.Model.Nest
import Verif.Spec.Nest
import Verif.Props.Rotate
import Mathlib.Tactic.Ring
import Mathlib.Tactic.LinearCombination
import Mathlib.Tactic.FieldSimp
import Mathlib.Tactic.Positivity
import Mathlib.Tactic.FinCases
namespace Verif.Nest

open Verif.Vec3 Verif.CubeGrid Verif.Spec Verif.Spec.Nest

theorem xyz_sphere (p : LonLat) : xyz p = spherePoint p := rfl

theorem sphere_unit (p : LonLat) : OnSphere (spherePoint p) := by
  unfold OnSphere inner3 spherePoint
  simp only [Matrix.cons_val_zero, Matrix.cons_val_one, Matrix.cons_val]
  have h1 := Real.sin_sq_add_cos_sq p.1
  have h2 := Real.sin_sq_add_cos_sq p.2
  linear_combination (Real.cos p.2) ^ 2 * h1 + h2

theorem inner_comm (a b : Fin 3 → ℝ) : inner3 a b = inner3 b a := by
  unfold inner3; ring

theorem angle_comm (a b : Fin 3 → ℝ) : angle a b = angle b a := by
  unfold angle; rw [inner_comm]

theorem inner_range {a b : Fin 3 → ℝ} (ha : OnSphere a) (hb : OnSphere b) : -1 ≤ inner3 a b ∧ inner3 a b ≤ 1 := by
  unfold OnSphere at ha hb
  unfold inner3 at *
  constructor
  · nlinarith [sq_nonneg (a 0 + b 0), sq_nonneg (a 1 + b 1), sq_nonneg (a 2 + b 2)]
  · nlinarith [sq_nonneg (a 0 - b 0), sq_nonneg (a 1 - b 1), sq_nonneg (a 2 - b 2)]

theorem cos_angle {a b : Fin 3 → ℝ} (ha : OnSphere a) (hb : OnSphere b) : Real.cos (angle a b) = inner3 a b :=
  Real.cos_arccos (inner_range ha hb).1 (inner_range ha hb).2

/-- The point at the part `β` of the arc -/
noncomputable def arcPoint (β : ℝ) (a b : Fin 3 → ℝ) : Fin 3 → ℝ := fun k =>
  (Real.sin (β * angle a b) * b k + Real.sin ((1 - β) * angle a b) * a k) / Real.sin (angle a b)

theorem slerp_eq (e : Eps) (β : ℝ) (p q : LonLat) : slerp e β p q =
    if |p.1 - q.1| < e.e8 ∧ |p.2 - q.2| < e.e8 then .ok p
    else if |angle (spherePoint p) (spherePoint q)| < e.e5 then .error .close
    else .ok (toLonLat e.e10 (arcPoint β (spherePoint p) (spherePoint q))) := by
  have h : ∀ p : LonLat, Real.sqrt (xyz p 0 * xyz p 0 + xyz p 1 * xyz p 1 + xyz p 2 * xyz p 2) = 1 := by
    intro p
    rw [xyz_sphere]
    exact norm_sphere (sphere_unit p)
  unfold slerp
  simp only [h, div_one]
  rfl

theorem arcPoint_divides {a b : Fin 3 → ℝ} (ha : OnSphere a) (hb : OnSphere b) {β : ℝ} (h0 : 0 ≤ β) (h1 : β ≤ 1)
    (hpos : 0 < angle a b) (hpi : angle a b < Real.pi) : Divides β a b (arcPoint β a b) := by
  set w := angle a b with hw
  have hs : Real.sin w ≠ 0 := (Real.sin_pos_of_pos_of_lt_pi hpos hpi).ne'
  have hc : Real.cos w = inner3 a b := cos_angle ha hb
  have hadd : Real.sin w = Real.sin (β * w) * Real.cos ((1 - β) * w) + Real.cos (β * w) * Real.sin ((1 - β) * w) := by
    rw [← Real.sin_add]; congr 1; ring
  have hcadd : Real.cos w = Real.cos (β * w) * Real.cos ((1 - β) * w) - Real.sin (β * w) * Real.sin ((1 - β) * w) := by
    rw [← Real.cos_add]; congr 1; ring
  have p1 := Real.sin_sq_add_cos_sq (β * w)
  have p2 := Real.sin_sq_add_cos_sq ((1 - β) * w)
  have e1 : inner3 a (arcPoint β a b) = Real.cos (β * w) := by
    have : inner3 a (arcPoint β a b)
        = (Real.sin (β * w) * inner3 a b + Real.sin ((1 - β) * w) * inner3 a a) / Real.sin w := by
      unfold arcPoint inner3
      rw [← hw]
      ring
    rw [this, div_eq_iff hs, ← hc, show inner3 a a = 1 from ha, hadd, hcadd]
    linear_combination -(Real.sin ((1 - β) * w)) * p1
  have e2 : inner3 (arcPoint β a b) b = Real.cos ((1 - β) * w) := by
    have : inner3 (arcPoint β a b) b
        = (Real.sin (β * w) * inner3 b b + Real.sin ((1 - β) * w) * inner3 a b) / Real.sin w := by
      unfold arcPoint inner3
      rw [← hw]
      ring
    rw [this, div_eq_iff hs, ← hc, show inner3 b b = 1 from hb, hadd, hcadd]
    linear_combination -(Real.sin (β * w)) * p2
  refine ⟨?_, ?_, ?_⟩
  · unfold OnSphere
    have : inner3 (arcPoint β a b) (arcPoint β a b)
        = (Real.sin (β * w) * inner3 (arcPoint β a b) b + Real.sin ((1 - β) * w) * inner3 a (arcPoint β a b)) / Real.sin w := by
      unfold inner3
      simp only [arcPoint]
      rw [← hw]
      ring
    rw [this, e1, e2, div_eq_one_iff_eq hs, hadd]
    ring
  · unfold angle at hw ⊢
    rw [e1, Real.arccos_cos (by positivity) (by nlinarith), hw]
  · unfold angle at hw ⊢
    rw [e2, Real.arccos_cos (mul_nonneg (by linarith) hpos.le) (by nlinarith), hw]

theorem arcPoint_symm (β : ℝ) (a b : Fin 3 → ℝ) : arcPoint β a b = arcPoint (1 - β) b a := by
  funext k
  unfold arcPoint
  rw [angle_comm b a, sub_sub_cancel, add_comm]

theorem slerp_symm {e : Eps} {p q : LonLat} (h : Apart e.e5 e.e8 p q) (β : ℝ) : slerp e β p q = slerp e (1 - β) q p := by
  have h' : ¬(|q.1 - p.1| < e.e8 ∧ |q.2 - p.2| < e.e8) := by
    rw [abs_sub_comm q.1, abs_sub_comm q.2]; exact h.1
  rw [slerp_eq, slerp_eq, if_neg h.1, if_neg h', angle_comm (spherePoint q), arcPoint_symm]

theorem slerp_on {e : Eps} (hee : 0 < e.e10) {p q : LonLat} (h : Apart e.e5 e.e8 p q) {β : ℝ}
    (h0 : 0 ≤ β) (h1 : β ≤ 1) : ∃ x, slerp e β p q = .ok x ∧ On e.e10 β p q x := by
  have hpos : 0 < angle (spherePoint p) (spherePoint q) := h.2.2.1
  refine ⟨toLonLat e.e10 (arcPoint β (spherePoint p) (spherePoint q)), ?_, ?_⟩
  · rw [slerp_eq, if_neg h.1, if_neg]
    rw [abs_of_pos hpos]
    exact not_lt.2 h.2.1
  · have hd := arcPoint_divides (sphere_unit p) (sphere_unit q) h0 h1 hpos h.2.2.2
    refine ⟨_, hd, ?_, ?_⟩
    · by_cases hp : e.e10 ≤ |arcPoint β (spherePoint p) (spherePoint q) 0| + |arcPoint β (spherePoint p) (spherePoint q) 1|
      · rw [(C35_lonlat e.e10 hee _ hd.sphere hp).1]
        unfold dist2 inner3
        simp
        positivity
      · exact C35_lonlat_pole e.e10 _ hd.sphere (not_le.1 hp)
    · intro hp
      exact (C35_lonlat e.e10 hee _ hd.sphere hp).1

theorem on_start {eps : ℝ} (he : 0 < eps) (p q : LonLat) : On eps 0 p q p := by
  refine ⟨spherePoint p, ⟨sphere_unit p, ?_, ?_⟩, ?_, fun _ => rfl⟩
  · unfold angle
    rw [show inner3 (spherePoint p) (spherePoint p) = 1 from sphere_unit p]
    simp
  · ring
  · unfold dist2 inner3
    simp
    positivity

theorem wrap_sphere (p : LonLat) : spherePoint (wrap p) = spherePoint p := by
  have h : ∀ x : ℝ, Real.cos (x - 2 * Real.pi) = Real.cos x ∧ Real.sin (x - 2 * Real.pi) = Real.sin x :=
    fun x => ⟨Real.cos_sub_two_pi x, Real.sin_sub_two_pi x⟩
  have h' : ∀ x : ℝ, Real.cos (x + 2 * Real.pi) = Real.cos x ∧ Real.sin (x + 2 * Real.pi) = Real.sin x :=
    fun x => ⟨Real.cos_add_two_pi x, Real.sin_add_two_pi x⟩
  unfold wrap spherePoint
  dsimp only
  split <;> split <;> simp [h, h']

theorem wrap_id {p : LonLat} (h0 : 0 ≤ p.1) (h1 : p.1 ≤ 2 * Real.pi) : wrap p = p := by
  unfold wrap
  dsimp only
  rw [if_neg (not_lt.2 h1), if_neg (not_lt.2 h0)]

theorem on_wrap {eps β : ℝ} {p q x : LonLat} (h : On eps β p q x) : On eps β p q (wrap x) := by
  unfold On at *
  rwa [wrap_sphere]

/-! mapM -/

theorem mapM_ok {ε α β : Type} {f : α → Except ε β} : ∀ {l : List α} {r : List β}, l.mapM f = .ok r →
    r.length = l.length ∧ ∀ k (h : k < l.length), ∃ b, r[k]? = some b ∧ f l[k] = .ok b := by
  intro l
  induction l with
  | nil =>
    intro r h
    simp [pure, Except.pure] at h
    subst h
    simp
  | cons a l ih =>
    intro r h
    rw [List.mapM_cons] at h
    cases ha : f a with
    | error x => rw [ha] at h; simp [bind, Except.bind] at h
    | ok b =>
      cases hl : l.mapM f with
      | error x => rw [ha, hl] at h; simp [bind, Except.bind] at h
      | ok s =>
        rw [ha, hl] at h
        simp [bind, Except.bind, pure, Except.pure] at h
        subst h
        obtain ⟨h1, h2⟩ := ih hl
        refine ⟨by simp [h1], ?_⟩
        intro k hk
        cases k with
        | zero => exact ⟨b, rfl, ha⟩
        | succ k => simpa using h2 k (by simpa using hk)

theorem mapM_error {ε α β : Type} {f : α → Except ε β} : ∀ {l : List α} {x : ε}, l.mapM f = .error x →
    ∃ a ∈ l, f a = .error x := by
  intro l
  induction l with
  | nil => intro x h; simp [pure, Except.pure] at h
  | cons a l ih =>
    intro x h
    rw [List.mapM_cons] at h
    cases ha : f a with
    | error y =>
      rw [ha] at h
      simp [bind, Except.bind] at h
      exact ⟨a, by simp, by rw [ha, h]⟩
    | ok b =>
      cases hl : l.mapM f with
      | error y =>
        rw [ha, hl] at h
        simp [bind, Except.bind] at h
        subst h
        obtain ⟨c, hc, he⟩ := ih hl
        exact ⟨c, by simp [hc], he⟩
      | ok s =>
        rw [ha, hl] at h
        simp [bind, Except.bind, pure, Except.pure] at h

theorem index_ok {jc npi ic maxI maxJ : Nat} (gr : Bool) (hj : jc ≤ maxJ) (hi : ic ≤ maxI) :
    index jc npi ic maxI maxJ gr = .ok (jc * npi + ic) := by
  unfold index
  rw [if_neg (by omega), if_neg (by omega), if_neg (by omega), if_neg (by omega)]

theorem index_min {jc npi ic maxI maxJ : Nat} {gr : Bool} (hj : jc ≤ maxJ) (hi : ic ≤ maxI ∨ gr = true) :
    index jc npi ic maxI maxJ gr = .ok (jc * npi + min ic maxI) := by
  unfold index
  rw [if_neg (by omega), if_neg (by rintro ⟨h1, h2⟩; rcases hi with h | h; omega; simp [h] at h2), if_neg (by omega)]
  congr 2
  split <;> omega

theorem point_eq (e : Eps) {ni nj : Nat} (parent : Nat → LonLat) {r istart jstart : Nat} {gr : Bool} {j i : Nat}
    (hj : jstart - 1 + j / r ≤ nj) (hj' : j % r ≠ 0 → jstart - 1 + j / r + 1 ≤ nj) (hi : istart - 1 + i / r ≤ ni)
    (hi' : istart - 1 + i / r + 1 ≤ ni ∨ gr = true) :
    point e ni nj parent r istart jstart gr j i =
      (let jc := jstart - 1 + j / r
       let ic := istart - 1 + i / r
       let c := fun j i => parent (j * (ni + 1) + i)
       let side := fun i => if j % r = 0 then .ok (c jc i) else slerp e (((j % r : Nat) : ℝ) / r) (c jc i) (c (jc + 1) i)
       match side ic, side (min (ic + 1) ni) with
       | .ok q1, .ok q2 =>
         (match (if i % r = 0 then .ok q1 else slerp e (((i % r : Nat) : ℝ) / r) q1 q2 : Except Err LonLat) with
          | .ok q => .ok (wrap q)
          | .error x => .error x)
       | .error x, _ => .error x
       | .ok _, .error x => .error x) := by
  unfold point
  dsimp only
  by_cases h : j % r = 0
  · rw [if_pos h, index_ok gr hj hi, index_min hj hi']
    simp only [h, if_true]
    by_cases hm : i % r = 0
    · simp [hm, bind, Except.bind, pure, Except.pure]
    · simp only [hm, if_false, bind, Except.bind, pure, Except.pure]
      split <;> simp_all
  · rw [if_neg h, index_ok gr hj hi, index_min hj hi', index_ok gr (hj' h) hi, index_min (hj' h) hi']
    simp only [h, if_false, bind, Except.bind, pure, Except.pure]
    cases h1 : slerp e (((j % r : Nat) : ℝ) / r) (parent ((jstart - 1 + j / r) * (ni + 1) + (istart - 1 + i / r)))
        (parent ((jstart - 1 + j / r + 1) * (ni + 1) + (istart - 1 + i / r))) with
    | error x => rfl
    | ok q1 =>
      cases h2 : slerp e (((j % r : Nat) : ℝ) / r)
          (parent ((jstart - 1 + j / r) * (ni + 1) + min (istart - 1 + i / r + 1) ni))
          (parent ((jstart - 1 + j / r + 1) * (ni + 1) + min (istart - 1 + i / r + 1) ni)) with
      | error x => rfl
      | ok q2 =>
        dsimp only
        by_cases hm : i % r = 0
        · simp [hm]
        · simp only [hm, if_false]
          split <;> simp_all

end Verif.Nest
