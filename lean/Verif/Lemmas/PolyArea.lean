import Verif.Model.PolyArea
import Verif.Lemmas.Convex
/-
The line integral of -sin(lat) d(lon) along straight sides in the plane of longitude and latitude.
-/
namespace Verif.PolyArea
open Spec
open Verif.Clip

variable {K : Type} [Field K] [LinearOrder K] [IsStrictOrderedRing K]

/-- The integral along one side: `s` is the sine, `c` the cosine. -/
def sph (s c : K → K) (p q : Pt K) : K :=
  if p.2 = q.2 then -((q.1 - p.1) * s p.2) else (q.1 - p.1) * (c q.2 - c p.2) / (q.2 - p.2)

variable (s c : K → K)

theorem sph_slope {p q : Pt K} {x k : K} (hp : p.1 = x + k * p.2) (hq : q.1 = x + k * q.2) :
    sph s c p q = k * (c q.2 - c p.2) := by
  unfold sph
  by_cases h : p.2 = q.2
  · rw [if_pos h, hp, hq, h]; ring
  · rw [if_neg h, hp, hq]
    have : q.2 - p.2 ≠ 0 := sub_ne_zero.2 fun e => h e.symm
    field_simp
    ring

omit [LinearOrder K] [IsStrictOrderedRing K] in
/-- Three points on a line are at one latitude or have the longitude as a function of the latitude. -/
theorem onLine_cases {p q r : Pt K} (h : OnLine p q r) :
    (p.2 = q.2 ∧ q.2 = r.2) ∨ ∃ x k, p.1 = x + k * p.2 ∧ q.1 = x + k * q.2 ∧ r.1 = x + k * r.2 := by
  unfold OnLine at h
  by_cases h1 : q.2 = p.2
  · by_cases h2 : r.2 = p.2
    · exact Or.inl ⟨h1.symm, h1.trans h2.symm⟩
    · right
      have d : r.2 - p.2 ≠ 0 := sub_ne_zero.2 h2
      refine ⟨p.1 - (r.1 - p.1) / (r.2 - p.2) * p.2, (r.1 - p.1) / (r.2 - p.2), by ring, ?_, ?_⟩
      · have : (q.1 - p.1) * (r.2 - p.2) = 0 := by rw [h1] at h; linear_combination h
        have : q.1 - p.1 = 0 := (mul_eq_zero.1 this).resolve_right d
        rw [h1]
        linear_combination this
      · field_simp
        ring
  · right
    have d : q.2 - p.2 ≠ 0 := sub_ne_zero.2 h1
    refine ⟨p.1 - (q.1 - p.1) / (q.2 - p.2) * p.2, (q.1 - p.1) / (q.2 - p.2), by ring, ?_, ?_⟩
    · field_simp
      ring
    · field_simp
      linear_combination -h

theorem sph_additive : Additive (sph s c) := by
  intro p q r h
  rcases onLine_cases h with ⟨h1, h2⟩ | ⟨x, k, hp, hq, hr⟩
  · unfold sph
    rw [if_pos h1, if_pos h2, if_pos (h1.trans h2), h1]
    ring
  · rw [sph_slope s c hp hq, sph_slope s c hq hr, sph_slope s c hp hr]
    ring

/-- Latitudes on which `s` increases and is the slope of `-c`. -/
def Mean (D : K → Prop) : Prop :=
  ∀ a b, D a → D b → a < b → s a * (b - a) ≤ c a - c b ∧ c a - c b ≤ s b * (b - a)

/-- A triangle with one side along a parallel. -/
theorem tri_level {p q w : Pt K} (hw : w.2 = q.2) (h : p.2 ≠ q.2) :
    (sph s c p q + sph s c q w + sph s c w p) * (q.2 - p.2) =
      (q.1 - w.1) * (s q.2 * (q.2 - p.2) - (c p.2 - c q.2)) := by
  have d : q.2 - p.2 ≠ 0 := sub_ne_zero.2 fun e => h e.symm
  have d' : p.2 - q.2 ≠ 0 := sub_ne_zero.2 h
  unfold sph
  rw [if_neg h, if_pos hw.symm, if_neg (by rw [hw]; exact fun e => h e.symm), hw]
  have e : (p.1 - w.1) * (c p.2 - c q.2) / (p.2 - q.2) = (p.1 - w.1) * (c q.2 - c p.2) / (q.2 - p.2) := by
    rw [div_eq_div_iff d' d]; ring
  rw [e]
  field_simp
  ring

variable {s c}

/-- The triangle between the vertex `p` and the parallel through `q`, with the sign of its orientation
(`u` is the latitude of the third vertex, beyond the parallel). -/
theorem tri_level_nonneg {D : K → Prop} (hm : Mean s c D) {p q w : Pt K} (hp : D p.2) (hq : D q.2)
    (hw : w.2 = q.2) (ho : 0 ≤ (q.1 - w.1) * (q.2 - p.2)) :
    0 ≤ sph s c p q + sph s c q w + sph s c w p := by
  by_cases h : p.2 = q.2
  · unfold sph
    rw [if_pos h, if_pos hw.symm, if_pos (hw.trans h.symm), hw, h]
    exact le_of_eq (by ring)
  · have key := tri_level s c hw h
    rcases lt_or_gt_of_ne h with hlt | hgt
    · have := (hm p.2 q.2 hp hq hlt).2
      have d : 0 < q.2 - p.2 := sub_pos.2 hlt
      have hx : 0 ≤ q.1 - w.1 := nonneg_of_mul_nonneg_left ho d
      have : 0 ≤ (sph s c p q + sph s c q w + sph s c w p) * (q.2 - p.2) := by
        rw [key]; exact mul_nonneg hx (by linarith)
      exact nonneg_of_mul_nonneg_left this d
    · have := (hm q.2 p.2 hq hp hgt).1
      have d : 0 < p.2 - q.2 := sub_pos.2 hgt
      have hx : 0 ≤ w.1 - q.1 := by
        have : 0 ≤ (w.1 - q.1) * (p.2 - q.2) := by
          rw [show (w.1 - q.1) * (p.2 - q.2) = (q.1 - w.1) * (q.2 - p.2) by ring]; exact ho
        exact nonneg_of_mul_nonneg_left this d
      have : 0 ≤ (sph s c p q + sph s c q w + sph s c w p) * (p.2 - q.2) := by
        have e : (sph s c p q + sph s c q w + sph s c w p) * (p.2 - q.2) =
            (w.1 - q.1) * (s q.2 * (q.2 - p.2) - (c p.2 - c q.2)) := by linear_combination -key
        rw [e]
        refine mul_nonneg hx ?_
        linarith
      exact nonneg_of_mul_nonneg_left this d

/-- The case where `q` is at the middle latitude. -/
theorem tri_mid {D : K → Prop} (hm : Mean s c D) {p q r : Pt K} (hp : D p.2) (hq : D q.2) (hr : D r.2)
    (ho : 0 ≤ orient p q r) (hmid : (p.2 ≤ q.2 ∧ q.2 ≤ r.2) ∨ (r.2 ≤ q.2 ∧ q.2 ≤ p.2)) :
    0 ≤ sph s c p q + sph s c q r + sph s c r p := by
  have hE := sph_additive s c
  have anti : ∀ a b : Pt K, sph s c a b + sph s c b a = 0 := by
    intro a b
    have := hE a b a (by unfold OnLine; ring)
    rw [additive_self hE] at this
    exact this
  by_cases h : p.2 = r.2
  · have e1 : p.2 = q.2 := by
      rcases hmid with ⟨a, b⟩ | ⟨a, b⟩
      · exact le_antisymm a (h ▸ b)
      · exact le_antisymm (h ▸ a) b
    have := hE p q r (by unfold OnLine; rw [← h, ← e1]; ring)
    have h2 := anti p r
    linarith
  · have d : r.2 - p.2 ≠ 0 := sub_ne_zero.2 fun e => h e.symm
    obtain ⟨w, hwd⟩ : ∃ w, w = lerp p r ((q.2 - p.2) / (r.2 - p.2)) := ⟨_, rfl⟩
    have hw2 : w.2 = q.2 := by rw [hwd]; unfold lerp; field_simp; ring
    have hline : OnLine r w p := by rw [hwd]; unfold OnLine lerp; ring
    have hor : orient p q r = (q.1 - w.1) * (r.2 - p.2) := by
      rw [hwd]; unfold orient lerp; field_simp; ring
    have e1 := hE r w p hline
    have e2 := anti q w
    have hsum : sph s c p q + sph s c q r + sph s c r p =
        (sph s c p q + sph s c q w + sph s c w p) + (sph s c r w + sph s c w q + sph s c q r) := by
      linear_combination -e1 - e2
    rw [hsum]
    have hx : (0 ≤ q.1 - w.1 ∧ p.2 ≤ q.2 ∧ q.2 ≤ r.2) ∨ (q.1 - w.1 ≤ 0 ∧ r.2 ≤ q.2 ∧ q.2 ≤ p.2) := by
      rcases hmid with ⟨a, b⟩ | ⟨a, b⟩
      · left
        have : 0 < r.2 - p.2 := lt_of_le_of_ne (by linarith) (Ne.symm d)
        rw [hor] at ho
        exact ⟨nonneg_of_mul_nonneg_left ho this, a, b⟩
      · right
        have : 0 < p.2 - r.2 := lt_of_le_of_ne (by linarith) (by intro e; apply d; linarith)
        have h2 : 0 ≤ (w.1 - q.1) * (p.2 - r.2) := by
          rw [hor] at ho
          linarith
        have := nonneg_of_mul_nonneg_left h2 this
        exact ⟨by linarith, a, b⟩
    have t1 : 0 ≤ sph s c p q + sph s c q w + sph s c w p := by
      refine tri_level_nonneg hm hp hq hw2 ?_
      rcases hx with ⟨x, a, b⟩ | ⟨x, a, b⟩
      · exact mul_nonneg x (by linarith)
      · exact mul_nonneg_of_nonpos_of_nonpos x (by linarith)
    have t2 : 0 ≤ sph s c r w + sph s c w q + sph s c q r := by
      have hw' : D w.2 := hw2 ▸ hq
      refine tri_level_nonneg hm hr hw' hw2.symm ?_
      rw [hw2]
      rcases hx with ⟨x, a, b⟩ | ⟨x, a, b⟩
      · exact mul_nonneg_of_nonpos_of_nonpos (by linarith) (by linarith)
      · exact mul_nonneg (by linarith) (by linarith)
    linarith

theorem tri_nonneg {D : K → Prop} (hm : Mean s c D) (p q r : Pt K) (hp : D p.2) (hq : D q.2) (hr : D r.2)
    (ho : 0 ≤ orient p q r) : 0 ≤ sph s c p q + sph s c q r + sph s c r p := by
  have o1 : orient q r p = orient p q r := by unfold orient; ring
  have o2 : orient r p q = orient p q r := by unfold orient; ring
  have c1 := tri_mid (p := p) (q := q) (r := r) hm hp hq hr ho
  have c2 := tri_mid (p := q) (q := r) (r := p) hm hq hr hp (by rw [o1]; exact ho)
  have c3 := tri_mid (p := r) (q := p) (r := q) hm hr hp hq (by rw [o2]; exact ho)
  rcases le_total p.2 q.2 with a | a <;> rcases le_total q.2 r.2 with b | b <;> rcases le_total p.2 r.2 with d | d
  · exact c1 (Or.inl ⟨a, b⟩)
  · exact c1 (Or.inl ⟨a, b⟩)
  · have := c2 (Or.inr ⟨d, b⟩); linarith
  · have := c3 (Or.inl ⟨d, a⟩); linarith
  · have := c3 (Or.inr ⟨a, d⟩); linarith
  · have := c2 (Or.inl ⟨b, d⟩); linarith
  · exact c1 (Or.inr ⟨b, a⟩)
  · exact c1 (Or.inr ⟨b, a⟩)

/-- The integral around a convex polygon is not negative. -/
theorem cyc_sph_nonneg {D : K → Prop} (hm : Mean s c D) (l : List (Pt K)) (hD : ∀ p ∈ l, D p.2) (h : Convex l) :
    0 ≤ cyc (sph s c) l :=
  cyc_nonneg (sph_additive s c) (fun p => D p.2) (fun p q r hp hq hr ho => tri_nonneg hm p q r hp hq hr ho) l hD h

/-! ### The sum in the code -/

omit [LinearOrder K] [IsStrictOrderedRing K] in
theorem foldl_sum (E : Pt K → Pt K → K) (l : List (Pt K × Pt K)) (a : K) :
    l.foldl (fun acc s => acc + E s.1 s.2) a = a + (l.map fun s => E s.1 s.2).sum := by
  induction l generalizing a with
  | nil => simp
  | cons x l ih => rw [List.foldl_cons, ih, List.map_cons, List.sum_cons]; ring

omit [LinearOrder K] [IsStrictOrderedRing K] in
/-- The sides of the loop are the edges of the polygon, in another order. -/
theorem sides_sum (E : Pt K → Pt K → K) (l : List (Pt K)) :
    (sides l).foldl (fun acc s => acc + E s.1 s.2) 0 = cyc E l := by
  rw [foldl_sum, zero_add]
  cases l with
  | nil => rfl
  | cons a t =>
    have gen : ∀ (t : List (Pt K)) (a z : Pt K),
        (((a :: t).zip (t ++ [z])).map fun s => E s.1 s.2).sum = path E a t + E (t.getLastD a) z := by
      intro t
      induction t with
      | nil => intro a z; simp [path]
      | cons b t ih =>
        intro a z
        rw [List.cons_append, List.zip_cons_cons, List.map_cons, List.sum_cons, ih, List.getLastD_cons]
        simp only [path]
        ring
    have hz : (a :: t).getLast? = some (t.getLastD a) := by
      rw [List.getLast?_cons, List.getLastD_eq_getLast?]
    unfold sides cyc
    rw [hz]
    simp only [List.tail_cons, List.head?_cons, Option.toList, path]
    rw [gen]
    ring

end Verif.PolyArea
