import Verif.Model.Clip
import Verif.Spec.Clip
import Mathlib.Tactic.Ring
import Mathlib.Tactic.FieldSimp
import Mathlib.Tactic.Linarith
import Mathlib.Tactic.LinearCombination
/-
Lemmas about the passes of polygon clipping.
-/
namespace Verif.Clip
open Spec
variable {K : Type} [Field K] [LinearOrder K]

/-! ### Any pass -/

section any
variable (inside : Pt K → Bool) (cross : Pt K → Pt K → Pt K)

theorem go_congr {inside' : Pt K → Bool} {cross' : Pt K → Pt K → Pt K} (hi : ∀ p, inside p = inside' p)
    (hc : ∀ p v, inside v ≠ inside p → cross p v = cross' p v) :
    ∀ (l : List (Pt K)) (p : Pt K), go inside cross p l = go inside' cross' p l := by
  intro l
  induction l with
  | nil => intro p; rfl
  | cons v vs ih =>
    intro p
    unfold go
    rw [ih, ← hi v, ← hi p]
    congr 2
    split
    · rename_i h; rw [hc p v h]
    · rfl

theorem pass_congr {inside' : Pt K → Bool} {cross' : Pt K → Pt K → Pt K} (hi : ∀ p, inside p = inside' p)
    (hc : ∀ p v, inside v ≠ inside p → cross p v = cross' p v) (l : List (Pt K)) :
    pass inside cross l = pass inside' cross' l := by
  unfold pass
  cases l.getLast? with
  | none => rfl
  | some z => exact go_congr inside cross hi hc l z

theorem pass_nil : pass inside cross [] = [] := rfl

/-- A property of vertices that holds for the input, and for crossings of edges it holds for. -/
theorem go_forall (P : Pt K → Prop) (hc : ∀ p v, P p → P v → inside v ≠ inside p → P (cross p v)) :
    ∀ (l : List (Pt K)) (p : Pt K), P p → (∀ q ∈ l, P q) → ∀ q ∈ go inside cross p l, P q := by
  intro l
  induction l with
  | nil => intro p _ _ q hq; cases hq
  | cons v vs ih =>
    intro p hp hl q hq
    unfold go at hq
    have hv := hl v (by simp)
    rcases List.mem_append.1 hq with hq | hq
    · rcases List.mem_append.1 hq with hq | hq
      · split at hq
        · rename_i h
          rw [List.mem_singleton.1 hq]
          exact hc p v hp hv h
        · cases hq
      · split at hq
        · rw [List.mem_singleton.1 hq]; exact hv
        · cases hq
    · exact ih v hv (fun q hq => hl q (List.mem_cons_of_mem _ hq)) q hq

theorem pass_forall (P : Pt K → Prop) (hc : ∀ p v, P p → P v → inside v ≠ inside p → P (cross p v))
    (l : List (Pt K)) (hl : ∀ q ∈ l, P q) : ∀ q ∈ pass inside cross l, P q := by
  intro q hq
  unfold pass at hq
  cases hz : l.getLast? with
  | none => rw [hz] at hq; cases hq
  | some z =>
    rw [hz] at hq
    exact go_forall inside cross P hc l z (hl z (List.mem_of_getLast? hz)) hl q hq

/-- All vertices after the pass satisfy `P` if the inside ones and the crossings do. -/
theorem go_inside (P : Pt K → Prop) (hi : ∀ p, inside p = true → P p)
    (hc : ∀ p v, inside v ≠ inside p → P (cross p v)) :
    ∀ (l : List (Pt K)) (p : Pt K), ∀ q ∈ go inside cross p l, P q := by
  intro l
  induction l with
  | nil => intro p q hq; cases hq
  | cons v vs ih =>
    intro p q hq
    unfold go at hq
    rcases List.mem_append.1 hq with hq | hq
    · rcases List.mem_append.1 hq with hq | hq
      · split at hq
        · rename_i h
          rw [List.mem_singleton.1 hq]
          exact hc p v h
        · cases hq
      · split at hq
        · rename_i h
          rw [List.mem_singleton.1 hq]; exact hi v h
        · cases hq
    · exact ih v q hq

theorem pass_inside (P : Pt K → Prop) (hi : ∀ p, inside p = true → P p)
    (hc : ∀ p v, inside v ≠ inside p → P (cross p v)) (l : List (Pt K)) :
    ∀ q ∈ pass inside cross l, P q := by
  intro q hq
  unfold pass at hq
  cases hz : l.getLast? with
  | none => rw [hz] at hq; cases hq
  | some z =>
    rw [hz] at hq
    exact go_inside inside cross P hi hc l z q hq

/-- A polygon inside is returned unchanged. -/
theorem pass_id (l : List (Pt K)) (h : ∀ p ∈ l, inside p = true) : pass inside cross l = l := by
  have gen : ∀ (l : List (Pt K)) (p : Pt K), inside p = true → (∀ p ∈ l, inside p = true) →
      go inside cross p l = l := by
    intro l
    induction l with
    | nil => intro p _ _; rfl
    | cons v vs ih =>
      intro p hp hl
      have hv := hl v (by simp)
      unfold go
      rw [ih v hv fun q hq => hl q (List.mem_cons_of_mem _ hq), hv, hp]
      simp
  unfold pass
  cases hz : l.getLast? with
  | none => rw [List.getLast?_eq_none_iff] at hz; rw [hz]
  | some z => exact gen l z (h z (List.mem_of_getLast? hz)) h

/-- A polygon outside gives nothing. -/
theorem pass_empty (l : List (Pt K)) (h : ∀ p ∈ l, inside p = false) : pass inside cross l = [] := by
  have gen : ∀ (l : List (Pt K)) (p : Pt K), inside p = false → (∀ p ∈ l, inside p = false) →
      go inside cross p l = [] := by
    intro l
    induction l with
    | nil => intro p _ _; rfl
    | cons v vs ih =>
      intro p hp hl
      have hv := hl v (by simp)
      unfold go
      rw [ih v hv fun q hq => hl q (List.mem_cons_of_mem _ hq), hv, hp]
      simp
  unfold pass
  cases hz : l.getLast? with
  | none => rfl
  | some z => exact gen l z (h z (List.mem_of_getLast? hz)) h

/-- A pass gives at most half as many vertices more. -/
theorem pass_length (l : List (Pt K)) : 2 * (pass inside cross l).length ≤ 3 * l.length := by
  have gen : ∀ (l : List (Pt K)) (p : Pt K),
      2 * (go inside cross p l).length + (if inside (l.getLastD p) then 0 else 1) ≤
        3 * l.length + (if inside p then 0 else 1) := by
    intro l
    induction l with
    | nil => intro p; simp [go]
    | cons v vs ih =>
      intro p
      unfold go
      have := ih v
      rw [List.getLastD_cons, List.length_append, List.length_append, List.length_cons]
      cases hv : inside v <;> cases hp : inside p <;> simp [hv] at this ⊢ <;> omega
  unfold pass
  cases hz : l.getLast? with
  | none => simp
  | some z =>
    have := gen l z
    have e : l.getLastD z = z := by
      rw [List.getLastD_eq_getLast?, hz]; rfl
    rw [e] at this
    simp only []
    omega

/-! ### Sums over the edges -/

/-- The part of an edge that is inside. -/
def inPart (E : Pt K → Pt K → K) (p v : Pt K) : K :=
  if inside p then (if inside v then E p v else E p (cross p v))
  else (if inside v then E (cross p v) v else 0)

/-- `e` is the last vertex put out when `p` was the last vertex seen. -/
def State (L : Pt K → Prop) (p e : Pt K) : Prop := (inside p = true → e = p) ∧ (inside p = false → L e)

theorem State.of_in {L : Pt K → Prop} {p : Pt K} (h : inside p = true) : State inside L p p :=
  ⟨fun _ => rfl, fun e => absurd (h.symm.trans e) (by simp)⟩

theorem State.of_out {L : Pt K → Prop} {p e : Pt K} (h : inside p = false) (he : L e) : State inside L p e :=
  ⟨fun e => absurd (h.symm.trans e) (by simp), fun _ => he⟩

variable {inside} in
theorem go_ii {p v : Pt K} (hp : inside p = true) (hv : inside v = true) (vs : List (Pt K)) :
    go inside cross p (v :: vs) = v :: go inside cross v vs := by
  conv_lhs => unfold go
  simp [hp, hv]

variable {inside} in
theorem go_io {p v : Pt K} (hp : inside p = true) (hv : inside v = false) (vs : List (Pt K)) :
    go inside cross p (v :: vs) = cross p v :: go inside cross v vs := by
  conv_lhs => unfold go
  simp [hp, hv]

variable {inside} in
theorem go_oi {p v : Pt K} (hp : inside p = false) (hv : inside v = true) (vs : List (Pt K)) :
    go inside cross p (v :: vs) = cross p v :: v :: go inside cross v vs := by
  conv_lhs => unfold go
  simp [hp, hv]

variable {inside} in
theorem go_oo {p v : Pt K} (hp : inside p = false) (hv : inside v = false) (vs : List (Pt K)) :
    go inside cross p (v :: vs) = go inside cross v vs := by
  conv_lhs => unfold go
  simp [hp, hv]

theorem go_state (L : Pt K → Prop) (hc : ∀ p v, inside v ≠ inside p → L (cross p v)) :
    ∀ (l : List (Pt K)) (p e : Pt K), State inside L p e →
      State inside L (l.getLastD p) ((go inside cross p l).getLastD e) := by
  intro l
  induction l with
  | nil => intro p e h; exact h
  | cons v vs ih =>
    intro p e h
    rw [List.getLastD_cons]
    cases hv : inside v <;> cases hp : inside p
    · rw [go_oo cross hp hv]
      exact ih v e (State.of_out inside hv (h.2 hp))
    · rw [go_io cross hp hv, List.getLastD_cons]
      exact ih v _ (State.of_out inside hv (hc p v (by rw [hv, hp]; simp)))
    · rw [go_oi cross hp hv, List.getLastD_cons, List.getLastD_cons]
      exact ih v _ (State.of_in inside hv)
    · rw [go_ii cross hp hv, List.getLastD_cons]
      exact ih v _ (State.of_in inside hv)

theorem path_go (L : Pt K → Prop) (E : Pt K → Pt K → K) (hL : ∀ p q, L p → L q → E p q = 0)
    (hc : ∀ p v, inside v ≠ inside p → L (cross p v)) :
    ∀ (l : List (Pt K)) (p e : Pt K), State inside L p e →
      path E e (go inside cross p l) = path (inPart inside cross E) p l := by
  intro l
  induction l with
  | nil => intro p e _; rfl
  | cons v vs ih =>
    intro p e h
    show _ = inPart inside cross E p v + path (inPart inside cross E) v vs
    cases hv : inside v <;> cases hp : inside p
    · rw [go_oo cross hp hv, ih v e (State.of_out inside hv (h.2 hp))]
      simp [inPart, hp, hv]
    · rw [go_io cross hp hv]
      show E e _ + path E _ _ = _
      rw [ih v _ (State.of_out inside hv (hc p v (by rw [hv, hp]; simp))), h.1 hp]
      simp [inPart, hp, hv]
    · rw [go_oi cross hp hv]
      show E e _ + (E _ v + path E _ _) = _
      rw [ih v _ (State.of_in inside hv), hL _ _ (h.2 hp) (hc p v (by rw [hv, hp]; simp)), zero_add]
      simp [inPart, hp, hv]
    · rw [go_ii cross hp hv]
      show E e v + path E _ _ = _
      rw [ih v _ (State.of_in inside hv), h.1 hp]
      simp [inPart, hp, hv]

/-- The sum over the clipped polygon is the sum over the inner parts of the edges, for sums that vanish
on the clipping line. -/
theorem cyc_pass (L : Pt K → Prop) (E : Pt K → Pt K → K) (hL : ∀ p q, L p → L q → E p q = 0)
    (hc : ∀ p v, inside v ≠ inside p → L (cross p v)) (o : Pt K) (ho : L o) (l : List (Pt K)) :
    cyc E (pass inside cross l) = cyc (inPart inside cross E) l := by
  unfold cyc pass
  cases hz : l.getLast? with
  | none => rfl
  | some z =>
    simp only []
    have hlast : l.getLastD z = z := by rw [List.getLastD_eq_getLast?, hz]; rfl
    -- a valid state to begin with
    obtain ⟨e0, he0⟩ : ∃ e0, State inside L z e0 := by
      cases h : inside z
      · exact ⟨o, State.of_out inside h ho⟩
      · exact ⟨z, State.of_in inside h⟩
    cases hg : (go inside cross z l).getLast? with
    | none =>
      rw [List.getLast?_eq_none_iff] at hg
      have := path_go inside cross L E hL hc l z e0 he0
      rw [hg] at this
      exact this
    | some e =>
      have hst := go_state inside cross L hc l z e0 he0
      rw [hlast, List.getLastD_eq_getLast?, hg] at hst
      exact path_go inside cross L E hL hc l z e hst

end any

section sums
variable (E F : Pt K → Pt K → K)

omit [LinearOrder K] in
theorem path_congr (h : ∀ p q, E p q = F p q) (l : List (Pt K)) (p : Pt K) : path E p l = path F p l := by
  have : E = F := funext fun p => funext fun q => h p q
  rw [this]

omit [LinearOrder K] in
theorem cyc_congr (h : ∀ p q, E p q = F p q) (l : List (Pt K)) : cyc E l = cyc F l := by
  have : E = F := funext fun p => funext fun q => h p q
  rw [this]

omit [LinearOrder K] in
theorem path_add (l : List (Pt K)) (p : Pt K) : path (fun p q => E p q + F p q) p l = path E p l + path F p l := by
  induction l generalizing p with
  | nil => simp [path]
  | cons v vs ih => simp only [path]; rw [ih]; ring

omit [LinearOrder K] in
theorem cyc_add (l : List (Pt K)) : cyc (fun p q => E p q + F p q) l = cyc E l + cyc F l := by
  unfold cyc
  cases l.getLast? with
  | none => simp
  | some z => exact path_add E F l z

omit [LinearOrder K] in
theorem path_diff (φ : Pt K → K) (l : List (Pt K)) (p : Pt K) :
    path (fun p q => E p q - (φ q - φ p)) p l = path E p l - (φ (l.getLastD p) - φ p) := by
  induction l generalizing p with
  | nil => simp [path]
  | cons v vs ih => simp only [path]; rw [ih, List.getLastD_cons]; ring

omit [LinearOrder K] in
/-- A difference of a function at the two ends contributes nothing to a closed polygon. -/
theorem cyc_diff (φ : Pt K → K) (l : List (Pt K)) :
    cyc (fun p q => E p q - (φ q - φ p)) l = cyc E l := by
  unfold cyc
  cases hz : l.getLast? with
  | none => rfl
  | some z =>
    simp only []
    rw [path_diff, List.getLastD_eq_getLast?, hz]
    simp

omit [LinearOrder K] in
theorem cyc_zero (h : ∀ p q, E p q = 0) (l : List (Pt K)) : cyc E l = 0 := by
  have gen : ∀ (l : List (Pt K)) p, path E p l = 0 := by
    intro l
    induction l with
    | nil => intro p; rfl
    | cons v vs ih => intro p; simp only [path]; rw [h, ih, zero_add]
  unfold cyc
  cases l.getLast? with
  | none => rfl
  | some z => exact gen l z

omit [LinearOrder K] in
/-- Only edges between vertices of the polygon matter. -/
theorem cyc_congr_mem (P : Pt K → Prop) (l : List (Pt K)) (hl : ∀ p ∈ l, P p)
    (h : ∀ p q, P p → P q → E p q = F p q) : cyc E l = cyc F l := by
  have gen : ∀ (l : List (Pt K)) p, P p → (∀ p ∈ l, P p) → path E p l = path F p l := by
    intro l
    induction l with
    | nil => intro p _ _; rfl
    | cons v vs ih =>
      intro p hp hl
      simp only [path]
      rw [h p v hp (hl v (by simp)), ih v (hl v (by simp)) fun q hq => hl q (List.mem_cons_of_mem _ hq)]
  unfold cyc
  cases hz : l.getLast? with
  | none => rfl
  | some z => exact gen l z (hl z (List.mem_of_getLast? hz)) hl

end sums

/-! ### Half-planes -/

/-- The point at `t` between `p` and `v`. -/
def lerp (p v : Pt K) (t : K) : Pt K := (p.1 + t * (v.1 - p.1), p.2 + t * (v.2 - p.2))

/-- An affine function on the plane. -/
def lin (α β γ : K) (p : Pt K) : K := α * p.1 + β * p.2 + γ

/-- The half-plane where the function is at least `c`. -/
def geIn (f : Pt K → K) (c : K) (p : Pt K) : Bool := decide (c ≤ f p)

/-- The point of the line through `p` and `v` where the function is `c`. -/
def gcross (f : Pt K → K) (c : K) (p v : Pt K) : Pt K := lerp p v ((c - f p) / (f v - f p))

/-- Affine functions. -/
def IsLin (f : Pt K → K) : Prop := ∀ p v t, f (lerp p v t) = f p + t * (f v - f p)

omit [LinearOrder K] in
theorem isLin_lin (α β γ : K) : IsLin (lin α β γ) := by
  intro p v t; unfold lin lerp; ring

omit [LinearOrder K] in
theorem IsLin.neg {f : Pt K → K} (h : IsLin f) : IsLin fun p => -f p := by
  intro p v t; beta_reduce; rw [h]; ring

omit [LinearOrder K] in
theorem f_gcross {f : Pt K → K} (hf : IsLin f) (c : K) {p v : Pt K} (h : f v ≠ f p) : f (gcross f c p v) = c := by
  have : f v - f p ≠ 0 := sub_ne_zero.2 h
  unfold gcross
  rw [hf]
  field_simp
  ring

omit [LinearOrder K] in
theorem onLine_lerp (p v : Pt K) (t : K) : OnLine p (lerp p v t) v := by
  unfold OnLine lerp; ring

omit [LinearOrder K] in
theorem gcross_neg (f : Pt K → K) (c : K) (p v : Pt K) : gcross (fun p => -f p) (-c) p v = gcross f c p v := by
  unfold gcross
  congr 1
  rw [show -c - -f p = -(c - f p) by ring, show -f v - -f p = -(f v - f p) by ring, neg_div_neg_eq]

theorem geIn_ne {f : Pt K → K} {c : K} {p v : Pt K} (h : geIn f c v ≠ geIn f c p) : f v ≠ f p := by
  intro e
  apply h
  unfold geIn
  rw [e]

/-- Clipping to the half-plane. -/
def gpass (f : Pt K → K) (c : K) (l : List (Pt K)) : List (Pt K) := pass (geIn f c) (gcross f c) l

omit [LinearOrder K] in
/-- Crossing a second line of the family, seen from the crossing with the first. -/
theorem gcross_to {f : Pt K → K} (hf : IsLin f) (a b : K) {p v : Pt K} (h1 : f v ≠ f p) (h2 : a ≠ f p) :
    gcross f b p (gcross f a p v) = gcross f b p v := by
  have e := f_gcross hf a h1
  have d1 : f v - f p ≠ 0 := sub_ne_zero.2 h1
  have d2 : a - f p ≠ 0 := sub_ne_zero.2 h2
  unfold gcross at e ⊢
  rw [e]
  unfold lerp
  ext
  · simp only []; field_simp; ring
  · simp only []; field_simp; ring

omit [LinearOrder K] in
theorem gcross_from {f : Pt K → K} (hf : IsLin f) (a b : K) {p v : Pt K} (h1 : f v ≠ f p) (h2 : a ≠ f v) :
    gcross f b (gcross f a p v) v = gcross f b p v := by
  have e := f_gcross hf a h1
  have d1 : f v - f p ≠ 0 := sub_ne_zero.2 h1
  have d2 : f v - a ≠ 0 := sub_ne_zero.2 fun e => h2 e.symm
  unfold gcross at e ⊢
  rw [e]
  unfold lerp
  ext
  · simp only []; field_simp; ring
  · simp only []; field_simp; ring

section additive
variable {E : Pt K → Pt K → K}

omit [LinearOrder K] in
theorem additive_self (hE : Additive E) (p : Pt K) : E p p = 0 := by
  have := hE p p p (by unfold OnLine; ring)
  linear_combination this

/-- `E` made to vanish on the line through `o`. -/
def flat (E : Pt K → Pt K → K) (o : Pt K) (p q : Pt K) : K := E p q - (E o q - E o p)

omit [LinearOrder K] in
theorem cyc_flat (o : Pt K) (l : List (Pt K)) : cyc (flat E o) l = cyc E l := cyc_diff E (fun p => E o p) l

omit [LinearOrder K] in
theorem flat_add (hE : Additive E) (o : Pt K) {p q r : Pt K} (h : OnLine p q r) :
    flat E o p q + flat E o q r = flat E o p r := by
  unfold flat
  have := hE p q r h
  linear_combination this

end additive

variable [IsStrictOrderedRing K]

/-- Points where a not constant affine function has the same value are on a line. -/
theorem onLine_of_level {α β γ : K} (h : α ≠ 0 ∨ β ≠ 0) {o p q : Pt K} (h1 : lin α β γ p = lin α β γ o)
    (h2 : lin α β γ q = lin α β γ o) : OnLine o p q := by
  unfold lin at h1 h2
  unfold OnLine
  have e1 : α * (p.1 - o.1) = -(β * (p.2 - o.2)) := by linear_combination h1
  have e2 : α * (q.1 - o.1) = -(β * (q.2 - o.2)) := by linear_combination h2
  rcases h with h | h
  · apply mul_left_cancel₀ h
    linear_combination (q.2 - o.2) * e1 - (p.2 - o.2) * e2
  · apply mul_left_cancel₀ h
    linear_combination (-(q.1 - o.1)) * e1 + (p.1 - o.1) * e2 

theorem flat_level {α β γ : K} (h : α ≠ 0 ∨ β ≠ 0) {E : Pt K → Pt K → K} (hE : Additive E) {o p q : Pt K}
    (h1 : lin α β γ p = lin α β γ o) (h2 : lin α β γ q = lin α β γ o) : flat E o p q = 0 := by
  unfold flat
  have := hE o p q (onLine_of_level h h1 h2)
  linear_combination this

/-- A not constant affine function takes every value. -/
theorem exists_level {α β : K} (γ : K) (h : α ≠ 0 ∨ β ≠ 0) (c : K) : ∃ o : Pt K, lin α β γ o = c := by
  rcases h with h | h
  · refine ⟨((c - γ) / α, 0), ?_⟩
    unfold lin; field_simp; ring
  · refine ⟨(0, (c - γ) / β), ?_⟩
    unfold lin; field_simp; ring

section halfplane
variable {α β γ : K} (hab : α ≠ 0 ∨ β ≠ 0) {E : Pt K → Pt K → K} (hE : Additive E)
include hab hE

/-- The sum over the clipped polygon. -/
theorem cyc_gpass (c : K) {o : Pt K} (ho : lin α β γ o = c) (l : List (Pt K)) :
    cyc E (gpass (lin α β γ) c l) = cyc (inPart (geIn (lin α β γ) c) (gcross (lin α β γ) c) (flat E o)) l := by
  rw [← cyc_flat (E := E) o]
  apply cyc_pass _ _ (fun p => lin α β γ p = c) (flat E o) ?_ ?_ o ho
  · intro p q hp hq
    exact flat_level hab hE (hp.trans ho.symm) (hq.trans ho.symm)
  · intro p v h
    exact f_gcross (isLin_lin α β γ) c (geIn_ne h)

/-- Cutting along a line: the two parts add up. -/
theorem split (c : K) (l : List (Pt K)) :
    cyc E (gpass (lin α β γ) c l) + cyc E (gpass (lin (-α) (-β) (-γ)) (-c) l) = cyc E l := by
  obtain ⟨o, ho⟩ := exists_level γ hab c
  have hneg : ∀ p : Pt K, lin (-α) (-β) (-γ) p = -lin α β γ p := by intro p; unfold lin; ring
  rw [cyc_gpass hab hE c ho, cyc_gpass (o := o) (by simpa using hab) hE (-c) (by rw [hneg, ho]), ← cyc_flat (E := E) o,
    ← cyc_add]
  apply cyc_congr
  intro p v
  have hfn : (lin (-α) (-β) (-γ)) = fun p : Pt K => -lin α β γ p := funext hneg
  unfold inPart
  rw [hfn, gcross_neg]
  unfold geIn
  simp only [neg_le_neg_iff, decide_eq_true_eq]
  have hz : ∀ p q : Pt K, lin α β γ p = c → lin α β γ q = c → flat E o p q = 0 := fun p q hp hq =>
    flat_level hab hE (hp.trans ho.symm) (hq.trans ho.symm)
  have hm : lin α β γ v ≠ lin α β γ p → lin α β γ (gcross (lin α β γ) c p v) = c := f_gcross (isLin_lin α β γ) c
  have hadd : flat E o p (gcross (lin α β γ) c p v) + flat E o (gcross (lin α β γ) c p v) v = flat E o p v :=
    flat_add hE o (onLine_lerp p v _)
  rcases lt_trichotomy (lin α β γ p) c with hp | hp | hp <;>
    rcases lt_trichotomy (lin α β γ v) c with hv | hv | hv
  · rw [if_neg (not_le.2 hp), if_neg (not_le.2 hv), if_pos hp.le, if_pos hv.le, zero_add]
  · rw [if_neg (not_le.2 hp), if_pos hv.ge, if_pos hp.le, if_pos hv.le, hz _ _ (hm (by rw [hv]; exact ne_of_gt hp)) hv,
      zero_add]
  · rw [if_neg (not_le.2 hp), if_pos hv.le, if_pos hp.le, if_neg (not_le.2 hv), ← hadd]
    ring
  · rw [if_pos hp.ge, if_neg (not_le.2 hv), if_pos hp.le, if_pos hv.le, hz _ _ hp (hm (by rw [hp]; exact ne_of_lt hv)),
      zero_add]
  · rw [if_pos hp.ge, if_pos hv.ge, if_pos hp.le, if_pos hv.le, hz _ _ hp hv, zero_add]
  · rw [if_pos hp.ge, if_pos hv.le, if_pos hp.le, if_neg (not_le.2 hv), hz _ _ hp (hm (by rw [hp]; exact ne_of_gt hv)),
      add_zero]
  · rw [if_pos hp.le, if_neg (not_le.2 hv), if_neg (not_le.2 hp), if_pos hv.le, hadd]
  · rw [if_pos hp.le, if_pos hv.ge, if_neg (not_le.2 hp), if_pos hv.le, hz _ _ (hm (by rw [hv]; exact ne_of_lt hp)) hv,
      add_zero]
  · rw [if_pos hp.le, if_pos hv.le, if_neg (not_le.2 hp), if_neg (not_le.2 hv), add_zero]

/-- Clipping first at a smaller value makes no difference. -/
theorem nest (a b : K) (h : a ≤ b) (l : List (Pt K)) :
    cyc E (gpass (lin α β γ) b (gpass (lin α β γ) a l)) = cyc E (gpass (lin α β γ) b l) := by
  obtain ⟨o, ho⟩ := exists_level γ hab b
  obtain ⟨o', ho'⟩ := exists_level γ hab a
  rw [cyc_gpass hab hE b ho, cyc_gpass hab hE b ho]
  have hz : ∀ p q : Pt K, lin α β γ p = b → lin α β γ q = b → flat E o p q = 0 := fun p q hp hq =>
    flat_level hab hE (hp.trans ho.symm) (hq.trans ho.symm)
  have hfl := isLin_lin α β γ
  generalize lin α β γ = f at *
  have key := cyc_pass (geIn f a) (gcross f a) (fun p => f p = a) (inPart (geIn f b) (gcross f b) (flat E o)) ?_
    (fun p v h => f_gcross hfl a (geIn_ne h)) o' ho' l
  · refine Eq.trans key ?_
    apply cyc_congr
    intro p v
    unfold inPart geIn
    simp only [decide_eq_true_eq]
    rcases lt_or_ge (f p) a with hp | hp <;> rcases lt_or_ge (f v) a with hv | hv
    · rw [if_neg (not_le.2 hp), if_neg (not_le.2 hv), if_neg (not_le.2 (lt_of_lt_of_le hp h)),
        if_neg (not_le.2 (lt_of_lt_of_le hv h))]
    · rw [if_neg (not_le.2 hp), if_pos hv, if_neg (not_le.2 (lt_of_lt_of_le hp h))]
      have hne : f v ≠ f p := ne_of_gt (lt_of_lt_of_le hp hv)
      have hm : f (gcross f a p v) = a := f_gcross hfl a hne
      by_cases hvb : b ≤ f v
      · rw [if_pos hvb, if_pos hvb, hm]
        by_cases hba : b ≤ a
        · have hba : b = a := le_antisymm hba h
          rw [if_pos (le_of_eq hba), hba, if_pos hv]
        · rw [if_neg hba, if_pos hvb]
          rw [gcross_from hfl a b hne (ne_of_lt (lt_of_lt_of_le (not_le.1 hba) hvb))]
      · rw [if_neg hvb, if_neg hvb, hm]
        have : ¬ b ≤ a := fun e => hvb (le_trans e hv)
        rw [if_neg this, if_neg hvb]
    · rw [if_pos hp, if_neg (not_le.2 hv), if_neg (not_le.2 (lt_of_lt_of_le hv h))]
      have hne : f v ≠ f p := ne_of_lt (lt_of_lt_of_le hv hp)
      have hm : f (gcross f a p v) = a := f_gcross hfl a hne
      by_cases hpb : b ≤ f p
      · rw [if_pos hpb, if_pos hpb, hm]
        by_cases hba : b ≤ a
        · have hba : b = a := le_antisymm hba h
          rw [if_pos (le_of_eq hba), hba]
        · rw [if_neg hba, gcross_to hfl a b hne (ne_of_lt (lt_of_lt_of_le (not_le.1 hba) hpb))]
      · rw [if_neg hpb, if_neg hpb, hm]
        have : ¬ b ≤ a := fun e => hpb (le_trans e hp)
        rw [if_neg this, if_neg (not_le.2 (lt_of_lt_of_le hv h))]
    · rw [if_pos hp, if_pos hv]
  · intro p q hp hq
    unfold inPart geIn
    simp only [decide_eq_true_eq]
    rw [hp, hq]
    by_cases hba : b ≤ a
    · have hba : b = a := le_antisymm hba h
      rw [if_pos (le_of_eq hba), if_pos (le_of_eq hba)]
      exact hz p q (hp.trans hba.symm) (hq.trans hba.symm)
    · rw [if_neg hba, if_neg hba]

/-- A strip `a ≤ f ≤ b`. -/
theorem strip (a b : K) (h : a ≤ b) (l : List (Pt K)) :
    cyc E (gpass (lin (-α) (-β) (-γ)) (-b) (gpass (lin α β γ) a l)) =
      cyc E (gpass (lin α β γ) a l) - cyc E (gpass (lin α β γ) b l) := by
  have h1 := split hab hE (γ := γ) b (gpass (lin α β γ) a l)
  rw [nest hab hE a b h] at h1
  linear_combination h1

/-- Nothing is left of a polygon that does not go beyond the line. -/
theorem beyond (c : K) (l : List (Pt K)) (h : ∀ p ∈ l, lin α β γ p ≤ c) :
    cyc E (gpass (lin α β γ) c l) = 0 := by
  obtain ⟨o, ho⟩ := exists_level γ hab c
  rw [cyc_gpass hab hE c ho]
  have hz : ∀ p q : Pt K, lin α β γ p = c → lin α β γ q = c → flat E o p q = 0 := fun p q hp hq =>
    flat_level hab hE (hp.trans ho.symm) (hq.trans ho.symm)
  rw [← cyc_zero (fun _ _ : Pt K => (0 : K)) (fun _ _ => rfl) l]
  apply cyc_congr_mem _ _ (fun p => lin α β γ p ≤ c) l h
  intro p v hp hv
  unfold inPart geIn
  simp only [decide_eq_true_eq]
  by_cases hpc : c ≤ lin α β γ p
  · have hpe := le_antisymm hp hpc
    rw [if_pos hpc]
    split
    · rename_i hvc
      exact hz _ _ hpe (le_antisymm hv hvc)
    · rename_i hvc
      exact hz _ _ hpe (f_gcross (isLin_lin α β γ) c (by rw [hpe]; exact ne_of_lt (not_le.1 hvc)))
  · rw [if_neg hpc]
    split
    · rename_i hvc
      exact hz _ _ (f_gcross (isLin_lin α β γ) c (by rw [le_antisymm hv hvc]; exact ne_of_gt (not_le.1 hpc)))
        (le_antisymm hv hvc)
    · rfl

end halfplane

/-! ### The four passes -/

theorem crossX_eq (c : K) {p v : Pt K} (h : v.1 ≠ p.1) : crossX c p v = gcross (lin 1 0 0) c p v := by
  have : v.1 - p.1 ≠ 0 := sub_ne_zero.2 h
  have e : (lin 1 0 0 : Pt K → K) = fun p => p.1 := by funext p; simp [lin]
  rw [e]
  unfold crossX gcross lerp
  ext
  · simp only []; field_simp; ring
  · simp only []; field_simp

theorem crossY_eq (c : K) {p v : Pt K} (h : v.2 ≠ p.2) : crossY c p v = gcross (lin 0 1 0) c p v := by
  have : v.2 - p.2 ≠ 0 := sub_ne_zero.2 h
  have e : (lin 0 1 0 : Pt K → K) = fun p => p.2 := by funext p; simp [lin]
  rw [e]
  unfold crossY gcross lerp
  ext
  · simp only []; field_simp
  · simp only []; field_simp; ring

theorem ne_of_side {f : Pt K → K} {c : K} {p v : Pt K} (h : decide (f v ≤ c) ≠ decide (f p ≤ c)) : f v ≠ f p := by
  intro e; rw [e] at h; exact h rfl

theorem left_eq (c : K) (l : List (Pt K)) : left c l = gpass (lin 1 0 0) c l := by
  apply pass_congr
  · intro p; unfold geIn lin; simp [ge_iff_le]
  · intro p v h
    apply crossX_eq
    intro e
    rw [e] at h
    exact h rfl

theorem bottom_eq (c : K) (l : List (Pt K)) : bottom c l = gpass (lin 0 1 0) c l := by
  apply pass_congr
  · intro p; unfold geIn lin; simp [ge_iff_le]
  · intro p v h
    apply crossY_eq
    intro e
    rw [e] at h
    exact h rfl

theorem right_eq (c : K) (l : List (Pt K)) : right c l = gpass (lin (-1) (-0) (-0)) (-c) l := by
  have hfn : (lin (-1) (-0) (-0)) = fun p : Pt K => -lin (1 : K) 0 0 p := by funext p; unfold lin; ring
  unfold gpass
  rw [hfn]
  apply pass_congr
  · intro p; unfold geIn lin; simp
  · intro p v h
    rw [gcross_neg]
    apply crossX_eq
    intro e
    rw [e] at h
    exact h rfl

theorem top_eq (c : K) (l : List (Pt K)) : top c l = gpass (lin (-0) (-1) (-0)) (-c) l := by
  have hfn : (lin (-0) (-1) (-0)) = fun p : Pt K => -lin (0 : K) 1 0 p := by funext p; unfold lin; ring
  unfold gpass
  rw [hfn]
  apply pass_congr
  · intro p; unfold geIn lin; simp
  · intro p v h
    rw [gcross_neg]
    apply crossY_eq
    intro e
    rw [e] at h
    exact h rfl

/-- The crossing lies between the two vertices. -/
theorem gcross_between {f : Pt K → K} {c : K} {p v : Pt K} (h : geIn f c v ≠ geIn f c p) :
    ∃ t, 0 ≤ t ∧ t ≤ 1 ∧ gcross f c p v = lerp p v t := by
  refine ⟨(c - f p) / (f v - f p), ?_, ?_, rfl⟩
  all_goals
    unfold geIn at h
    rw [ne_eq, decide_eq_decide] at h
    rcases lt_or_ge (f p) c with hp | hp
    · have hv : c ≤ f v := by
        by_contra hv
        exact h ⟨fun e => absurd e hv, fun e => absurd e (not_le.2 hp)⟩
      have hd : 0 < f v - f p := by linarith
      first
        | exact div_nonneg (by linarith) hd.le
        | exact (div_le_one hd).2 (by linarith)
    · have hv : f v < c := by
        by_contra hv
        exact h ⟨fun _ => hp, fun _ => not_lt.1 hv⟩
      have hd : 0 < f p - f v := by linarith
      have e : (c - f p) / (f v - f p) = (f p - c) / (f p - f v) := by
        rw [show c - f p = -(f p - c) by ring, show f v - f p = -(f p - f v) by ring, neg_div_neg_eq]
      rw [e]
      first
        | exact div_nonneg (by linarith) hd.le
        | exact (div_le_one hd).2 (by linarith)

/-- Half-planes are convex. -/
theorem lerp_half {a b c t : K} {p v : Pt K} (h0 : 0 ≤ t) (h1 : t ≤ 1) (hp : a * p.1 + b * p.2 ≤ c)
    (hv : a * v.1 + b * v.2 ≤ c) : a * (lerp p v t).1 + b * (lerp p v t).2 ≤ c := by
  unfold lerp
  simp only []
  have e : a * (p.1 + t * (v.1 - p.1)) + b * (p.2 + t * (v.2 - p.2)) =
      (1 - t) * (a * p.1 + b * p.2) + t * (a * v.1 + b * v.2) := by ring
  rw [e]
  have i1 : (1 - t) * (a * p.1 + b * p.2) ≤ (1 - t) * c := mul_le_mul_of_nonneg_left hp (by linarith)
  have i2 : t * (a * v.1 + b * v.2) ≤ t * c := mul_le_mul_of_nonneg_left hv h0
  linarith [show (1 - t) * c + t * c = c by ring]

theorem gpass_half {f : Pt K → K} {k a b c : K} {l : List (Pt K)} (h : ∀ p ∈ l, a * p.1 + b * p.2 ≤ c) :
    ∀ q ∈ gpass f k l, a * q.1 + b * q.2 ≤ c := by
  apply pass_forall _ _ (fun q => a * q.1 + b * q.2 ≤ c) ?_ l h
  intro p v hp hv hne
  obtain ⟨t, h0, h1, e⟩ := gcross_between hne
  rw [e]
  exact lerp_half h0 h1 hp hv

theorem gpass_in {f : Pt K → K} (hf : IsLin f) {k : K} {l : List (Pt K)} : ∀ q ∈ gpass f k l, k ≤ f q := by
  apply pass_inside
  · intro p h; unfold geIn at h; simpa using h
  · intro p v h; exact le_of_eq (f_gcross hf k (geIn_ne h)).symm

end Verif.Clip
