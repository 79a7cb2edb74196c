import Verif.Lemmas.Clip
import Mathlib.Algebra.Order.BigOperators.Group.List
/-
Clipping a convex polygon, and the sign of line integrals around convex polygons.
-/
namespace Verif.Clip
open Spec
variable {K : Type} [Field K] [LinearOrder K] [IsStrictOrderedRing K]

/-- What holds at the vertices of a polygon for a half-plane holds in the hull. -/
theorem hull_orient {l : List (Pt K)} {p q : Pt K} (h : ∀ r ∈ l, 0 ≤ orient p q r) {s : Pt K} (hs : InHull l s) :
    0 ≤ orient p q s := by
  have := hs (q.2 - p.2) (-(q.1 - p.1)) ((q.2 - p.2) * p.1 - (q.1 - p.1) * p.2) (by
    intro r hr
    have := h r hr
    unfold orient at this
    linarith)
  unfold orient
  linarith

theorem hull_lerp {l : List (Pt K)} {p v : Pt K} (hp : InHull l p) (hv : InHull l v) {t : K} (h0 : 0 ≤ t)
    (h1 : t ≤ 1) : InHull l (lerp p v t) := by
  intro a b c h
  exact lerp_half h0 h1 (hp a b c h) (hv a b c h)

omit [IsStrictOrderedRing K] in
theorem hull_mem {l : List (Pt K)} {p : Pt K} (hp : p ∈ l) : InHull l p := fun _ _ _ h => h p hp

section
variable (α β γ c : K) (l : List (Pt K))

/-- `q` follows `e` with the clipped polygon on the left. -/
def Good (e q : Pt K) : Prop := ∀ s, InHull l s → c ≤ lin α β γ s → 0 ≤ orient e q s

/-- A place where the polygon was left. -/
def Exit (e : Pt K) : Prop :=
  lin α β γ e = c ∧ ∀ q, InHull l q → lin α β γ q = c → Good α β γ c l e q

/-- An edge of the polygon. -/
def Ok (p v : Pt K) : Prop := InHull l p ∧ InHull l v ∧ ∀ s, InHull l s → 0 ≤ orient p v s

variable {α β γ c l}

theorem exit_of_ok {p v : Pt K} (h : Ok l p v) (hp : c ≤ lin α β γ p) (hv : lin α β γ v < c) :
    Exit α β γ c l (gcross (lin α β γ) c p v) := by
  have hne : lin α β γ v ≠ lin α β γ p := ne_of_lt (lt_of_lt_of_le hv hp)
  have hm := f_gcross (isLin_lin α β γ) c hne
  refine ⟨hm, ?_⟩
  intro q hq hqc s hs hsc
  have h1 := h.2.2 q hq
  obtain ⟨m, hmd⟩ : ∃ m, m = gcross (lin α β γ) c p v := ⟨_, rfl⟩
  have hcol : orient p v m = 0 := by
    rw [hmd]; unfold gcross lerp orient; ring
  rw [← hmd] at hm ⊢
  have hd : 0 < lin α β γ p - lin α β γ v := by linarith
  -- (f p - f v) * orient m q s = (f s - c) * orient p v q
  have key : (lin α β γ p - lin α β γ v) * orient m q s = (lin α β γ s - c) * orient p v q := by
    have e1 : orient p v q = (v.1 - p.1) * (q.2 - m.2) - (v.2 - p.2) * (q.1 - m.1) := by
      unfold orient at hcol ⊢
      linear_combination hcol
    have e2 : α * (q.1 - m.1) + β * (q.2 - m.2) = 0 := by
      unfold lin at hqc hm
      linear_combination hqc - hm
    have e3 : lin α β γ s - c = α * (s.1 - m.1) + β * (s.2 - m.2) := by
      rw [← hm]; unfold lin; ring
    have e4 : lin α β γ p - lin α β γ v = -(α * (v.1 - p.1) + β * (v.2 - p.2)) := by
      unfold lin; ring
    rw [e1, e3, e4]
    unfold orient
    linear_combination ((s.1 - m.1) * (v.2 - p.2) - (s.2 - m.2) * (v.1 - p.1)) * e2
  have h2 : 0 ≤ (lin α β γ p - lin α β γ v) * orient m q s := by
    rw [key]; exact mul_nonneg (by linarith) h1
  exact nonneg_of_mul_nonneg_right h2 hd

abbrev St (α β γ c : K) (l : List (Pt K)) := State (geIn (lin α β γ) c) (Exit α β γ c l)

theorem geIn_true {f : Pt K → K} {p : Pt K} : geIn f c p = true ↔ c ≤ f p := by unfold geIn; simp
theorem geIn_false {f : Pt K → K} {p : Pt K} : geIn f c p = false ↔ f p < c := by unfold geIn; simp

theorem st_last : ∀ (vs : List (Pt K)) (p e : Pt K), (∀ a ∈ pathEdges p vs, Ok l a.1 a.2) →
    (St α β γ c l p e ∨ go (geIn (lin α β γ) c) (gcross (lin α β γ) c) p vs ≠ []) →
    St α β γ c l (vs.getLastD p) ((go (geIn (lin α β γ) c) (gcross (lin α β γ) c) p vs).getLastD e) := by
  intro vs
  induction vs with
  | nil =>
    intro p e _ h
    rcases h with h | h
    · exact h
    · exact absurd rfl h
  | cons v vs ih =>
    intro p e hok h
    have hok' : ∀ a ∈ pathEdges v vs, Ok l a.1 a.2 := fun a ha => hok a (List.mem_cons_of_mem _ ha)
    have hpv : Ok l p v := hok (p, v) (by simp [pathEdges])
    rw [List.getLastD_cons]
    cases hv : geIn (lin α β γ) c v <;> cases hp : geIn (lin α β γ) c p
    · rw [go_oo _ hp hv] at h ⊢
      apply ih v e hok'
      rcases h with h | h
      · exact Or.inl (State.of_out _ hv (h.2 hp))
      · exact Or.inr h
    · rw [go_io _ hp hv, List.getLastD_cons]
      exact ih v _ hok' (Or.inl (State.of_out _ hv (exit_of_ok hpv (geIn_true.1 hp) (geIn_false.1 hv))))
    · rw [go_oi _ hp hv, List.getLastD_cons, List.getLastD_cons]
      exact ih v _ hok' (Or.inl (State.of_in _ hv))
    · rw [go_ii _ hp hv, List.getLastD_cons]
      exact ih v _ hok' (Or.inl (State.of_in _ hv))

omit [LinearOrder K] [IsStrictOrderedRing K] in
theorem orient_lerp_to (p v s : Pt K) (t : K) : orient p (lerp p v t) s = t * orient p v s := by
  unfold orient lerp; ring

omit [LinearOrder K] [IsStrictOrderedRing K] in
theorem orient_lerp_from (p v s : Pt K) (t : K) : orient (lerp p v t) v s = (1 - t) * orient p v s := by
  unfold orient lerp; ring

theorem go_good : ∀ (vs : List (Pt K)) (p e : Pt K), (∀ a ∈ pathEdges p vs, Ok l a.1 a.2) →
    St α β γ c l p e →
    ∀ a ∈ pathEdges e (go (geIn (lin α β γ) c) (gcross (lin α β γ) c) p vs), Good α β γ c l a.1 a.2 := by
  intro vs
  induction vs with
  | nil => intro p e _ _ a ha; cases ha
  | cons v vs ih =>
    intro p e hok h
    have hok' : ∀ a ∈ pathEdges v vs, Ok l a.1 a.2 := fun a ha => hok a (List.mem_cons_of_mem _ ha)
    have hpv : Ok l p v := hok (p, v) (by simp [pathEdges])
    cases hv : geIn (lin α β γ) c v <;> cases hp : geIn (lin α β γ) c p
    · rw [go_oo _ hp hv]
      exact ih v e hok' (State.of_out _ hv (h.2 hp))
    · rw [go_io _ hp hv]
      intro a ha
      rcases List.mem_cons.1 ha with rfl | ha
      · rw [h.1 hp]
        obtain ⟨t, h0, _, et⟩ := gcross_between (f := lin α β γ) (c := c) (p := p) (v := v)
          (by rw [hv, hp]; simp)
        intro s hs _
        simp only []
        rw [et, orient_lerp_to]
        exact mul_nonneg h0 (hpv.2.2 s hs)
      · exact ih v _ hok' (State.of_out _ hv (exit_of_ok hpv (geIn_true.1 hp) (geIn_false.1 hv))) a ha
    · rw [go_oi _ hp hv]
      have hne : geIn (lin α β γ) c v ≠ geIn (lin α β γ) c p := by rw [hv, hp]; simp
      obtain ⟨t, h0, h1, et⟩ := gcross_between hne
      intro a ha
      rcases List.mem_cons.1 ha with rfl | ha
      · refine (h.2 hp).2 _ ?_ (f_gcross (isLin_lin α β γ) c (geIn_ne hne))
        rw [et]
        exact hull_lerp hpv.1 hpv.2.1 h0 h1
      · rcases List.mem_cons.1 ha with rfl | ha
        · intro s hs _
          simp only []
          rw [et, orient_lerp_from]
          exact mul_nonneg (by linarith) (hpv.2.2 s hs)
        · exact ih v _ hok' (State.of_in _ hv) a ha
    · rw [go_ii _ hp hv]
      intro a ha
      rcases List.mem_cons.1 ha with rfl | ha
      · rw [h.1 hp]
        exact fun s hs _ => hpv.2.2 s hs
      · exact ih v _ hok' (State.of_in _ hv) a ha

end

omit [LinearOrder K] [IsStrictOrderedRing K] in
theorem pathEdges_mem : ∀ (vs : List (Pt K)) (p : Pt K), ∀ a ∈ pathEdges p vs, (a.1 = p ∨ a.1 ∈ vs) ∧ a.2 ∈ vs := by
  intro vs
  induction vs with
  | nil => intro p a ha; cases ha
  | cons v vs ih =>
    intro p a ha
    rcases List.mem_cons.1 ha with rfl | ha
    · exact ⟨Or.inl rfl, by simp⟩
    · have := ih v a ha
      refine ⟨Or.inr ?_, List.mem_cons_of_mem _ this.2⟩
      rcases this.1 with h | h
      · rw [h]; simp
      · exact List.mem_cons_of_mem _ h

omit [LinearOrder K] [IsStrictOrderedRing K] in
theorem polyEdges_mem {l : List (Pt K)} : ∀ a ∈ polyEdges l, a.1 ∈ l ∧ a.2 ∈ l := by
  intro a ha
  unfold polyEdges at ha
  cases hz : l.getLast? with
  | none => rw [hz] at ha; cases ha
  | some z =>
    rw [hz] at ha
    have := pathEdges_mem l z a ha
    refine ⟨?_, this.2⟩
    rcases this.1 with h | h
    · rw [h]; exact List.mem_of_getLast? hz
    · exact h

/-- Clipping a convex polygon to a half-plane gives a convex polygon. -/
theorem gpass_convex (α β γ c : K) (l : List (Pt K)) (h : Convex l) : Convex (gpass (lin α β γ) c l) := by
  intro a ha s hs
  have hsh : InHull l s := fun x y z hl => gpass_half hl s hs
  have hsc : c ≤ lin α β γ s := gpass_in (isLin_lin α β γ) s hs
  unfold polyEdges at ha
  unfold gpass pass at ha
  cases hz : l.getLast? with
  | none => rw [hz] at ha; cases ha
  | some z =>
    rw [hz] at ha
    simp only [] at ha
    have hok : ∀ b ∈ pathEdges z l, Ok l b.1 b.2 := by
      intro b hb
      have hb' : b ∈ polyEdges l := by unfold polyEdges; rw [hz]; exact hb
      have hm := polyEdges_mem b hb'
      exact ⟨hull_mem hm.1, hull_mem hm.2, fun s hs => hull_orient (h b hb') hs⟩
    cases hg : (go (geIn (lin α β γ) c) (gcross (lin α β γ) c) z l).getLast? with
    | none => rw [hg] at ha; cases ha
    | some e =>
      rw [hg] at ha
      have hne : go (geIn (lin α β γ) c) (gcross (lin α β γ) c) z l ≠ [] := by
        intro e'; rw [e'] at hg; cases hg
      have hst := st_last (α := α) (β := β) (γ := γ) (c := c) l z e hok (Or.inr hne)
      have hlast : l.getLastD z = z := by rw [List.getLastD_eq_getLast?, hz]; rfl
      rw [hlast, List.getLastD_eq_getLast?, hg] at hst
      exact go_good l z e hok hst a ha s hsh hsc

omit [LinearOrder K] [IsStrictOrderedRing K] in
theorem path_eq_edges (E : Pt K → Pt K → K) : ∀ (vs : List (Pt K)) (p : Pt K),
    path E p vs = ((pathEdges p vs).map fun a => E a.1 a.2).sum := by
  intro vs
  induction vs with
  | nil => intro p; rfl
  | cons v vs ih => intro p; simp only [path, pathEdges, List.map_cons, List.sum_cons]; rw [ih]

omit [LinearOrder K] [IsStrictOrderedRing K] in
theorem cyc_eq_edges (E : Pt K → Pt K → K) (l : List (Pt K)) :
    cyc E l = ((polyEdges l).map fun a => E a.1 a.2).sum := by
  unfold cyc polyEdges
  cases l.getLast? with
  | none => rfl
  | some z => exact path_eq_edges E l z

/-- A line integral that is not negative around counter-clockwise triangles is not negative around
convex polygons. `D` restricts the points. -/
theorem cyc_nonneg {E : Pt K → Pt K → K} (hE : Additive E) (D : Pt K → Prop)
    (ht : ∀ p q r, D p → D q → D r → 0 ≤ orient p q r → 0 ≤ E p q + E q r + E r p) (l : List (Pt K))
    (hD : ∀ p ∈ l, D p) (h : Convex l) : 0 ≤ cyc E l := by
  cases hz : l.getLast? with
  | none =>
    unfold cyc; rw [hz]
  | some z =>
    have hzl : z ∈ l := List.mem_of_getLast? hz
    rw [← cyc_flat (E := E) z, cyc_eq_edges]
    apply List.sum_nonneg
    intro x hx
    obtain ⟨a, ha, rfl⟩ := List.mem_map.1 hx
    have hm := polyEdges_mem a ha
    have h1 := ht a.1 a.2 z (hD _ hm.1) (hD _ hm.2) (hD z hzl) (h a ha z hzl)
    have h2 : E a.2 z + E z a.2 = E a.2 a.2 := hE _ _ _ (by unfold OnLine; ring)
    rw [additive_self hE] at h2
    have : flat E z a.1 a.2 = E a.1 a.2 + E a.2 z + E z a.1 := by
      unfold flat
      linear_combination (-1 : K) * h2
    rw [this]
    exact h1

end Verif.Clip
