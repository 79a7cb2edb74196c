import Verif.Lemmas.Conserve
/-
Lemmas for the monotonic second order interpolation.
-/
namespace Verif.Conserve
open Spec
variable {K : Type} [Field K] [LinearOrder K]

theorem barMax_fold (missing : K) : ∀ (vals : List K) (m : K),
    m ≤ vals.foldl (fun m v => if v ≠ missing then (if v > m then v else m) else m) m ∧
    (∀ v ∈ vals, v ≠ missing →
      v ≤ vals.foldl (fun m v => if v ≠ missing then (if v > m then v else m) else m) m) ∧
    ∀ hi, m ≤ hi → (∀ v ∈ vals, v ≠ missing → v ≤ hi) →
      vals.foldl (fun m v => if v ≠ missing then (if v > m then v else m) else m) m ≤ hi := by
  intro vals
  induction vals with
  | nil => intro m; exact ⟨le_refl _, by simp, fun hi h _ => h⟩
  | cons w vals ih =>
    intro m
    rw [List.foldl_cons]
    obtain ⟨i1, i2, i3⟩ := ih (if w ≠ missing then (if w > m then w else m) else m)
    have hm : m ≤ (if w ≠ missing then (if w > m then w else m) else m) := by
      split
      · split
        · rename_i h; exact le_of_lt h
        · exact le_refl _
      · exact le_refl _
    refine ⟨le_trans hm i1, ?_, ?_⟩
    · intro v hv hvm
      rcases List.mem_cons.1 hv with rfl | hv
      · refine le_trans ?_ i1
        rw [if_pos hvm]
        split
        · exact le_refl _
        · rename_i h; exact not_lt.1 h
      · exact i2 v hv hvm
    · intro hi h1 h2
      apply i3
      · split
        · rename_i hw
          split
          · exact h2 w (by simp) hw
          · exact h1
        · exact h1
      · exact fun v hv => h2 v (List.mem_cons_of_mem _ hv)

theorem barMin_fold (missing : K) : ∀ (vals : List K) (m : K),
    vals.foldl (fun m v => if v ≠ missing then (if v < m then v else m) else m) m ≤ m ∧
    (∀ v ∈ vals, v ≠ missing →
      vals.foldl (fun m v => if v ≠ missing then (if v < m then v else m) else m) m ≤ v) ∧
    ∀ lo, lo ≤ m → (∀ v ∈ vals, v ≠ missing → lo ≤ v) →
      lo ≤ vals.foldl (fun m v => if v ≠ missing then (if v < m then v else m) else m) m := by
  intro vals
  induction vals with
  | nil => intro m; exact ⟨le_refl _, by simp, fun hi h _ => h⟩
  | cons w vals ih =>
    intro m
    rw [List.foldl_cons]
    obtain ⟨i1, i2, i3⟩ := ih (if w ≠ missing then (if w < m then w else m) else m)
    have hm : (if w ≠ missing then (if w < m then w else m) else m) ≤ m := by
      split
      · split
        · rename_i h; exact le_of_lt h
        · exact le_refl _
      · exact le_refl _
    refine ⟨le_trans i1 hm, ?_, ?_⟩
    · intro v hv hvm
      rcases List.mem_cons.1 hv with rfl | hv
      · refine le_trans i1 ?_
        rw [if_pos hvm]
        split
        · exact le_refl _
        · rename_i h; exact not_lt.1 h
      · exact i2 v hv hvm
    · intro hi h1 h2
      apply i3
      · split
        · rename_i hw
          split
          · exact h2 w (by simp) hw
          · exact h1
        · exact h1
      · exact fun v hv => h2 v (List.mem_cons_of_mem _ hv)

section
variable (cf : Conf K) (s : Src K) (maxval : K) (nxl : Nat)

theorem monoMax_ge {cells : List (XCell K)} {c : XCell K} (hc : c ∈ cells) {x : K}
    (hx : monoVal cf s nxl c = some x) : x ≤ monoMax cf s maxval nxl cells c.t1 (c.j1 * nxl + c.i1) := by
  have gen : ∀ (cells : List (XCell K)) (t n : Nat) (m : K),
      m ≤ cells.foldl (fun m c => match monoVal cf s nxl c with
        | some x => if c.t1 = t ∧ c.j1 * nxl + c.i1 = n ∧ x > m then x else m
        | none => m) m ∧
      ∀ c ∈ cells, c.t1 = t → c.j1 * nxl + c.i1 = n → ∀ x, monoVal cf s nxl c = some x →
        x ≤ cells.foldl (fun m c => match monoVal cf s nxl c with
        | some x => if c.t1 = t ∧ c.j1 * nxl + c.i1 = n ∧ x > m then x else m
        | none => m) m := by
    intro cells t n
    induction cells with
    | nil => intro m; exact ⟨le_refl _, by simp⟩
    | cons d cells ih =>
      intro m
      rw [List.foldl_cons]
      obtain ⟨i1, i2⟩ := ih (match monoVal cf s nxl d with
        | some x => if d.t1 = t ∧ d.j1 * nxl + d.i1 = n ∧ x > m then x else m
        | none => m)
      refine ⟨le_trans ?_ i1, ?_⟩
      · split
        · split
          · rename_i h; exact le_of_lt h.2.2
          · exact le_refl _
        · exact le_refl _
      · intro c hc h1 h2 x hx
        rcases List.mem_cons.1 hc with rfl | hc
        · refine le_trans ?_ i1
          rw [hx]
          simp only []
          split
          · exact le_refl _
          · rename_i h; exact not_lt.1 fun e => h ⟨h1, h2, e⟩
        · exact i2 c hc h1 h2 x hx
  exact (gen cells c.t1 (c.j1 * nxl + c.i1) (-maxval)).2 c hc rfl rfl x hx

theorem monoMin_le {cells : List (XCell K)} {c : XCell K} (hc : c ∈ cells) {x : K}
    (hx : monoVal cf s nxl c = some x) : monoMin cf s maxval nxl cells c.t1 (c.j1 * nxl + c.i1) ≤ x := by
  have gen : ∀ (cells : List (XCell K)) (t n : Nat) (m : K),
      cells.foldl (fun m c => match monoVal cf s nxl c with
        | some x => if c.t1 = t ∧ c.j1 * nxl + c.i1 = n ∧ x < m then x else m
        | none => m) m ≤ m ∧
      ∀ c ∈ cells, c.t1 = t → c.j1 * nxl + c.i1 = n → ∀ x, monoVal cf s nxl c = some x →
        cells.foldl (fun m c => match monoVal cf s nxl c with
        | some x => if c.t1 = t ∧ c.j1 * nxl + c.i1 = n ∧ x < m then x else m
        | none => m) m ≤ x := by
    intro cells t n
    induction cells with
    | nil => intro m; exact ⟨le_refl _, by simp⟩
    | cons d cells ih =>
      intro m
      rw [List.foldl_cons]
      obtain ⟨i1, i2⟩ := ih (match monoVal cf s nxl d with
        | some x => if d.t1 = t ∧ d.j1 * nxl + d.i1 = n ∧ x < m then x else m
        | none => m)
      refine ⟨le_trans i1 ?_, ?_⟩
      · split
        · split
          · rename_i h; exact le_of_lt h.2.2
          · exact le_refl _
        · exact le_refl _
      · intro c hc h1 h2 x hx
        rcases List.mem_cons.1 hc with rfl | hc
        · refine le_trans i1 ?_
          rw [hx]
          simp only []
          split
          · exact le_refl _
          · rename_i h; exact not_lt.1 fun e => h ⟨h1, h2, e⟩
        · exact i2 c hc h1 h2 x hx
  exact (gen cells c.t1 (c.j1 * nxl + c.i1) maxval).2 c hc rfl rfl x hx

end

variable [IsStrictOrderedRing K]

/-- Scaling towards `fb`. -/
theorem scale_bounds {fb F B x : K} (h1 : fb ≤ B) (h2 : B < F) :
    (x ≤ F → fb + (x - fb) / (F - fb) * (B - fb) ≤ B) ∧
    (∀ lo, lo ≤ fb → lo ≤ x → lo ≤ fb + (x - fb) / (F - fb) * (B - fb)) := by
  have hF : 0 < F - fb := by linarith
  have hr0 : 0 ≤ (B - fb) / (F - fb) := div_nonneg (by linarith) (le_of_lt hF)
  have hr1 : (B - fb) / (F - fb) ≤ 1 := (div_le_one hF).2 (by linarith)
  have e : (x - fb) / (F - fb) * (B - fb) = (x - fb) * ((B - fb) / (F - fb)) := by
    field_simp
  rw [e]
  constructor
  · intro hx
    have : (x - fb) * ((B - fb) / (F - fb)) ≤ (F - fb) * ((B - fb) / (F - fb)) :=
      mul_le_mul_of_nonneg_right (by linarith) hr0
    have e2 : (F - fb) * ((B - fb) / (F - fb)) = B - fb := mul_div_cancel₀ _ (ne_of_gt hF)
    linarith
  · intro lo hl1 hl2
    rcases le_total fb x with h | h
    · have := mul_nonneg (sub_nonneg.2 h) hr0
      linarith
    · have : (fb - x) * ((B - fb) / (F - fb)) ≤ (fb - x) * 1 :=
        mul_le_mul_of_nonneg_left hr1 (by linarith)
      have e3 : (x - fb) * ((B - fb) / (F - fb)) = -((fb - x) * ((B - fb) / (F - fb))) := by ring
      linarith

/-- The adjusted value: above the lower bound unless the upper one was violated too, below the upper
bound always; the checks do nothing. -/
theorem monoAdjust_spec {tol fb fM fm bM bm x : K} (hx1 : fm ≤ x) (hx2 : x ≤ fM) (hb1 : bm ≤ fb) (hb2 : fb ≤ bM) :
    monoCheck tol fM fm bM bm (monoAdjust fb fM fm bM bm x) = some (monoAdjust fb fM fm bM bm x) ∧
    monoAdjust fb fM fm bM bm x ≤ bM ∧
    (¬ (fM > bM ∧ fm < bm) → bm ≤ monoAdjust fb fM fm bM bm x) := by
  unfold monoCheck monoAdjust
  by_cases h1 : fM > bM
  · rw [if_pos h1, if_pos h1]
    have hs := scale_bounds (x := x) hb2 h1
    refine ⟨if_neg (not_lt.2 (hs.1 hx2)), hs.1 hx2, ?_⟩
    intro h
    have h3 : bm ≤ fm := not_lt.1 fun e => h ⟨h1, e⟩
    exact hs.2 bm hb1 (le_trans h3 hx1)
  · rw [if_neg h1, if_neg h1]
    by_cases h2 : fm < bm
    · rw [if_pos h2, if_pos h2]
      -- mirror image
      have hs := scale_bounds (fb := -fb) (F := -fm) (B := -bm) (x := -x) (by linarith) (by linarith)
      have e : -fb + (-x - -fb) / (-fm - -fb) * (-bm - -fb) = -(fb + (x - fb) / (fm - fb) * (bm - fb)) := by
        have : -fm - -fb = -(fm - fb) := by ring
        rw [this, show -x - -fb = -(x - fb) by ring, neg_div_neg_eq]
        ring
      rw [e] at hs
      have l1 := hs.1 (by linarith)
      have l1' : bm ≤ fb + (x - fb) / (fm - fb) * (bm - fb) := by linarith
      have l2 := hs.2 (-bM) (by linarith) (by have := not_lt.1 h1; linarith)
      exact ⟨if_neg (not_lt.2 l1'), by linarith, fun _ => l1'⟩
    · rw [if_neg h2, if_neg h2]
      exact ⟨rfl, le_trans hx2 (not_lt.1 h1), fun _ => le_trans (not_lt.1 h2) hx1⟩

/-- The adjustment is a scaling about `fb` with a factor that does not depend on the value. -/
def monoFactor (fb fM fm bM bm : K) : K :=
  if fM > bM then (bM - fb) / (fM - fb) else if fm < bm then (bm - fb) / (fm - fb) else 1

omit [IsStrictOrderedRing K] in
theorem monoAdjust_factor (fb fM fm bM bm x : K) :
    monoAdjust fb fM fm bM bm x = fb + monoFactor fb fM fm bM bm * (x - fb) := by
  unfold monoAdjust monoFactor
  split
  · rw [div_mul_eq_mul_div, div_mul_eq_mul_div, mul_comm (x - fb)]
  · split
    · rw [div_mul_eq_mul_div, div_mul_eq_mul_div, mul_comm (x - fb)]
    · ring

omit [IsStrictOrderedRing K] in
theorem mono_fold (cf : Conf K) (x : XCell K → Option (Option K)) (cells : List (XCell K)) (n : Nat) :
    (cells.foldl (monoStep cf x) ⟨fun _ => 0, fun _ => 0, fun _ => false⟩).data n =
      total (fun c => ((monoUse cf (x c)).getD 0) * xArea cf c)
        ((cells.filter fun c => (monoUse cf (x c)).isSome).filter fun c => decide (n0 cf c = n)) ∧
    (cells.foldl (monoStep cf x) ⟨fun _ => 0, fun _ => 0, fun _ => false⟩).area n =
      total (xArea cf)
        ((cells.filter fun c => (monoUse cf (x c)).isSome).filter fun c => decide (n0 cf c = n)) ∧
    (cells.foldl (monoStep cf x) ⟨fun _ => 0, fun _ => 0, fun _ => false⟩).miss n = false := by
  have gen : ∀ (cells : List (XCell K)) (a : Acc K),
      (cells.foldl (monoStep cf x) a).data n = a.data n +
        total (fun c => ((monoUse cf (x c)).getD 0) * xArea cf c)
        ((cells.filter fun c => (monoUse cf (x c)).isSome).filter fun c => decide (n0 cf c = n)) ∧
      (cells.foldl (monoStep cf x) a).area n = a.area n + total (xArea cf)
        ((cells.filter fun c => (monoUse cf (x c)).isSome).filter fun c => decide (n0 cf c = n)) ∧
      (cells.foldl (monoStep cf x) a).miss n = a.miss n := by
    intro cells
    induction cells with
    | nil => intro a; simp [total]
    | cons c cells ih =>
      intro a
      rw [List.foldl_cons]
      obtain ⟨i1, i2, i3⟩ := ih (monoStep cf x a c)
      rw [i1, i2, i3, List.filter_cons]
      unfold monoStep
      cases hu : monoUse cf (x c) with
      | none => simp
      | some v =>
        simp only [Option.isSome_some, if_true]
        rw [List.filter_cons]
        by_cases h : n0 cf c = n
        · subst h
          rw [if_pos (by simp), total_cons, total_cons]
          unfold addAt
          simp only [if_true, hu, Option.getD_some]
          refine ⟨by ring, by ring, trivial⟩
        · rw [if_neg (by simpa using h)]
          have h' : ¬ n = n0 cf c := fun e => h e.symm
          unfold addAt
          simp only [if_neg h']
          exact ⟨trivial, trivial, trivial⟩
  have := gen cells ⟨fun _ => 0, fun _ => 0, fun _ => false⟩
  simpa using this

end Verif.Conserve
