import Verif.Model.NcArray
import Mathlib.Data.List.Basic
import Mathlib.Tactic.Ring
import Mathlib.Tactic.Linarith
/-
Helper lemmas on row-major arrays.
-/
namespace Verif

theorem InBox.nil_iff {idx : List Nat} : InBox [] idx ↔ idx = [] := by
  constructor
  · intro h; cases h; rfl
  · rintro rfl; exact .nil

theorem InBox.cons_iff {d : Nat} {ds idx : List Nat} :
    InBox (d :: ds) idx ↔ ∃ i is, idx = i :: is ∧ i < d ∧ InBox ds is := by
  constructor
  · intro h; cases h with
    | cons h1 h2 => exact ⟨_, _, rfl, h1, h2⟩
  · rintro ⟨i, is, rfl, h1, h2⟩; exact .cons h1 h2

instance InBox.decidable : ∀ (ds idx : List Nat), Decidable (InBox ds idx)
  | [], [] => isTrue .nil
  | [], _ :: _ => isFalse (fun h => nomatch h)
  | _ :: _, [] => isFalse (fun h => nomatch h)
  | d :: ds, i :: is =>
    match Nat.decLt i d, InBox.decidable ds is with
    | isTrue h1, isTrue h2 => isTrue (.cons h1 h2)
    | isFalse h1, _ => isFalse (fun h => by cases h with | cons a _ => exact h1 a)
    | _, isFalse h2 => isFalse (fun h => by cases h with | cons _ b => exact h2 b)

theorem InBox.length {ds idx : List Nat} (h : InBox ds idx) : idx.length = ds.length :=
  List.Forall₂.length_eq h

theorem flat_lt : ∀ {ds idx : List Nat}, InBox ds idx → flat ds idx < ds.prod := by
  intro ds
  induction ds with
  | nil => intro idx h; simp [flat]
  | cons d ds ih =>
    intro idx h
    obtain ⟨i, is, rfl, h1, h2⟩ := InBox.cons_iff.1 h
    have := ih h2
    simp only [flat, List.prod_cons]
    calc i * ds.prod + flat ds is < i * ds.prod + ds.prod := by omega
      _ = (i + 1) * ds.prod := by ring
      _ ≤ d * ds.prod := Nat.mul_le_mul_right _ h1

theorem unflat_flat : ∀ {ds idx : List Nat}, InBox ds idx → unflat ds (flat ds idx) = idx := by
  intro ds
  induction ds with
  | nil => intro idx h; rw [InBox.nil_iff] at h; subst h; rfl
  | cons d ds ih =>
    intro idx h
    obtain ⟨i, is, rfl, h1, h2⟩ := InBox.cons_iff.1 h
    have hlt := flat_lt h2
    have hpos : 0 < ds.prod := by omega
    simp only [flat, unflat]
    have e1 : (i * ds.prod + flat ds is) / ds.prod = i := by
      rw [Nat.mul_comm, Nat.mul_add_div hpos, Nat.div_eq_of_lt hlt, Nat.add_zero]
    have e2 : (i * ds.prod + flat ds is) % ds.prod = flat ds is := by
      rw [Nat.mul_comm, Nat.mul_add_mod, Nat.mod_eq_of_lt hlt]
    rw [e1, e2, ih h2]

theorem inBox_unflat : ∀ {ds : List Nat} {n : Nat}, n < ds.prod → InBox ds (unflat ds n) := by
  intro ds
  induction ds with
  | nil => intro n _; exact .nil
  | cons d ds ih =>
    intro n h
    rw [List.prod_cons] at h
    have hpos : 0 < ds.prod := by
      rcases Nat.eq_zero_or_pos ds.prod with h0 | h0
      · rw [h0] at h; simp at h
      · exact h0
    exact .cons (Nat.div_lt_of_lt_mul (by rwa [Nat.mul_comm] at h)) (ih (Nat.mod_lt _ hpos))

theorem flat_unflat : ∀ {ds : List Nat} {n : Nat}, n < ds.prod → flat ds (unflat ds n) = n := by
  intro ds
  induction ds with
  | nil => intro n h; simp at h; subst h; rfl
  | cons d ds ih =>
    intro n h
    rw [List.prod_cons] at h
    have hpos : 0 < ds.prod := by
      rcases Nat.eq_zero_or_pos ds.prod with h0 | h0
      · rw [h0] at h; simp at h
      · exact h0
    simp only [unflat, flat]
    rw [ih (Nat.mod_lt _ hpos), Nat.mul_comm]
    exact Nat.div_add_mod n ds.prod

theorem flat_inj {ds a b : List Nat} (ha : InBox ds a) (hb : InBox ds b)
    (h : flat ds a = flat ds b) : a = b := by
  rw [← unflat_flat ha, ← unflat_flat hb, h]

theorem inSlab_iff : ∀ {s c idx : List Nat}, inSlab s c idx = true ↔
    ∃ x, InBox c x ∧ s.length = c.length ∧ idx = addIdx s x := by
  intro s
  induction s with
  | nil =>
    intro c idx
    cases c with
    | nil =>
      cases idx with
      | nil => simp [inSlab, InBox.nil_iff, addIdx]
      | cons i is => simp [inSlab, addIdx]
    | cons c cs => simp [inSlab]
  | cons s ss ih =>
    intro c idx
    cases c with
    | nil => simp [inSlab]
    | cons c cs =>
      cases idx with
      | nil =>
        simp only [inSlab, Bool.false_eq_true, false_iff]
        rintro ⟨x, hx, _, he⟩
        obtain ⟨i, is, rfl, _, _⟩ := InBox.cons_iff.1 hx
        simp [addIdx] at he
      | cons i is =>
        simp only [inSlab, Bool.and_eq_true, decide_eq_true_eq, ih]
        constructor
        · rintro ⟨⟨h1, h2⟩, x, hx, hl, rfl⟩
          refine ⟨(i - s) :: x, .cons (by omega) hx, by simp [hl], ?_⟩
          simp only [addIdx, List.zipWith_cons_cons]
          rw [show s + (i - s) = i by omega]
        · rintro ⟨x, hx, hl, he⟩
          obtain ⟨j, js, rfl, hj, hjs⟩ := InBox.cons_iff.1 hx
          simp only [addIdx, List.zipWith_cons_cons, List.cons.injEq] at he
          exact ⟨⟨by omega, by omega⟩, js, hjs, by simpa using hl, he.2⟩

theorem subIdx_addIdx : ∀ {s x : List Nat}, s.length = x.length → subIdx (addIdx s x) s = x := by
  intro s
  induction s with
  | nil => intro x h; cases x with
    | nil => rfl
    | cons => simp at h
  | cons a s ih =>
    intro x h
    cases x with
    | nil => simp at h
    | cons b x =>
      have := ih (x := x) (by simpa using h)
      simp only [addIdx, subIdx, List.zipWith_cons_cons] at this ⊢
      rw [this]; simp

theorem putVara_in {α : Type} (old : List Nat → α) {s c x : List Nat} (buf : Nat → α)
    (hx : InBox c x) (hl : s.length = c.length) :
    putVara old s c buf (addIdx s x) = buf (flat c x) := by
  unfold putVara
  rw [if_pos (inSlab_iff.2 ⟨x, hx, hl, rfl⟩), subIdx_addIdx (by rw [hl, hx.length])]

theorem putVara_out {α : Type} (old : List Nat → α) {s c idx : List Nat} (buf : Nat → α)
    (h : ¬ inSlab s c idx = true) : putVara old s c buf idx = old idx := by
  unfold putVara; rw [if_neg h]

theorem addIdx_zero : ∀ (x : List Nat) (n : Nat), n = x.length →
    addIdx (List.replicate n 0) x = x := by
  intro x
  induction x with
  | nil => intro n h; subst h; rfl
  | cons a x ih =>
    intro n h
    subst h
    simp only [List.length_cons, List.replicate_succ, addIdx, List.zipWith_cons_cons, Nat.zero_add]
    have := ih x.length rfl
    simp only [addIdx] at this
    rw [this]

theorem inBox_addIdx : ∀ {s c d x : List Nat}, s.length = c.length →
    List.Forall₂ (fun (p : Nat × Nat) (d : Nat) => p.1 + p.2 ≤ d) (s.zip c) d → InBox c x →
      InBox d (addIdx s x) := by
  intro s
  induction s with
  | nil =>
    intro c d x hl h hx
    cases c with
    | nil => rw [InBox.nil_iff] at hx; subst hx; cases h; exact .nil
    | cons => simp at hl
  | cons a s ih =>
    intro c d x hl h hx
    cases c with
    | nil => simp at hl
    | cons b c =>
      obtain ⟨i, is, rfl, h1, h2⟩ := InBox.cons_iff.1 hx
      rw [List.zip_cons_cons] at h
      cases h with
      | cons ha hb =>
        simp only [addIdx, List.zipWith_cons_cons]
        exact .cons (by simp at ha; omega) (ih (by simpa using hl) hb h2)

end Verif
