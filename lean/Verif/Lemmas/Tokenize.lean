import Verif.Model.Tokenize
import Verif.Spec.Tokenize
namespace Verif.Tokenize
open Verif.Spec

/-- What the scan makes of the pieces: empty ones are dropped, but the last is always kept. -/
def rows (ps : List (List Char)) : List (List Char) :=
  (ps.dropLast.filter fun w => w ≠ []) ++ [ps.getLast?.getD []]

theorem tokGo_squeeze (tokens : List Char) (varlen maxvar : Nat) (s : List Char) : ∀ done cur,
    tokGo tokens varlen maxvar s done cur = tokGo tokens varlen maxvar (squeeze s) done cur := by
  induction s with
  | nil => intro done cur; rfl
  | cons c s ih =>
    intro done cur
    by_cases h : c ≠ ' ' ∧ c ≠ '\t'
    · have : squeeze (c :: s) = c :: squeeze s := by
        unfold squeeze; rw [List.filter_cons_of_pos (by simpa using h)]
      rw [this, tokGo, tokGo, if_pos h, if_pos h]
      simp only [ih]
    · have : squeeze (c :: s) = squeeze s := by
        unfold squeeze; rw [List.filter_cons_of_neg (by simpa using h)]
      rw [this, tokGo, if_neg h, ih]

theorem rows_cons_nil {p : List (List Char)} (h : p ≠ []) : rows ([] :: p) = rows p := by
  cases p with
  | nil => exact absurd rfl h
  | cons a p => simp [rows]

theorem rows_cons {w : List Char} {p : List (List Char)} (hw : w ≠ []) (h : p ≠ []) : rows (w :: p) = w :: rows p := by
  cases p with
  | nil => exact absurd rfl h
  | cons a p => simp [rows, hw]

theorem rows_length_pos (p : List (List Char)) : 0 < (rows p).length := by simp [rows]

theorem splitOnPPrepend_mem_length {p : Char → Bool} : ∀ (s acc : List Char),
    ∃ w ∈ rows (s.splitOnPPrepend p acc), acc ≠ [] → acc.length ≤ w.length := by
  intro s
  induction s with
  | nil => intro acc; exact ⟨acc.reverse, by simp [rows, List.splitOnPPrepend], by simp⟩
  | cons c s ih =>
    intro acc
    rw [List.splitOnPPrepend_cons_eq_if]
    split
    · by_cases ha : acc = []
      · subst ha
        obtain ⟨w, hw, -⟩ := ih []
        exact ⟨w, by rw [List.reverse_nil, rows_cons_nil (by simp)]; exact hw, fun h => absurd rfl h⟩
      · exact ⟨acc.reverse, by rw [rows_cons (by simpa using ha) (by simp)]; simp, by simp⟩
    · obtain ⟨w, hw, h⟩ := ih (c :: acc)
      refine ⟨w, hw, fun _ => ?_⟩
      have := h (by simp)
      simp at this
      omega

theorem tokGo_spec (tokens : List Char) (varlen maxvar : Nat) (s : List Char)
    (hs : ∀ c ∈ s, c ≠ ' ' ∧ c ≠ '\t') : ∀ done cur, done.length < maxvar → cur.length < varlen →
    let r := rows (s.splitOnPPrepend (fun c => tokens.contains c) cur.reverse)
    (done.length + r.length ≤ maxvar ∧ (∀ w ∈ r, w.length < varlen) →
      tokGo tokens varlen maxvar s done cur = .ok (done ++ r)) ∧
    (¬(done.length + r.length ≤ maxvar ∧ (∀ w ∈ r, w.length < varlen)) →
      ∃ e, tokGo tokens varlen maxvar s done cur = .error e) := by
  induction s with
  | nil =>
    intro done cur h1 h2
    simp [rows, List.splitOnPPrepend, tokGo]
    omega
  | cons c s ih =>
    intro done cur h1 h2
    have hc := hs c (by simp)
    have ih := ih fun c h => hs c (by simp [h])
    dsimp only at ih ⊢
    rw [List.splitOnPPrepend_cons_eq_if, tokGo, if_pos hc]
    by_cases ht : tokens.contains c = true
    · simp only [ht, if_true]
      by_cases hcur : cur.length = 0
      · have hcur' : cur = [] := List.length_eq_zero_iff.1 hcur
        subst hcur'
        simp only [List.length_nil, ne_eq, not_true_eq_false, if_false, List.reverse_nil]
        rw [rows_cons_nil (by simp)]
        exact ih done [] h1 h2
      · have hcur' : cur ≠ [] := fun h => hcur (by rw [h]; rfl)
        simp only [ne_eq, hcur, not_false_eq_true, if_true, List.reverse_reverse]
        rw [rows_cons hcur' (by simp)]
        have hpos := rows_length_pos (s.splitOnP fun c => tokens.contains c)
        by_cases hm : done.length + 1 ≥ maxvar
        · rw [if_pos hm]
          refine ⟨fun h => ?_, fun _ => ⟨_, rfl⟩⟩
          have := h.1
          simp only [List.length_cons] at this
          omega
        · rw [if_neg hm]
          obtain ⟨k1, k2⟩ := ih (done ++ [cur]) [] (by simp; omega) (by simp; omega)
          simp only [List.length_append, List.length_cons, List.length_nil, List.reverse_nil,
            List.splitOnPPrepend_nil_right, List.append_assoc, List.singleton_append] at k1 k2
          constructor
          · rintro ⟨h, h'⟩
            simp only [List.length_cons] at h
            exact k1 ⟨by omega, fun w hw => h' w (List.mem_cons_of_mem _ hw)⟩
          · intro h
            apply k2
            rintro ⟨h3, h4⟩
            apply h
            refine ⟨by simp only [List.length_cons]; omega, fun w hw => ?_⟩
            rcases List.mem_cons.1 hw with rfl | hw
            · exact h2
            · exact h4 w hw
    · simp only [ht, if_false, Bool.false_eq_true]
      by_cases hl : cur.length + 1 ≥ varlen
      · rw [if_pos hl]
        refine ⟨?_, fun _ => ⟨_, rfl⟩⟩
        rintro ⟨-, h⟩
        exfalso
        obtain ⟨w, hw, hlen⟩ := splitOnPPrepend_mem_length (p := fun c => tokens.contains c) s (c :: cur.reverse)
        have k1 := h w hw
        have k2 := hlen (by simp)
        simp at k2
        omega
      · rw [if_neg hl]
        have := ih done (cur ++ [c]) h1 (by simp; omega)
        simpa using this

theorem rows_last (ps : List (List Char)) (h : ps ≠ []) :
    rows ps = (ps.filter fun w => w ≠ []) ++ (if ps.getLast h = [] then [[]] else []) := by
  have e : ps = ps.dropLast ++ [ps.getLast h] := (List.dropLast_concat_getLast h).symm
  have e2 : ps.filter (fun w => w ≠ []) = (ps.dropLast.filter fun w => w ≠ []) ++
      (if ps.getLast h = [] then [] else [ps.getLast h]) := by
    rw (occs := .pos [1]) [e]
    rw [List.filter_append]
    congr 1
    by_cases hl : ps.getLast h = [] <;> simp [hl]
  rw [e2, rows, List.getLast?_eq_some_getLast h]
  by_cases hl : ps.getLast h = [] <;> simp [hl]

theorem split_last {p : Char → Bool} (s : List Char) : ∀ (acc : List Char),
    ((s.splitOnPPrepend p acc).getLast (by simp) = [] ↔ (s = [] ∧ acc = []) ∨ ∃ c, s.getLast? = some c ∧ p c = true) := by
  induction s with
  | nil => intro acc; simp [List.splitOnPPrepend]
  | cons c s ih =>
    intro acc
    have hl : (c :: s).getLast? = if s = [] then some c else s.getLast? := by
      cases s with
      | nil => rfl
      | cons d s => simp [List.getLast?_cons]
    by_cases hp : p c = true
    · have e : (c :: s).splitOnPPrepend p acc = acc.reverse :: s.splitOnPPrepend p [] := by
        rw [List.splitOnPPrepend_cons_eq_if, if_pos hp]; rfl
      simp only [e]
      rw [List.getLast_cons (by simp), ih [], hl]
      by_cases hs : s = []
      · subst hs; simp [hp]
      · simp [hs]
    · have e : (c :: s).splitOnPPrepend p acc = s.splitOnPPrepend p (c :: acc) := by
        rw [List.splitOnPPrepend_cons_eq_if, if_neg hp]
      simp only [e]
      rw [ih (c :: acc), hl]
      by_cases hs : s = []
      · subst hs; simp [hp]
      · simp [hs]

end Verif.Tokenize
