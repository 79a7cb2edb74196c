import Verif.Model.CString
/-
Lemmas about texts.
-/
namespace Verif.CString

theorem strstr_iff (s p : List Char) : strstr s p = true ↔ p <:+: s := by
  induction s with
  | nil => simp [strstr]
  | cons c s ih =>
    rw [strstr, Bool.or_eq_true, ih, List.infix_cons_iff]
    simp

/-- Text without `c` is a part of a text with `c` only before or after this `c`. -/
theorem infix_split {a : Type} {p u v : List a} {c : a} (hc : c ∉ p) (h : p <:+: u ++ c :: v) : p <:+: u ∨ p <:+: v := by
  obtain ⟨s, t, h⟩ := h
  rw [List.append_assoc] at h
  rw [List.append_eq_append_iff] at h
  rcases h with ⟨w, hw, h2⟩ | ⟨w, hw, h2⟩
  · rw [List.append_eq_append_iff] at h2
    rcases h2 with ⟨w2, hw2, h3⟩ | ⟨w2, hw2, h3⟩
    · left
      exact ⟨s, w2, by rw [hw, hw2, List.append_assoc]⟩
    · cases w2 with
      | nil =>
        rw [List.append_nil] at hw2
        exact Or.inl ⟨s, [], by rw [hw, hw2, List.append_nil]⟩
      | cons d w2 =>
        exfalso
        simp at h3
        apply hc
        rw [hw2, h3.1]
        simp
  · cases w with
    | nil =>
      simp at h2
      cases p with
      | nil => left; exact List.nil_infix
      | cons d p =>
        simp at h2
        exact absurd (by simp [h2.1]) hc
    | cons d w =>
      simp at h2
      right
      exact ⟨w, t, by rw [h2.2, List.append_assoc]⟩

end Verif.CString
