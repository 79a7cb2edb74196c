import Verif.Spec.FieldAtts
import Mathlib.Tactic.Tauto
/-
Helper lemmas for C132.
-/
namespace Verif.FieldAtts
open Verif.Spec.FieldAtts

theorem after_append {key : Str} (hk : key ≠ []) : ∀ {p s : Str}, (∀ t, t ≠ [] → t <:+ p → ¬ key <+: t ++ s) → after key (p ++ s) = after key s := by
  intro p
  induction p with
  | nil => intro s _; rfl
  | cons c p ih =>
    intro s h
    have h1 := h (c :: p) (by simp) (List.suffix_refl _)
    rw [List.cons_append, after, if_neg, ih]
    · intro t ht hs
      exact h t ht (hs.trans (List.suffix_cons c p))
    · intro hc
      exact h1 (by simpa using List.isPrefixOf_iff_prefix.1 hc)

theorem after_here {key r : Str} : after key (key ++ r) = some r := by
  cases key with
  | nil =>
    cases r with
    | nil => rfl
    | cons c r => simp [after]
  | cons c key =>
    rw [List.cons_append, after, if_pos]
    · simp
    · exact List.isPrefixOf_iff_prefix.2 ⟨r, by simp⟩

/-- The part of a word before its first colon. -/
theorem takeWhile_colon {k r : Str} (hk : ':' ∉ k) : (k ++ ':' :: r).takeWhile (· ≠ ':') = k := by
  induction k with
  | nil => simp
  | cons c k ih =>
    have hc : c ≠ ':' := fun h => hk (by simp [h])
    have := ih (fun h => hk (by simp [h]))
    simp only [List.cons_append, List.takeWhile_cons]
    simp only [ne_eq, decide_not] at this
    simp [hc, this]

/-- An occurrence of `k:` that begins within an entry's name is an end of the name. -/
theorem prefix_in_name {k n r : Str} (hk : ':' ∉ k) (hn : ':' ∉ n) {t : Str} (ht : t <:+ n) (h : k ++ [':'] <+: t ++ ':' :: r) : k = t := by
  obtain ⟨u, hu⟩ := h
  have h1 := takeWhile_colon (r := u) hk
  have h2 := takeWhile_colon (k := t) (r := r) (fun hc => hn (ht.subset hc))
  rw [← h1, ← h2, ← hu]
  simp

/-- No occurrence of `k:` begins in a part without colons that ends with a blank, or in one at the end. -/
theorem not_prefix_of_blank {k t s : Str} (hk : ' ' ∉ k) (hkc : ':' ∉ k) (ht : ':' ∉ t) (hb : ' ' ∈ t) : ¬ k ++ [':'] <+: t ++ s := by
  rintro ⟨u, hu⟩
  have hu : k ++ (':' :: u) = t ++ s := by simpa using hu
  rcases List.append_eq_append_iff.1 hu with ⟨w, h1, h2⟩ | ⟨w, h1, h2⟩
  · cases w with
    | nil => simp at h1; subst h1; exact hk hb
    | cons c w =>
      simp only [List.cons_append, List.cons.injEq] at h2
      rw [h1, ← h2.1] at ht
      simp at ht
  · rw [h1] at hk
    simp [hb] at hk

theorem not_prefix_of_end {k t : Str} (ht : ':' ∉ t) : ¬ k ++ [':'] <+: t := by
  intro h
  exact ht (h.subset (by simp))

theorem mem_replicate_blank {n : Nat} {c : Char} (h : c ∈ List.replicate n ' ') : c = ' ' := (List.mem_replicate.1 h).2

/-- Suffixes of `a ++ b`: within `b`, or a suffix of `a` before `b`. -/
theorem suffix_append_cases {a b t : Str} (h : t <:+ a ++ b) : t <:+ b ∨ ∃ u, u ≠ [] ∧ u <:+ a ∧ t = u ++ b := by
  obtain ⟨w, hw⟩ := h
  rcases List.append_eq_append_iff.1 hw with ⟨x, h1, h2⟩ | ⟨x, h1, h2⟩
  · cases x with
    | nil => left; rw [h2]; exact List.suffix_refl _
    | cons c x => exact Or.inr ⟨c :: x, by simp, ⟨w, h1.symm⟩, h2⟩
  · exact Or.inl ⟨x, h2.symm⟩

theorem after_text {k : Str} (hk : ' ' ∉ k ∧ ':' ∉ k) : ∀ {l : List Entry}, (∀ e ∈ l, e.Ok) → (∀ e ∈ l, k <:+ e.name → k = e.name) →
    (lookup k l = none ∧ after (k ++ [':']) (text l) = none) ∨
    ∃ v g r, v ≠ [] ∧ ' ' ∉ v ∧ lookup k l = some v ∧ after (k ++ [':']) (text l) = some (List.replicate g ' ' ++ (v ++ r)) ∧ (r = [] ∨ ∃ r', r = ' ' :: r') := by
  intro l
  induction l with
  | nil =>
    intro _ _
    left
    exact ⟨rfl, by simp [text, after]⟩
  | cons e l ih =>
    intro hok hsuf
    have he := hok e List.mem_cons_self
    have hx : ∃ tail, text (e :: l) = e.name ++ ':' :: (List.replicate e.gap ' ' ++ (e.value ++ tail)) ∧ (tail = [] ∨ ∃ r', tail = ' ' :: r') ∧
        ((l = [] ∧ tail = List.replicate e.behind ' ') ∨ tail = List.replicate (e.behind + 1) ' ' ++ text l) := by
      cases l with
      | nil =>
        refine ⟨_, rfl, ?_, Or.inl ⟨rfl, rfl⟩⟩
        cases e.behind with
        | zero => left; rfl
        | succ b => right; exact ⟨_, List.replicate_succ⟩
      | cons e' l => exact ⟨_, rfl, Or.inr ⟨_, by rw [List.replicate_succ]; rfl⟩, Or.inr rfl⟩
    obtain ⟨tail, hx, htail, hcase⟩ := hx
    by_cases hn : e.name = k
    · right
      refine ⟨e.value, e.gap, tail, he.2.2, he.2.1.1, by simp [lookup, hn], ?_, htail⟩
      rw [hx, hn]
      have := after_here (key := k ++ [':']) (r := List.replicate e.gap ' ' ++ (e.value ++ tail))
      simpa using this
    · -- the occurrence is not in this entry
      have hskip : after (k ++ [':']) (text (e :: l)) = after (k ++ [':']) (text l) := by
        rcases hcase with ⟨hl, ht⟩ | ht
        · subst hl
          have : text [e] = text [e] ++ ([] : Str) := by simp
          rw [this]
          refine after_append (by simp) ?_
          intro t hne hs
          rw [hx] at hs
          rcases suffix_append_cases hs with hs | ⟨u, hu, hun, rfl⟩
          · rw [List.append_nil]
            rcases List.suffix_cons_iff.1 hs with rfl | hs
            · intro hp
              have := prefix_in_name (n := []) (t := []) hk.2 (by simp) (List.suffix_refl _) hp
              subst this
              exact hn (hsuf e List.mem_cons_self (List.nil_suffix)).symm
            · refine not_prefix_of_end (fun hc => ?_)
              have hc := hs.subset hc
              simp only [List.mem_append] at hc
              rcases hc with hc | hc | hc
              · cases mem_replicate_blank hc
              · exact he.2.1.2 hc
              · rw [ht] at hc; cases mem_replicate_blank hc
          · rw [List.append_nil]
            intro hp
            have := prefix_in_name hk.2 he.1.2 hun hp
            subst this
            exact hn (hsuf e List.mem_cons_self hun).symm
        · have e1 : text (e :: l) = (e.name ++ ':' :: (List.replicate e.gap ' ' ++ (e.value ++ List.replicate (e.behind + 1) ' '))) ++ text l := by
            rw [hx, ht]
            simp
          rw [e1]
          refine after_append (by simp) ?_
          intro t hne hs
          rcases suffix_append_cases hs with hs | ⟨u, hu, hun, rfl⟩
          · rcases List.suffix_cons_iff.1 hs with rfl | hs
            · intro hp
              have := prefix_in_name (n := []) (t := []) hk.2 (by simp) (List.suffix_refl _) hp
              subst this
              exact hn (hsuf e List.mem_cons_self (List.nil_suffix)).symm
            · refine not_prefix_of_blank hk.1 hk.2 (fun hc => ?_) ?_
              · have hc := hs.subset hc
                simp only [List.mem_append] at hc
                rcases hc with hc | hc | hc
                · cases mem_replicate_blank hc
                · exact he.2.1.2 hc
                · cases mem_replicate_blank hc
              · obtain ⟨w, hw⟩ := hs
                have hlast : (w ++ t).getLast? = some ' ' := by
                  rw [hw, List.replicate_succ', ← List.append_assoc, ← List.append_assoc, List.getLast?_concat]
                rw [List.getLast?_append_of_ne_nil _ hne] at hlast
                exact List.mem_of_getLast? hlast
          · intro hp
            have hp : k ++ [':'] <+: u ++ ':' :: ((List.replicate e.gap ' ' ++ (e.value ++ List.replicate (e.behind + 1) ' ')) ++ text l) := by simpa using hp
            have := prefix_in_name hk.2 he.1.2 hun hp
            subst this
            exact hn (hsuf e List.mem_cons_self hun).symm
      rw [hskip]
      simp only [lookup, hn, if_false]
      exact ih (fun e he => hok e (List.mem_cons_of_mem _ he)) (fun e he => hsuf e (List.mem_cons_of_mem _ he))

theorem word_of {g : Nat} {v r : Str} (hv : v ≠ []) (hb : ' ' ∉ v) (hr : r = [] ∨ ∃ r', r = ' ' :: r') :
    (List.replicate g ' ' ++ (v ++ r)).dropWhile (· = ' ') = v ++ r ∧ (v ++ r).takeWhile (· ≠ ' ') = v := by
  constructor
  · induction g with
    | zero =>
      cases v with
      | nil => exact absurd rfl hv
      | cons c v =>
        have : c ≠ ' ' := fun h => hb (by simp [h])
        simp [this]
    | succ g ih => simpa [List.replicate_succ] using ih
  · have h1 : ∀ c ∈ v, (decide (c ≠ ' ')) = true := fun c hc => by
      simp only [decide_eq_true_eq]
      rintro rfl
      exact hb hc
    rw [List.takeWhile_append_of_pos h1]
    rcases hr with rfl | ⟨r', rfl⟩ <;> simp

end Verif.FieldAtts
