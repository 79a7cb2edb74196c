import Mathlib.Tactic.Tauto
import Verif.Spec.StrList
/-
Helper lemmas about string lists.
-/
namespace Verif.StrList
open Spec

variable {α : Type}

theorem mem_contents {l : Slots α} {s : α} : s ∈ contents l ↔ some s ∈ l := by
  simp [contents]

theorem contents_none (l : Slots α) : contents (none :: l) = contents l := rfl
theorem contents_some (s : α) (l : Slots α) : contents (some s :: l) = s :: contents l := rfl
theorem contents_append (l m : Slots α) : contents (l ++ m) = contents l ++ contents m := by
  simp [contents]

theorem contents_replicate (n : Nat) : contents (List.replicate n (none : Option α)) = [] := by
  induction n with
  | zero => rfl
  | succ n ih => rw [List.replicate_succ, contents_none, ih]

variable [DecidableEq α]

theorem inList_iff (l : Slots α) (s : α) : inList l (some s) = true ↔ s ∈ contents l := by
  induction l with
  | nil => simp [inList, contents]
  | cons o l ih =>
    cases o with
    | none => rw [inList, contents_none, ih]
    | some t =>
      rw [inList, contents_some, List.mem_cons]
      by_cases h : t = s
      · simp [h]
      · rw [if_neg h, ih]
        constructor
        · exact Or.inr
        · rintro (h' | h')
          · exact absurd h'.symm h
          · exact h'

omit [DecidableEq α] in
/-- Adding: either a free slot is taken, or there is none and nothing changes. -/
theorem addToList_cases (l : Slots α) (s : α) :
    (∃ a b, l = a ++ none :: b ∧ (∀ o ∈ a, o ≠ none) ∧ addToList l (some s) = (a ++ some s :: b, true)) ∨
    ((∀ o ∈ l, o ≠ none) ∧ addToList l (some s) = (l, false)) := by
  induction l with
  | nil => right; simp [addToList]
  | cons o l ih =>
    cases o with
    | none => left; exact ⟨[], l, rfl, by simp, rfl⟩
    | some t =>
      rcases ih with ⟨a, b, rfl, ha, h⟩ | ⟨hn, h⟩
      · left
        refine ⟨some t :: a, b, rfl, ?_, ?_⟩
        · intro o ho
          rcases List.mem_cons.1 ho with rfl | ho
          · simp
          · exact ha o ho
        · simp [addToList, h]
      · right
        refine ⟨?_, by simp [addToList, h]⟩
        intro o ho
        rcases List.mem_cons.1 ho with rfl | ho
        · simp
        · exact hn o ho

omit [DecidableEq α] in
theorem free_zero_iff (l : Slots α) : free l = 0 ↔ ∀ o ∈ l, o ≠ none := by
  unfold free
  rw [List.length_eq_zero_iff, List.filter_eq_nil_iff]
  constructor
  · intro h o ho hn; exact h o ho (by simp [hn])
  · intro h o ho hn; exact h o ho (by simpa using hn)

omit [DecidableEq α] in
theorem free_append (l m : Slots α) : free (l ++ m) = free l + free m := by simp [free]

omit [DecidableEq α] in
theorem addToList_mem (l : Slots α) (s t : α) (h : t ∈ contents (addToList l (some s)).1) :
    t = s ∨ t ∈ contents l := by
  rcases addToList_cases l s with ⟨a, b, rfl, _, h'⟩ | ⟨_, h'⟩ <;> rw [h'] at h
  · simp only [contents_append, contents_some, contents_none, List.mem_append, List.mem_cons] at h ⊢
    tauto
  · exact Or.inr h

omit [DecidableEq α] in
theorem addToList_free (l : Slots α) (s : α) (hf : 0 < free l) :
    (∀ t, t ∈ contents (addToList l (some s)).1 ↔ t = s ∨ t ∈ contents l) ∧
    free (addToList l (some s)).1 + 1 = free l := by
  rcases addToList_cases l s with ⟨a, b, rfl, _, h'⟩ | ⟨hn, h'⟩ <;> rw [h']
  · constructor
    · intro t
      simp only [contents_append, contents_some, contents_none, List.mem_append, List.mem_cons]
      tauto
    · simp only [free_append]
      simp only [free, List.filter_cons, Option.isNone]
      simp
      omega
  · rw [(free_zero_iff l).2 hn] at hf
    cases hf

omit [DecidableEq α] in
theorem addToList_nodup (l : Slots α) (s : α) (h : (contents l).Nodup) (hs : s ∉ contents l) :
    (contents (addToList l (some s)).1).Nodup := by
  rcases addToList_cases l s with ⟨a, b, rfl, _, h'⟩ | ⟨_, h'⟩ <;> rw [h']
  · simp only [contents_append, contents_some, contents_none] at h hs ⊢
    rw [List.mem_append, not_or] at hs
    rw [List.nodup_append] at h ⊢
    obtain ⟨h1, h2, h3⟩ := h
    refine ⟨h1, List.nodup_cons.2 ⟨hs.2, h2⟩, ?_⟩
    intro x hx y hy
    rcases List.mem_cons.1 hy with rfl | hy
    · rintro rfl; exact hs.1 hx
    · exact h3 x hx y hy
  · exact h

omit [DecidableEq α] in
/-- A list filled from the front. -/
theorem addToList_front (xs : List α) (k : Nat) (s : α) :
    (addToList (xs.map some ++ List.replicate k none) (some s)).1 =
      match k with
      | 0 => xs.map some
      | k + 1 => (xs ++ [s]).map some ++ List.replicate k none := by
  induction xs with
  | nil => cases k <;> rfl
  | cons x xs ih =>
    simp only [List.map_cons, List.cons_append, addToList, ih]
    cases k <;> rfl

theorem unionLoop_mem (l u : Slots α) (t : α) (h : t ∈ contents (unionLoop l u)) :
    t ∈ contents l ∨ t ∈ contents u := by
  induction l generalizing u with
  | nil => exact Or.inr h
  | cons o l ih =>
    cases o with
    | none => exact ih u h
    | some s =>
      rw [unionLoop] at h
      rcases ih _ h with h | h
      · left; rw [contents_some]; exact List.mem_cons_of_mem _ h
      · split at h
        · exact Or.inr h
        · rcases addToList_mem _ _ _ h with rfl | h
          · left; rw [contents_some]; exact List.mem_cons_self
          · exact Or.inr h

theorem unionLoop_spec (l u : Slots α) (hf : (contents l).length ≤ free u) :
    (∀ t, t ∈ contents (unionLoop l u) ↔ t ∈ contents l ∨ t ∈ contents u) ∧
    free u ≤ free (unionLoop l u) + (contents l).length := by
  induction l generalizing u with
  | nil => simp [unionLoop, contents]
  | cons o l ih =>
    cases o with
    | none => exact ih u hf
    | some s =>
      rw [unionLoop]
      rw [contents_some, List.length_cons] at hf
      by_cases hin : inList u (some s) = true
      · rw [if_pos hin]
        obtain ⟨h1, h2⟩ := ih u (by omega)
        have hs := (inList_iff u s).1 hin
        refine ⟨fun t => ?_, by rw [contents_some, List.length_cons]; omega⟩
        rw [h1, contents_some, List.mem_cons]
        constructor
        · tauto
        · rintro ((rfl | h) | h)
          · exact Or.inr hs
          · exact Or.inl h
          · exact Or.inr h
      · rw [if_neg hin]
        obtain ⟨g1, g2⟩ := addToList_free u s (by omega)
        obtain ⟨h1, h2⟩ := ih (addToList u (some s)).1 (by omega)
        refine ⟨fun t => ?_, by rw [contents_some, List.length_cons]; omega⟩
        rw [h1, g1, contents_some, List.mem_cons]
        tauto

theorem unionLoop_nodup (l u : Slots α) (h : (contents u).Nodup) :
    (contents (unionLoop l u)).Nodup := by
  induction l generalizing u with
  | nil => exact h
  | cons o l ih =>
    cases o with
    | none => exact ih u h
    | some s =>
      rw [unionLoop]
      split
      · exact ih u h
      · rename_i hin
        exact ih _ (addToList_nodup u s h (fun hs => hin ((inList_iff u s).2 hs)))

theorem unionLoop_length (l u : Slots α) : (unionLoop l u).length = u.length := by
  induction l generalizing u with
  | nil => rfl
  | cons o l ih =>
    cases o with
    | none => exact ih u
    | some s =>
      rw [unionLoop, ih]
      split
      · rfl
      · rcases addToList_cases u s with ⟨a, b, rfl, _, h'⟩ | ⟨_, h'⟩ <;> rw [h']
        simp

omit [DecidableEq α] in
theorem contents_front (xs : List α) (k : Nat) :
    contents (xs.map some ++ List.replicate k none) = xs := by
  rw [contents_append, contents_replicate, List.append_nil]
  induction xs with
  | nil => rfl
  | cons x xs ih => rw [List.map_cons, contents_some, ih]

/-- `firstOcc` depends on `seen` only as a set. -/
theorem firstOcc_congr (xs : List α) : ∀ (s1 s2 : List α), (∀ x, x ∈ s1 ↔ x ∈ s2) →
    firstOcc s1 xs = firstOcc s2 xs := by
  induction xs with
  | nil => intros; rfl
  | cons x xs ih =>
    intro s1 s2 h
    simp only [firstOcc, h x]
    split
    · exact ih _ _ h
    · rw [ih (x :: s1) (x :: s2)]
      intro y; simp [h y]

theorem firstOcc_append (xs ys : List α) : ∀ seen,
    firstOcc seen (xs ++ ys) = firstOcc seen xs ++ firstOcc (xs ++ seen) ys := by
  induction xs with
  | nil => intro seen; rfl
  | cons x xs ih =>
    intro seen
    simp only [List.cons_append, firstOcc]
    split
    · rename_i hx
      rw [ih]
      congr 1
      apply firstOcc_congr
      intro y
      simp only [List.mem_append, List.mem_cons]
      constructor
      · tauto
      · rintro (rfl | h)
        · exact Or.inr hx
        · exact h
    · rw [ih, List.cons_append]
      congr 2
      apply firstOcc_congr
      intro y
      simp only [List.mem_append, List.mem_cons]
      tauto

/-- The union loop on a list filled from the front: new members are appended in order of first
occurrence, as far as there is room. -/
theorem unionLoop_front (l : Slots α) : ∀ (xs : List α) (k : Nat),
    unionLoop l (xs.map some ++ List.replicate k none) =
      (xs ++ (firstOcc xs (contents l)).take k).map some ++
        List.replicate (k - (firstOcc xs (contents l)).length) none := by
  induction l with
  | nil => intro xs k; simp [unionLoop, contents, firstOcc]
  | cons o l ih =>
    intro xs k
    cases o with
    | none => exact ih xs k
    | some s =>
      rw [unionLoop, contents_some]
      by_cases hin : s ∈ xs
      · rw [if_pos (by rw [inList_iff, contents_front]; exact hin), ih]
        simp [firstOcc, hin]
      · rw [if_neg (by rw [inList_iff, contents_front]; exact hin), addToList_front]
        cases k with
        | zero =>
          have h0 := ih xs 0
          simp only [List.replicate_zero, List.append_nil] at h0
          simp only [h0]
          simp
        | succ k =>
          rw [ih]
          simp only [firstOcc, hin, if_false, List.take_succ_cons, List.length_cons,
            Nat.add_sub_add_right]
          have hc : firstOcc (xs ++ [s]) (contents l) = firstOcc (s :: xs) (contents l) :=
            firstOcc_congr _ _ _ (by intro y; simp only [List.mem_append, List.mem_cons]; tauto)
          rw [hc]
          simp

theorem diffAll_front (l : Slots α) : ∀ (xs : List α) (k : Nat),
    diffAll l (xs.map some ++ List.replicate k none) =
      (xs ++ (contents l).take k).map some ++ List.replicate (k - (contents l).length) none := by
  induction l with
  | nil => intro xs k; simp [diffAll, contents]
  | cons o l ih =>
    intro xs k
    cases o with
    | none => rw [diffAll, contents_none]; simpa [addToList] using ih xs k
    | some s =>
      rw [diffAll, contents_some, addToList_front]
      cases k with
      | zero =>
        have h0 := ih xs 0
        simp only [List.replicate_zero, List.append_nil] at h0
        simp only [h0]
        simp
      | succ k => rw [ih]; simp

theorem diffLoop_front (l2 l : Slots α) : ∀ (xs : List α) (k : Nat),
    diffLoop l2 l (xs.map some ++ List.replicate k none) =
      (xs ++ ((contents l).filter (· ∉ contents l2)).take k).map some ++
        List.replicate (k - ((contents l).filter (· ∉ contents l2)).length) none := by
  induction l with
  | nil => intro xs k; simp [diffLoop, contents]
  | cons o l ih =>
    intro xs k
    cases o with
    | none => rw [diffLoop, contents_none]; simpa [addToList, inList] using ih xs k
    | some s =>
      rw [diffLoop, contents_some]
      by_cases hin : s ∈ contents l2
      · rw [if_pos ((inList_iff l2 s).2 hin), ih]
        simp [hin]
      · rw [if_neg (by rw [inList_iff]; exact hin), addToList_front]
        cases k with
        | zero =>
          have h0 := ih xs 0
          simp only [List.replicate_zero, List.append_nil] at h0
          simp only [h0]
          simp
        | succ k => rw [ih]; simp [hin]

/-! ### Comma-separated lists -/

theorem parts_ne_nil (cs : List Char) : parts cs ≠ [] := by
  cases cs with
  | nil => simp [parts]
  | cons c cs =>
    unfold parts
    split
    · simp
    · split <;> simp

theorem parts_length (cs : List Char) :
    (parts cs).length = 1 + (cs.filter (· = ',')).length := by
  induction cs with
  | nil => rfl
  | cons c cs ih =>
    unfold parts
    by_cases h : c = ','
    · simp only [h, if_true, List.length_cons, ih]
      simp; omega
    · simp only [h, if_false]
      cases hp : parts cs with
      | nil => exact absurd hp (parts_ne_nil cs)
      | cons p ps =>
        rw [hp] at ih
        simp [h, ← ih]

/-- The tokens are the parts that are not empty. -/
theorem tokens_eq (cs : List Char) : ∀ cur : List Char,
    tokens cur cs =
      (match parts cs with
        | [] => []
        | p :: ps => (cur ++ p) :: ps).filter (· ≠ []) := by
  induction cs with
  | nil => intro cur; by_cases h : cur = [] <;> simp [tokens, parts, h]
  | cons c cs ih =>
    intro cur
    unfold tokens
    rcases hp : parts cs with _ | ⟨p, ps⟩
    · exact absurd hp (parts_ne_nil cs)
    · by_cases h : c = ','
      · have e := ih []
        rw [hp] at e
        simp only [List.nil_append] at e
        have hpc : parts (c :: cs) = [] :: p :: ps := by rw [parts, if_pos h, hp]
        rw [if_pos h, hpc, e]
        by_cases hc : cur = [] <;> simp [hc]
      · have e := ih (cur ++ [c])
        rw [hp] at e
        have hpc : parts (c :: cs) = (c :: p) :: ps := by rw [parts, if_neg h, hp]
        rw [if_neg h, hpc, e]
        simp

/-- There are at most `countItems` tokens. -/
theorem tokens_length (cs : List Char) : (tokens [] cs).length ≤ countItems cs := by
  rw [tokens_eq]
  cases cs with
  | nil => simp [parts, countItems]
  | cons c cs =>
    have h1 := parts_length (c :: cs)
    rcases hp : parts (c :: cs) with _ | ⟨p, ps⟩
    · exact absurd hp (parts_ne_nil _)
    · simp only [List.nil_append, countItems]
      by_cases h : c = ','
      · have hp' : p = [] := by
          rw [parts, if_pos h] at hp
          simp at hp
          first | exact hp.1 | exact hp.1.symm
        have hlen : ps.length = 1 + (cs.filter (· = ',')).length := by
          rw [hp] at h1
          simp [h] at h1
          omega
        rw [hp']
        simp only [ne_eq, not_true_eq_false, decide_false, Bool.false_eq_true, not_false_eq_true,
          List.filter_cons_of_neg]
        exact Nat.le_trans (List.length_filter_le _ _) (Nat.le_of_eq hlen)
      · rw [hp] at h1
        simp only [List.filter_cons, h, decide_false, Bool.false_eq_true, if_false] at h1
        exact Nat.le_trans (List.length_filter_le _ _) (Nat.le_of_eq h1)

end Verif.StrList
