import Verif.Lemmas.StrList
/-
C17: string-list operations are set operations.
-/
namespace Verif
open StrList Spec

variable {α : Type} [DecidableEq α]

/-- Membership tests agree with the contents. -/
theorem C17_membership (l : Slots α) (s : α) : inList l (some s) = true ↔ s ∈ contents l :=
  inList_iff l s

omit [DecidableEq α] in
/-- Adding a string: it succeeds exactly if there is a free slot; then the contents grow by that
string; otherwise nothing changes. -/
theorem C17_add (l : Slots α) (s : α) :
    ((addToList l (some s)).2 = true ↔ 0 < free l) ∧
    ((addToList l (some s)).1.length = l.length) ∧
    (0 < free l → ∀ t, t ∈ contents (addToList l (some s)).1 ↔ t = s ∨ t ∈ contents l) ∧
    (free l = 0 → (addToList l (some s)).1 = l) := by
  refine ⟨?_, ?_, fun h => (addToList_free l s h).1, ?_⟩
  · rcases addToList_cases l s with ⟨a, b, rfl, _, h'⟩ | ⟨hn, h'⟩ <;> rw [h']
    · simp only [free_append, true_iff]
      simp [free, List.filter_cons]; omega
    · simp [(free_zero_iff l).2 hn]
  · rcases addToList_cases l s with ⟨a, b, rfl, _, h'⟩ | ⟨hn, h'⟩ <;> rw [h']
    simp
  · intro h0
    rcases addToList_cases l s with ⟨a, b, rfl, _, h'⟩ | ⟨hn, h'⟩
    · rw [free_append] at h0
      simp [free, List.filter_cons] at h0
    · rw [h']

/-- Union into a list that may already hold strings: the result holds exactly the members of the
three lists if there are as many free slots as strings in the two lists. -/
theorem C17_union_members (l1 l2 u : Slots α)
    (hcap : (contents l1).length + (contents l2).length ≤ free u) (s : α) :
    s ∈ contents (strlistu l1 l2 u) ↔ s ∈ contents l1 ∨ s ∈ contents l2 ∨ s ∈ contents u := by
  obtain ⟨h1, h2⟩ := unionLoop_spec l1 u (by omega)
  obtain ⟨h3, _⟩ := unionLoop_spec l2 (unionLoop l1 u) (by omega)
  unfold strlistu
  rw [h3, h1]
  tauto

/-- Whatever the capacity: nothing else gets in, no duplicate is introduced, and the number of slots
stays the same. -/
theorem C17_union_safe (l1 l2 u : Slots α) :
    (∀ s, s ∈ contents (strlistu l1 l2 u) → s ∈ contents l1 ∨ s ∈ contents l2 ∨ s ∈ contents u) ∧
    ((contents u).Nodup → (contents (strlistu l1 l2 u)).Nodup) ∧
    (strlistu l1 l2 u).length = u.length := by
  refine ⟨fun s h => ?_, fun h => unionLoop_nodup _ _ (unionLoop_nodup _ _ h), ?_⟩
  · rcases unionLoop_mem _ _ _ h with h | h
    · exact Or.inr (Or.inl h)
    · rcases unionLoop_mem _ _ _ h with h | h
      · exact Or.inl h
      · exact Or.inr (Or.inr h)
  · unfold strlistu; rw [unionLoop_length, unionLoop_length]

/-- Union into a new list of `n` slots: the members of the first list and then those of the second, each
once, at its first occurrence; if there are more than `n`, the first `n` of them. -/
theorem C17_union_order (l1 l2 : Slots α) (n : Nat) :
    contents (strlistu l1 l2 (newList n)) =
      (firstOcc [] (contents l1 ++ contents l2)).take n := by
  have h1 := unionLoop_front l1 [] n
  simp only [List.map_nil, List.nil_append] at h1
  unfold strlistu newList
  rw [h1, unionLoop_front, contents_front, firstOcc_append, List.append_nil, List.take_append]
  by_cases hn : (firstOcc [] (contents l1)).length ≤ n
  · rw [List.take_of_length_le hn]
    congr 2
    apply firstOcc_congr
    have key : ∀ (xs seen : List α) (x : α), x ∈ firstOcc seen xs ∨ x ∈ seen ↔ x ∈ xs ∨ x ∈ seen := by
      intro xs
      induction xs with
      | nil => intro seen x; simp [firstOcc]
      | cons y ys ih =>
        intro seen x
        simp only [firstOcc]
        split
        · rename_i hy
          rw [ih, List.mem_cons]
          constructor
          · tauto
          · rintro ((rfl | h) | h)
            · exact Or.inr hy
            · exact Or.inl h
            · exact Or.inr h
        · have := ih (y :: seen) x
          simp only [List.mem_cons] at this ⊢
          tauto
    intro x
    simpa using key (contents l1) [] x
  · simp [show n - (firstOcc [] (contents l1)).length = 0 by omega]

/-- Difference into a new list of `n` slots: the members of the first list that are not in the second,
in their order; if there are more than `n`, the first `n` of them. -/
theorem C17_difference (l1 l2 : Slots α) (n : Nat) :
    contents (strlistsd l1 l2 (newList n)) =
      ((contents l1).filter (· ∉ contents l2)).take n := by
  unfold strlistsd newList
  split
  · rename_i h
    rw [List.length_eq_zero_iff] at h
    subst h
    simp [contents_replicate, contents]
  · split
    · rename_i h
      rw [List.length_eq_zero_iff] at h
      subst h
      have h1 := diffAll_front l1 [] n
      simp only [List.map_nil, List.nil_append] at h1
      rw [h1, contents_front, List.filter_eq_self.2 (by simp [contents])]
    · have h1 := diffLoop_front l2 l1 [] n
      simp only [List.map_nil, List.nil_append] at h1
      rw [h1, contents_front]

omit [DecidableEq α] in
/-- Copying succeeds if the destination is at least as long, and then the destination has exactly the
contents of the source, slot by slot (strlist.h promises that later slots are left intact; they are
cleared). -/
theorem C17_copy (src dst : Slots α) (h : src.length ≤ dst.length) :
    ∃ r, copyList src dst = some r ∧ r.length = dst.length ∧ contents r = contents src ∧
      (∀ (i : Nat), i < src.length → r[i]? = src[i]?) := by
  refine ⟨_, by rw [copyList, if_neg (by omega)], by simp; omega, ?_, ?_⟩
  · rw [contents_append]
    have : contents ((dst.drop src.length).map fun _ => (none : Option α)) = [] := by
      rw [List.map_const', contents_replicate]
    rw [this, List.append_nil]
  · intro i hi
    rw [List.getElem?_append_left hi]

omit [DecidableEq α] in
/-- Appending always succeeds and puts the string last. -/
theorem C17_append (l : Slots α) (s : α) :
    contents (appendToList l s) = contents l ++ [s] ∧ (appendToList l s).length = l.length + 1 := by
  have e : appendToList l s = l ++ [some s] := by
    unfold appendToList copyList newList
    simp only [List.length_replicate]
    rw [if_neg (by omega)]
    simp [List.set_append]
  rw [e, contents_append]
  simp [contents]

omit [DecidableEq α] in
/-- The number reported is the number of strings that are not empty. -/
theorem C17_count (ne : α → Bool) (l : Slots α) :
    numList ne l = ((contents l).filter ne).length := by
  induction l with
  | nil => rfl
  | cons o l ih =>
    cases o with
    | none => exact ih
    | some s =>
      rw [numList, contents_some, ih, List.filter_cons]
      split <;> simp; omega

/-- Comma-separated list from the command line, read into a new list of `n` slots: the membership test
over the reported number of items finds exactly the parts between commas that are not empty. -/
theorem C17_comma_list (arg : List Char) (n : Nat) (r : Slots (List Char)) (k : Nat)
    (h : getStringList arg (newList n) = some (r, k)) (s : List Char) :
    inList (r.take k) (some s) = true ↔ s ∈ parts arg ∧ s ≠ [] := by
  unfold getStringList newList at h
  simp only at h
  split at h
  · cases h
  · rename_i hlen
    simp only [Option.some.injEq, Prod.mk.injEq] at h
    obtain ⟨rfl, rfl⟩ := h
    rw [inList_iff, List.take_append, List.take_of_length_le (by simpa using tokens_length arg),
      contents_append]
    have h0 : ∀ m, contents (((List.replicate n (none : Option (List Char))).drop
        (tokens [] arg).length).take m) = [] := by
      intro m
      rw [List.drop_replicate, List.take_replicate, contents_replicate]
    rw [h0, List.append_nil]
    have h1 : contents ((tokens [] arg).map some) = tokens [] arg := by
      have := contents_front (tokens [] arg) 0
      simpa using this
    rw [h1, tokens_eq]
    rcases hp : parts arg with _ | ⟨p, ps⟩
    · simp
    · simp [List.mem_filter]

/-! ### Concrete cases -/

example : contents (strlistu [some "lon", none, some "lat"] [some "lat", some "lev"] (newList 4))
    = ["lon", "lat", "lev"] := by decide
example : (contents [some "lon", none, some "lat"]).length + (contents [some "lat", some "lev"]).length
    ≤ free (newList (α := String) 4) := by decide
example : contents (strlistsd [some "lon", none, some "lat", some "lev"] [some "lat"] (newList 4))
    = ["lon", "lev"] := by decide
example : getStringList ",lon,,lat,".toList (newList 5) =
    some ([some "lon".toList, some "lat".toList, none, none, none], 4) := by decide

end Verif
