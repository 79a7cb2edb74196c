import Verif.Model.AxisAtts
/-
C161: attributes of axes.
-/
namespace Verif
open AxisAtts

namespace Spec.AxisAtts
/-- The attribute is a text of one character. -/
def Letter (a : Atts) (name : String) (c : Char) : Prop := a name = some (.text [c])
/-- There is no such text. -/
def NoText (a : Atts) (name : String) : Prop := ∀ s, a name ≠ some (.text s)
/-- The letter of an axis: that of `cartesian_axis`, or else that of `axis`, or else N. -/
def Axis (a : Atts) (c : Char) : Prop :=
  Letter a "cartesian_axis" c ∨ NoText a "cartesian_axis" ∧ (Letter a "axis" c ∨ NoText a "axis" ∧ c = 'N')
end Spec.AxisAtts
open Spec.AxisAtts

private theorem getChar_noText (c : Char) {o : Option Att} (h : ∀ s, o ≠ some (.text s)) : getChar c o = some (c, false) := by
  rcases o with _ | ⟨s | n⟩
  · rfl
  · exact absurd rfl (h s)
  · rfl

/-- The letter of an axis is found, if the attributes that are read have one character. -/
theorem C161_cart_partial (a : Atts) (c : Char) (h : Axis a c) : cart a = .ok c := by
  unfold cart
  rcases h with h | ⟨h, h2 | ⟨h2, rfl⟩⟩
  · rw [h]; rfl
  · rw [getChar_noText 'N' h]
    simp only
    rw [h2]; rfl
  · rw [getChar_noText 'N' h]
    simp only
    rw [getChar_noText 'N' h2]

/-- A longer text is written beyond the one character. -/
theorem C161_cart_wrong (a : Atts) (s : List Char) (hs : 2 ≤ s.length) (h : a "cartesian_axis" = some (.text s) ∨ NoText a "cartesian_axis" ∧ a "axis" = some (.text s)) :
    cart a = .broken := by
  obtain ⟨x, y, t, rfl⟩ : ∃ x y t, s = x :: y :: t := by
    match s, hs with
    | x :: y :: t, _ => exact ⟨x, y, t, rfl⟩
  unfold cart
  rcases h with h | ⟨h, h2⟩
  · rw [h]; rfl
  · rw [getChar_noText 'N' h]
    simp only
    rw [h2]; rfl

/-- An empty `cartesian_axis` hides the letter of `axis`. -/
theorem C161_empty_wrong (a : Atts) (h : a "cartesian_axis" = some (.text [])) : cart a = .ok 'N' := by
  unfold cart
  rw [h]; rfl

/-- The name of the bounds is the text of `climatology`, or else of `bounds`, or else of `edges`, or else "none"; it must fit the buffer. -/
theorem C161_bounds_partial (size : Nat) (a : Atts) (s : List Char) (hs : s.length < size) :
    (a "climatology" = some (.text s) → bndname size a = .ok s) ∧
    (a "climatology" = none → a "bounds" = some (.text s) → bndname size a = .ok s) ∧
    (a "climatology" = none → a "bounds" = none → a "edges" = some (.text s) → bndname size a = .ok s) ∧
    (a "climatology" = none → a "bounds" = none → a "edges" = none → bndname size a = .ok "none".toList) := by
  unfold bndname bndAtt
  refine ⟨fun h => ?_, fun h h2 => ?_, fun h h2 h3 => ?_, fun h h2 h3 => ?_⟩
  · rw [h]; exact if_neg (by omega)
  · rw [h, h2]; exact if_neg (by omega)
  · rw [h, h2, h3]; exact if_neg (by omega)
  · rw [h, h2, h3]; rfl

/-- A longer name is written beyond the buffer. -/
theorem C161_bounds_wrong (size : Nat) (a : Atts) (s : List Char) (hs : size ≤ s.length)
    (h : a "climatology" = some (.text s) ∨ a "climatology" = none ∧ (a "bounds" = some (.text s) ∨ a "bounds" = none ∧ a "edges" = some (.text s))) : bndname size a = .broken := by
  unfold bndname bndAtt
  rcases h with h | ⟨h, h2 | ⟨h2, h3⟩⟩
  · rw [h]; exact if_pos hs
  · rw [h, h2]; exact if_pos hs
  · rw [h, h2, h3]; exact if_pos hs

/-- If the attribute is a few numbers instead of a text, the program ends with a message. -/
theorem C161_numbers (size : Nat) (a : Atts) (n : Nat) (hs : n < size)
    (h : a "climatology" = some (.numbers n) ∨ a "climatology" = none ∧ (a "bounds" = some (.numbers n) ∨ a "bounds" = none ∧ a "edges" = some (.numbers n))) : bndname size a = .error := by
  unfold bndname bndAtt
  rcases h with h | ⟨h, h2 | ⟨h2, h3⟩⟩
  · rw [h]; exact if_neg (by omega)
  · rw [h, h2]; exact if_neg (by omega)
  · rw [h, h2, h3]; exact if_neg (by omega)

/-- Names of dimensions are found for at most four dimensions. -/
theorem C161_dimname_partial (size : Nat) (dims : List Dim) (i : Nat) (d : Dim) (hi : dims[i]? = some d) (h4 : dims.length ≤ 4) (hs : d.name.length < size) :
    dimname size dims i = .ok d.name := by
  unfold dimname
  rw [hi]
  simp only
  rw [if_neg (by omega), if_neg (by omega)]

/-- With five dimensions, which fregrid accepts, memory beyond the array of four is written. -/
theorem C161_five_wrong (size : Nat) (dims : List Dim) (i : Nat) (hi : i < dims.length) (h5 : 4 < dims.length) : dimname size dims i = .broken := by
  unfold dimname
  rw [List.getElem?_eq_getElem hi]
  exact if_pos h5

private theorem levels_eq (dims : List Dim) (h4 : dims.length ≤ 4) (hn : ∀ d ∈ dims, d.name.length < 32) : ∀ (l : List (Atts × List ℚ × Char)) (i : Nat) (z : List ℚ),
    (∀ k, dims[i + k]?.bind Dim.var = (l[k]?).map fun t => (t.1, t.2.1)) → (∀ t ∈ l, Axis t.1 t.2.2) →
    levels dims l.length i z = .ok (l.foldl (fun z t => if t.2.2 = 'Z' then t.2.1 else z) z)
  | [], _, _, _, _ => rfl
  | (a, v, c) :: l, i, z, h, ha => by
    have h0 := h 0
    simp only [Nat.add_zero, List.getElem?_cons_zero, Option.map_some] at h0
    obtain ⟨d, hd, _⟩ := Option.bind_eq_some_iff.1 h0
    have ih := fun z => levels_eq dims h4 hn l (i + 1) z (fun k => by have := h (k + 1); rw [List.getElem?_cons_succ] at this; rw [← this]; congr 2; omega) fun t ht => ha t (List.mem_cons_of_mem _ ht)
    rw [List.length_cons, levels, C161_dimname_partial 32 dims i d hd h4 (hn d (List.mem_of_getElem? hd))]
    simp only
    rw [h0]
    simp only
    rw [C161_cart_partial a c (ha (a, v, c) List.mem_cons_self)]
    simp only
    rw [List.foldl_cons]
    by_cases q : c = 'Z'
    · rw [if_pos q, ih]; simp only [q, if_true]
    · rw [if_neg q, ih]; simp only [q, if_false]

private theorem fold_noZ : ∀ (l : List (Atts × List ℚ × Char)) (z : List ℚ), (∀ t ∈ l, t.2.2 ≠ 'Z') → l.foldl (fun z t => if t.2.2 = 'Z' then t.2.1 else z) z = z
  | [], _, _ => rfl
  | t :: l, z, h => by
    rw [List.foldl_cons, if_neg (h t List.mem_cons_self)]
    exact fold_noZ l z fun x hx => h x (List.mem_cons_of_mem _ hx)

/-- The levels of a field of at most four dimensions are the values of its Z axis; without one the program ends with a message. `l`: for each dimension its name, and the attributes, values and letter of its variable. -/
theorem C161_levels_partial (l : List (List Char × Atts × List ℚ × Char)) (h4 : l.length ≤ 4) (hn : ∀ t ∈ l, t.1.length < 32) (ha : ∀ t ∈ l, Axis t.2.1 t.2.2.2) :
    (∀ pre t post, l = pre ++ t :: post → t.2.2.2 = 'Z' → (∀ x ∈ pre ++ post, x.2.2.2 ≠ 'Z') → t.2.2.1 ≠ [] →
      vgrid (l.map fun t => ⟨t.1, some (t.2.1, t.2.2.1)⟩) = .ok t.2.2.1) ∧
    ((∀ t ∈ l, t.2.2.2 ≠ 'Z') → vgrid (l.map fun t => ⟨t.1, some (t.2.1, t.2.2.1)⟩) = .error) := by
  have key : levels (l.map fun t => (⟨t.1, some (t.2.1, t.2.2.1)⟩ : Dim)) (l.map fun t => (⟨t.1, some (t.2.1, t.2.2.1)⟩ : Dim)).length 0 [] =
      .ok ((l.map Prod.snd).foldl (fun z t => if t.2.2 = 'Z' then t.2.1 else z) []) := by
    have := levels_eq (l.map fun t => (⟨t.1, some (t.2.1, t.2.2.1)⟩ : Dim)) (by rw [List.length_map]; exact h4)
      (by intro d hd; obtain ⟨t, ht, rfl⟩ := List.mem_map.1 hd; exact hn t ht) (l.map Prod.snd) 0 []
      (by intro k; rw [Nat.zero_add, List.getElem?_map, List.getElem?_map]; cases l[k]? <;> rfl)
      (by intro t ht; obtain ⟨u, hu, rfl⟩ := List.mem_map.1 ht; exact ha u hu)
    rw [List.length_map] at this ⊢
    exact this
  unfold vgrid
  rw [key]
  constructor
  · intro pre t post e hz hx hne
    have : (l.map Prod.snd).foldl (fun z t => if t.2.2 = 'Z' then t.2.1 else z) [] = t.2.2.1 := by
      rw [e, List.map_append, List.map_cons, List.foldl_append, List.foldl_cons, if_pos hz]
      refine fold_noZ _ _ fun x hx' => ?_
      obtain ⟨u, hu, rfl⟩ := List.mem_map.1 hx'
      exact hx u (List.mem_append_right _ hu)
    rw [this]
    cases hv : t.2.2.1 with
    | nil => exact absurd hv hne
    | cons x xs => rfl
  · intro h
    rw [fold_noZ _ _ fun x hx' => by obtain ⟨u, hu, rfl⟩ := List.mem_map.1 hx'; exact h u hu]

/-- An axis with its `axis` attribute only. -/
def c161Atts (c : Char) : Atts := fun n => if n = "axis" then some (.text [c]) else none

theorem c161_axis (c : Char) : Axis (c161Atts c) c := .inr ⟨fun s q => by simp [c161Atts] at q, .inl (by simp [Letter, c161Atts])⟩

example : cart (c161Atts 'T') = .ok 'T' := C161_cart_partial _ _ (c161_axis 'T')
/-- `cartesian_axis = "time"` -/
example : cart (fun n => if n = "cartesian_axis" then some (.text "time".toList) else none) = .broken := C161_cart_wrong _ "time".toList (by decide) (.inl (by simp))
example : cart (fun n => if n = "cartesian_axis" then some (.text []) else some (.text ['X'])) = .ok 'N' := C161_empty_wrong _ (by simp)
example : bndname 255 (fun n => if n = "bounds" then some (.text "time_bnds".toList) else none) = .ok "time_bnds".toList :=
  (C161_bounds_partial 255 _ "time_bnds".toList (by decide)).2.1 (by simp) (by simp)
example : bndname 255 (fun n => if n = "climatology" then some (.text (List.replicate 300 'a')) else none) = .broken :=
  C161_bounds_wrong 255 _ (List.replicate 300 'a') (by rw [List.length_replicate]; decide) (.inl (if_pos rfl))
example : bndname 255 (fun n => if n = "edges" then some (.numbers 1) else none) = .error := C161_numbers 255 _ 1 (by decide) (.inr ⟨by simp, .inr ⟨by simp, by simp⟩⟩)

def c161Dim (n c : Char) (v : List ℚ) : List Char × Atts × List ℚ × Char := ([n], c161Atts c, v, c)

/-- Levels 10 and 20 of a field of time, level, latitude and longitude. -/
example : vgrid ([c161Dim 't' 'T' [0], c161Dim 'z' 'Z' [10, 20], c161Dim 'y' 'Y' [1], c161Dim 'x' 'X' [1, 2]].map fun t => ⟨t.1, some (t.2.1, t.2.2.1)⟩) = .ok [10, 20] :=
  (C161_levels_partial [c161Dim 't' 'T' [0], c161Dim 'z' 'Z' [10, 20], c161Dim 'y' 'Y' [1], c161Dim 'x' 'X' [1, 2]] (by decide)
    (by intro t ht; simp at ht; rcases ht with rfl | rfl | rfl | rfl <;> simp [c161Dim]) (by intro t ht; simp at ht; rcases ht with rfl | rfl | rfl | rfl <;> exact c161_axis _)).1
    [c161Dim 't' 'T' [0]] (c161Dim 'z' 'Z' [10, 20]) [c161Dim 'y' 'Y' [1], c161Dim 'x' 'X' [1, 2]] rfl rfl (by intro x hx; simp at hx; rcases hx with rfl | rfl | rfl <;> simp [c161Dim]) (by simp [c161Dim])

example (d : Dim) : dimname 255 [d, d, d, d, d] 0 = .broken := C161_five_wrong 255 _ 0 (by simp) (by simp)

end Verif
