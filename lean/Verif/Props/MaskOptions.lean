import Verif.Model.MaskOptions
import Verif.Props.BlockSize
import Mathlib.Tactic.Linarith
/-
C160: options of check_mask.
-/
namespace Verif
open MaskOptions

namespace Spec.MaskOptions
open Spec.BlockSize
/-- A decimal number: sign, digits before the point, and perhaps a point and digits after it. -/
structure Dec where
  neg : Bool
  whole : List (Fin 10)
  frac : Option (List (Fin 10))
/-- Its text. -/
def Dec.text (d : Dec) : List Char :=
  (if d.neg then ['-'] else []) ++ BlockSize.text d.whole ++ (match d.frac with | some f => '.' :: BlockSize.text f | none => [])
/-- Its value. -/
def Dec.val (d : Dec) : ℚ :=
  let v : ℚ := (value d.whole : ℚ) + (match d.frac with | some f => (value f : ℚ) / 10 ^ f.length | none => 0)
  if d.neg then -v else v
/-- Words with commas between them. -/
def commas : List (List Char) → List Char
  | [] => []
  | [w] => w
  | w :: v :: ws => w ++ ',' :: commas (v :: ws)
/-- A word: not empty, and without commas and blanks. -/
def Word (w : List Char) : Prop := w ≠ [] ∧ ∀ c ∈ w, c ≠ ',' ∧ c ≠ ' '
/-- Numbers with commas between them. -/
def list (l : List Dec) : List Char := commas (l.map Dec.text)
/-- Whole numbers of at least one digit. -/
def Whole (l : List Dec) : Prop := ∀ d ∈ l, d.frac = none ∧ d.whole ≠ []
/-- The whole part. -/
def Dec.trunc (d : Dec) : Int := if d.neg then -(value d.whole : Int) else value d.whole
end Spec.MaskOptions
open Spec.MaskOptions

private theorem mask_digit : ∀ d : Fin 10, BlockSize.digit (Nat.digitChar d) = true ∧ (Nat.digitChar d).toNat - 48 = d ∧ Nat.digitChar d ≠ ',' ∧ Nat.digitChar d ≠ ' ' ∧ Nat.digitChar d ≠ '-' := by decide

private theorem mask_value_cons (d : Fin 10) (ds : List (Fin 10)) : Spec.BlockSize.value (d :: ds) = d * 10 ^ ds.length + Spec.BlockSize.value ds := by
  unfold Spec.BlockSize.value
  rw [List.reverse_cons, List.map_append, Nat.ofDigits_append]
  simp
  ring

private theorem mask_atoi : ∀ (ds : List (Fin 10)) (acc : Nat) (rest : List Char), (∀ c ∈ rest.head?, BlockSize.digit c = false) →
    BlockSize.atoi acc (Spec.BlockSize.text ds ++ rest) = acc * 10 ^ ds.length + Spec.BlockSize.value ds
  | [], acc, rest, h => by
    show BlockSize.atoi acc rest = _
    cases rest with
    | nil => simp [BlockSize.atoi, Spec.BlockSize.value]
    | cons c cs => rw [BlockSize.atoi, if_neg (by rw [h c rfl]; exact Bool.false_ne_true)]; simp [Spec.BlockSize.value]
  | d :: ds, acc, rest, h => by
    show BlockSize.atoi acc (Nat.digitChar d :: (Spec.BlockSize.text ds ++ rest)) = _
    rw [BlockSize.atoi, if_pos (mask_digit d).1, (mask_digit d).2.1, mask_atoi ds _ rest h, mask_value_cons, List.length_cons]
    ring

private theorem atoi_dec (d : Dec) : MaskOptions.atoi d.text = d.trunc := by
  obtain ⟨neg, whole, frac⟩ := d
  have key : ∀ rest : List Char, (∀ c ∈ rest.head?, BlockSize.digit c = false) → BlockSize.atoi 0 (Spec.BlockSize.text whole ++ rest) = Spec.BlockSize.value whole := by
    intro rest h
    rw [mask_atoi whole 0 rest h]; simp
  have hr : ∀ c ∈ (match frac with | some f => '.' :: Spec.BlockSize.text f | none => [] : List Char).head?, BlockSize.digit c = false := by
    cases frac with
    | none => intro c h; cases h
    | some f => intro c h; have : c = '.' := by simpa using h.symm
                subst this; decide
  unfold Dec.text Dec.trunc
  cases neg with
  | true =>
    show MaskOptions.atoi ('-' :: (Spec.BlockSize.text whole ++ _)) = _
    rw [MaskOptions.atoi, if_pos rfl, key _ hr]
    rfl
  | false =>
    show MaskOptions.atoi (Spec.BlockSize.text whole ++ _) = _
    have hk := key _ hr
    cases whole with
    | nil =>
      cases frac with
      | none => rfl
      | some f =>
        show MaskOptions.atoi ('.' :: Spec.BlockSize.text f) = _
        rw [MaskOptions.atoi, if_neg (by decide)]
        exact congrArg Int.ofNat hk
    | cons a as =>
      show MaskOptions.atoi (Nat.digitChar a :: (Spec.BlockSize.text as ++ _)) = _
      rw [MaskOptions.atoi, if_neg (mask_digit a).2.2.2.2]
      exact congrArg Int.ofNat hk

/-- With a sea level that is a whole number, a point is ocean if it is deeper, and land if not. -/
theorem C160_sea_level_partial (d : Dec) (h : d.frac = none) (depth : ℚ) : (d.val < depth → wet d.text depth = 1) ∧ (depth ≤ d.val → wet d.text depth = 0) := by
  have e : ((MaskOptions.atoi d.text : Int) : ℚ) = d.val := by
    rw [atoi_dec]
    unfold Dec.trunc Dec.val
    rw [h]
    cases d.neg <;> simp
  unfold wet
  rw [e]
  exact ⟨fun q => if_pos q, fun q => if_neg (not_lt.2 q)⟩

/-- Digits after the point are ignored: points that are not deeper than the level, but deeper than its whole part, are ocean. -/
theorem C160_sea_level_wrong (w f : List (Fin 10)) (depth : ℚ) (h1 : (Spec.BlockSize.value w : ℚ) < depth) (h2 : depth ≤ (⟨false, w, some f⟩ : Dec).val) :
    wet (⟨false, w, some f⟩ : Dec).text depth = 1 ∧ ¬(⟨false, w, some f⟩ : Dec).val < depth := by
  refine ⟨?_, not_lt.2 h2⟩
  unfold wet
  rw [atoi_dec]
  exact if_pos (by unfold Dec.trunc; simpa using h1)

private theorem words_word (rest : List Char) : ∀ (t cur : List Char), (∀ c ∈ t, c ≠ ',' ∧ c ≠ ' ') → words cur (t ++ rest) = words (cur ++ t) rest
  | [], cur, _ => by simp
  | c :: t, cur, h => by
    have hc := h c List.mem_cons_self
    show words cur (c :: (t ++ rest)) = _
    rw [words, if_neg (fun q => q.elim hc.1 hc.2), words_word rest t _ (fun x hx => h x (List.mem_cons_of_mem _ hx)), List.append_assoc]
    rfl

private theorem word_dec {d : Dec} (h : d.frac = none ∧ d.whole ≠ []) : Word d.text := by
  unfold Dec.text
  rw [h.1]
  constructor
  · intro q
    have := (List.append_eq_nil_iff.1 (List.append_eq_nil_iff.1 q).1).2
    exact h.2 (List.map_eq_nil_iff.1 this)
  · intro c hc
    rcases List.mem_append.1 hc with hc | hc
    · rcases List.mem_append.1 hc with hc | hc
      · cases hn : d.neg with
        | true => rw [hn] at hc; have : c = '-' := by simpa using hc
                  subst this; decide
        | false => rw [hn] at hc; cases hc
      · obtain ⟨d, _, rfl⟩ := List.mem_map.1 hc
        exact ⟨(mask_digit d).2.2.1, (mask_digit d).2.2.2.1⟩
    · cases hc

private theorem words_commas : ∀ l : List (List Char), (∀ w ∈ l, Word w) → words [] (commas l) = l
  | [], _ => rfl
  | [w], h => by
    have p := h w List.mem_cons_self
    have := words_word [] w [] p.2
    rw [List.append_nil, List.nil_append] at this
    show words [] w = _
    rw [this, words, if_neg p.1]
  | w :: v :: ws, h => by
    have p := h w List.mem_cons_self
    show words [] (w ++ ',' :: commas (v :: ws)) = _
    rw [words_word _ _ _ p.2, List.nil_append, words, if_pos (.inl rfl), if_neg p.1, words_commas (v :: ws) (fun x hx => h x (List.mem_cons_of_mem _ hx))]

private theorem words_list (l : List Dec) (h : Whole l) : words [] (list l) = l.map Dec.text :=
  words_commas _ fun w hw => by
    obtain ⟨d, hd, rfl⟩ := List.mem_map.1 hw
    exact word_dec (h d hd)

private theorem ints_list (cap : Nat) (l : List Dec) (h : Whole l) (hs : (list l).length < 512) : ints cap (list l) = if cap < l.length then .broken else .ok (l.map Dec.trunc) := by
  unfold ints
  rw [if_neg (by omega), words_list l h, List.length_map, List.map_map]
  congr 2
  exact List.map_congr_left fun d _ => atoi_dec d

private theorem readAll_ok : ∀ ls : List (List Dec), (∀ l ∈ ls, Whole l ∧ (list l).length < 512 ∧ l.length ≤ 4) → readAll (ls.map list) = .ok (ls.map fun l => l.map Dec.trunc)
  | [], _ => rfl
  | l :: ls, h => by
    obtain ⟨h1, h2, h3⟩ := h l List.mem_cons_self
    rw [List.map_cons, readAll, ints_list 4 l h1 h2, if_neg (by omega), readAll_ok ls (fun x hx => h x (List.mem_cons_of_mem _ hx))]
    rfl

/-- A layout of two numbers is read as it is; one number alone ends the program with a message. -/
theorem C160_layout_partial (l : List Dec) (h : Whole l) (hs : (list l).length < 512) : (l.length = 2 → layout (list l) = .ok (l.map Dec.trunc)) ∧ (l.length < 2 → layout (list l) = .error) := by
  unfold layout
  rw [ints_list 2 l h hs]
  constructor
  · intro q
    rw [if_neg (by omega)]
    exact if_pos (by rw [List.length_map]; exact q)
  · intro q
    rw [if_neg (by omega)]
    exact if_neg (by rw [List.length_map]; omega)

/-- Three numbers: the array is written beyond its end before they are counted. -/
theorem C160_layout_wrong (l : List Dec) (h : Whole l) (hs : (list l).length < 512) (h3 : 2 < l.length) : layout (list l) = .broken := by
  unfold layout
  rw [ints_list 2 l h hs, if_pos h3]

/-- At most four open boundaries are read as given, with indices from 0 instead of 1; other numbers of values than `--nobc` end the program with a message. -/
theorem C160_boundaries_partial (nobc : Nat) (dirs : List (List Char)) (ls : List (List Dec)) (hd : (commas dirs).length < 512) (hd4 : dirs.length ≤ 4)
    (hd9 : ∀ w ∈ dirs, Word w ∧ w.length < 10) (h : ∀ l ∈ ls, Whole l ∧ (list l).length < 512 ∧ l.length ≤ 4) :
    (dirs.length = nobc → (∀ l ∈ ls, l.length = nobc) →
      boundaries nobc (commas dirs) (ls.map list) = .ok (dirs, ls.map fun l => l.map fun d => d.trunc - 1)) ∧
    (dirs.length ≠ nobc ∨ (∃ l ∈ ls, l.length ≠ nobc) → boundaries nobc (commas dirs) (ls.map list) = .error) := by
  unfold boundaries
  simp only
  rw [words_commas dirs fun w hw => (hd9 w hw).1, readAll_ok ls h, if_neg]
  · simp only
    constructor
    · intro q1 q2
      rw [if_neg (by omega), if_neg (by simpa using q1), if_neg]
      · rw [List.map_map]
        congr 2
        refine List.map_congr_left fun l _ => ?_
        exact List.map_map
      · intro q
        obtain ⟨x, hx, hxl⟩ := List.any_eq_true.1 q
        obtain ⟨l, hl, rfl⟩ := List.mem_map.1 hx
        exact (of_decide_eq_true hxl) (by rw [List.length_map]; exact q2 l hl)
    · intro q
      by_cases c : 4 < nobc
      · rw [if_pos c]
      · rw [if_neg c]
        by_cases c2 : dirs.length ≠ nobc
        · rw [if_pos c2]
        · rw [if_neg c2, if_pos]
          obtain ⟨l, hl, hn⟩ := q.resolve_left c2
          exact List.any_eq_true.2 ⟨_, List.mem_map_of_mem hl, decide_eq_true (by rw [List.length_map]; exact hn)⟩
  · rintro (q | q | q)
    · omega
    · omega
    · obtain ⟨w, hw, hl⟩ := List.any_eq_true.1 q
      have := (hd9 w hw).2
      have := of_decide_eq_true hl
      omega

/-- Five boundaries: arrays are written beyond their end before they are counted. -/
theorem C160_boundaries_wrong (nobc : Nat) (direction : List Char) (l : List Dec) (rest : List (List Char)) (h : Whole l) (hs : (list l).length < 512) (h4 : 4 < l.length) :
    boundaries nobc direction (list l :: rest) = .broken := by
  unfold boundaries
  simp only
  rw [readAll, ints_list 4 l h hs, if_pos h4]
  by_cases c : 512 ≤ direction.length ∨ 4 < (words [] direction).length ∨ ((words [] direction).any fun d => decide (10 ≤ d.length)) = true
  · rw [if_pos c]
  · rw [if_neg c]

/-- The mask of the ocean is field `wet` of a grid file that has it, or else comes from the topography, which must be given; that of land from a coupled mosaic. Everything else ends the program. -/
theorem C160_source (hasWet hasGridfiles hasLnd topog land : Bool) :
    (source hasWet hasGridfiles hasLnd topog land = some .wet ↔ land = false ∧ hasWet = true) ∧
    (source hasWet hasGridfiles hasLnd topog land = some .depth ↔ land = false ∧ hasWet = false ∧ hasGridfiles = true ∧ topog = true) ∧
    (source hasWet hasGridfiles hasLnd topog land = some .area ↔ land = true ∧ hasWet = false ∧ hasGridfiles = false ∧ hasLnd = true) := by
  revert hasWet hasGridfiles hasLnd topog land
  decide

/-- Sea level 2: depth 2.3 is ocean. -/
example : wet ['2'] (23 / 10) = 1 := (C160_sea_level_partial ⟨false, [2], none⟩ rfl (23 / 10)).1 (by unfold Dec.val Spec.BlockSize.value; norm_num)
/-- Sea level 2.5: depth 2.3 is still ocean. -/
example : wet ['2', '.', '5'] (23 / 10) = 1 :=
  (C160_sea_level_wrong [2] [5] (23 / 10) (by unfold Spec.BlockSize.value; norm_num) (by
    have e : (((5 : Fin 10) : Nat) : ℚ) = 5 := rfl
    unfold Dec.val Spec.BlockSize.value; norm_num [e])).1

def c160Dec (n : Fin 10) : Dec := ⟨false, [n], none⟩

example : layout ['3', ',', '4'] = .ok [3, 4] := (C160_layout_partial [c160Dec 3, c160Dec 4] (by intro d hd; simp at hd; rcases hd with rfl | rfl <;> exact ⟨rfl, by decide⟩) (by decide)).1 rfl
example : layout ['3', ',', '4', ',', '5'] = .broken :=
  C160_layout_wrong [c160Dec 3, c160Dec 4, c160Dec 5] (by intro d hd; simp at hd; rcases hd with rfl | rfl | rfl <;> exact ⟨rfl, by decide⟩) (by decide) (by decide)

/-- One boundary in the south, from 3 to 7. -/
example : boundaries 1 ['s', 'o', 'u', 't', 'h'] [['3'], ['7'], ['1'], ['1']] = .ok ([['s', 'o', 'u', 't', 'h']], [[2], [6], [0], [0]]) :=
  (C160_boundaries_partial 1 [['s', 'o', 'u', 't', 'h']] [[c160Dec 3], [c160Dec 7], [c160Dec 1], [c160Dec 1]] (by decide) (by decide) (by intro w hw; simp at hw; subst hw; exact ⟨⟨by decide, by decide⟩, by decide⟩) (by
    intro l hl
    simp at hl
    rcases hl with rfl | rfl | rfl <;> exact ⟨(by intro d hd; simp at hd; subst hd; exact ⟨rfl, by decide⟩), by decide, by decide⟩)).1 (by decide) (by decide)

end Verif
