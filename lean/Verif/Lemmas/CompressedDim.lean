/-
Lemmas about blank-separated words and about looking up names.
-/
import Verif.Spec.CompressedDim

namespace Verif.CompressedDim
open Spec

theorem splitOnPPrepend_sep {p : Char → Bool} {c : Char} (hc : p c = true) (t : List Char) :
    ∀ s acc : List Char, (s ++ c :: t).splitOnPPrepend p acc
      = s.splitOnPPrepend p acc ++ t.splitOnPPrepend p [] := by
  intro s
  induction s with
  | nil => intro acc; simp [List.splitOnPPrepend_cons_eq_if, hc, List.splitOnPPrepend]
  | cons a s ih =>
    intro acc
    rw [List.cons_append, List.splitOnPPrepend_cons_eq_if, List.splitOnPPrepend_cons_eq_if]
    split
    · rw [← List.splitOnPPrepend_nil_right, ← List.splitOnPPrepend_nil_right, ih]; rfl
    · exact ih _

theorem splitOnPPrepend_word {p : Char → Bool} :
    ∀ (w acc : List Char), (∀ c ∈ w, p c = false) →
      w.splitOnPPrepend p acc = [acc.reverse ++ w] := by
  intro w
  induction w with
  | nil => intro acc _; simp [List.splitOnPPrepend]
  | cons a w ih =>
    intro acc h
    rw [List.splitOnPPrepend_cons_eq_if, if_neg (by simp [h a (by simp)]),
      ih _ (fun c hc => h c (by simp [hc]))]
    simp

theorem blankWords_nil : blankWords [] = [] := by
  simp [blankWords]

theorem blankWords_sep (s t : List Char) :
    blankWords (s ++ ' ' :: t) = blankWords s ++ blankWords t := by
  unfold blankWords
  rw [← List.splitOnPPrepend_nil_right, splitOnPPrepend_sep (by simp), List.filter_append]
  simp [List.splitOnPPrepend_nil_right]

theorem blankWords_word {w : List Char} (h : ∀ c ∈ w, c ≠ ' ') (hw : w ≠ []) :
    blankWords w = [w] := by
  unfold blankWords
  rw [← List.splitOnPPrepend_nil_right, splitOnPPrepend_word w [] (by simpa using h)]
  simp [hw]

theorem blankWords_dropBlanks : ∀ r : List Char,
    blankWords (r.dropWhile fun c => c = ' ').reverse = blankWords r.reverse := by
  intro r
  induction r with
  | nil => rfl
  | cons a r ih =>
    by_cases h : a = ' '
    · subst h
      rw [List.dropWhile_cons_of_pos (by simp), ih, List.reverse_cons, blankWords_sep,
        blankWords_nil, List.append_nil]
    · rw [List.dropWhile_cons_of_neg (by simpa using h)]

/-- What is left of the last word. -/
theorem blankWords_last (rev : List Char) :
    let tok := (rev.takeWhile fun c => c ≠ ' ').reverse
    let rest := (rev.dropWhile fun c => c ≠ ' ').drop 1
    blankWords rev.reverse = blankWords rest.reverse ++ (if tok = [] then [] else [tok]) := by
  intro tok rest
  have hsplit : rev = rev.takeWhile (fun c => decide (c ≠ ' ')) ++
      rev.dropWhile (fun c => decide (c ≠ ' ')) := List.takeWhile_append_dropWhile.symm
  have htok : ∀ c ∈ tok, c ≠ ' ' := by
    intro c hc
    have := List.all_eq_true.1 (List.all_takeWhile (p := fun c : Char => decide (c ≠ ' ')) (l := rev))
      c (List.mem_reverse.1 hc)
    simpa using this
  cases hd : rev.dropWhile (fun c => decide (c ≠ ' ')) with
  | nil =>
    have hrest : rest = [] := by simp only [rest, hd]; rfl
    have hrev : rev.reverse = tok := by
      simp only [tok]; rw [hd, List.append_nil] at hsplit; rw [← hsplit]
    rw [hrest, hrev]
    split
    · next h => rw [h]; simp [blankWords_nil]
    · next h => rw [blankWords_word htok h]; simp [blankWords_nil]
  | cons a t =>
    have ha : a = ' ' := by
      have := List.head?_dropWhile_not (fun c : Char => decide (c ≠ ' ')) rev
      rw [hd] at this
      simpa using this
    have hrest : rest = t := by simp only [rest, hd]; rfl
    have hrev : rev.reverse = t.reverse ++ ' ' :: tok := by
      conv_lhs => rw [hsplit, hd, ha]
      simp [tok]
    rw [hrest, hrev, blankWords_sep]
    split
    · next h => rw [h, blankWords_nil]
    · next h => rw [blankWords_word htok h]

theorem find?_key {α : Type} (key : α → List Char) (name : List Char) :
    ∀ (l : List α), (l.map key).Nodup → ∀ x ∈ l, key x = name →
      l.find? (fun y => key y = name) = some x := by
  intro l
  induction l with
  | nil => intro _ x hx; simp at hx
  | cons a l ih =>
    intro hnd x hx hk
    rw [List.map_cons, List.nodup_cons] at hnd
    rcases List.mem_cons.1 hx with rfl | hx
    · rw [List.find?_cons_of_pos (by simpa using hk)]
    · have : ¬ key a = name := fun h => hnd.1 (List.mem_map.2 ⟨x, hx, by rw [hk, h]⟩)
      rw [List.find?_cons_of_neg (by simpa using this)]
      exact ih hnd.2 x hx hk

/-- The two inquiries find the attribute exactly if it is there. -/
theorem compressAtt_iff {f : File} (hf : FileOk f) (d : Dim) (a : AttVal) :
    CompressAtt f d a ↔ ∃ v, inqVarid f d.name = some v ∧ inqAtt v compressName = some a := by
  constructor
  · rintro ⟨v, hv, hn, ha⟩
    refine ⟨v, find?_key Var.name d.name f.vars hf.varNames v hv hn, ?_⟩
    have h := find?_key Prod.fst compressName v.atts (hf.attNames v hv) (compressName, a) ha rfl
    simp only [inqAtt, h, Option.map_some]
  · rintro ⟨v, hv, ha⟩
    refine ⟨v, List.mem_of_find?_eq_some hv, by simpa using List.find?_some hv, ?_⟩
    unfold inqAtt at ha
    obtain ⟨b, hb, rfl⟩ := Option.map_eq_some_iff.1 ha
    have hm := List.mem_of_find?_eq_some hb
    have hk : b.1 = compressName := by simpa using List.find?_some hb
    unfold compressName at hk
    rw [← hk]
    exact hm

theorem inqDim_iff {f : File} (hf : FileOk f) (name : List Char) (e : Nat × Nat) :
    inqDim f name = some e ↔ IsDim f name e := by
  unfold inqDim IsDim
  constructor
  · cases h : f.dims.findIdx? (fun d => d.name = name) with
    | none => intro hh; simp at hh
    | some i =>
      intro hh
      obtain ⟨hi, hp, _⟩ := List.findIdx?_eq_some_iff_getElem.1 h
      simp only [Option.some.injEq] at hh
      subst hh
      refine ⟨f.dims[i], by simp [hi], by simpa using hp, ?_⟩
      simp [List.getD_eq_getElem?_getD, hi]
  · rintro ⟨d, hd, hn, hl⟩
    obtain ⟨hi, hd⟩ := List.getElem?_eq_some_iff.1 hd
    have : f.dims.findIdx? (fun d => d.name = name) = some e.1 := by
      refine List.findIdx?_eq_some_iff_getElem.2 ⟨hi, by simp [hd, hn], ?_⟩
      intro j hj
      have hjl : j < f.dims.length := by omega
      simp only [decide_eq_true_eq]
      intro hjn
      have := (List.getElem_inj (i := j) (j := e.1)
        (h₀ := by simpa using hjl) (h₁ := by simpa using hi) hf.dimNames).1 (by simp [hjn, hd, hn])
      omega
    rw [this]
    simp [List.getD_eq_getElem?_getD, hd, hi, hl]

theorem isDim_unique {f : File} (hf : FileOk f) {name : List Char} {e e' : Nat × Nat}
    (h : IsDim f name e) (h' : IsDim f name e') : e = e' := by
  have := (inqDim_iff hf _ _).2 h
  rw [(inqDim_iff hf _ _).2 h'] at this
  simpa using this.symm

theorem forall₂_append_left {α β : Type} {R : α → β → Prop} (b : List α) :
    ∀ (a : List α) (es : List β), List.Forall₂ R (a ++ b) es →
      ∃ e1 e2, List.Forall₂ R a e1 ∧ List.Forall₂ R b e2 ∧ es = e1 ++ e2 := by
  intro a
  induction a with
  | nil => intro es h; exact ⟨[], es, .nil, h, rfl⟩
  | cons x a ih =>
    intro es h
    cases h with
    | cons hx h =>
      obtain ⟨e1, e2, h1, h2, rfl⟩ := ih _ h
      exact ⟨_ :: e1, e2, .cons hx h1, h2, rfl⟩

/-- The parse succeeds exactly if all words are dimensions, and then gives them
from the last to the first. -/
theorem parseDims_spec {f : File} (hf : FileOk f) : ∀ (n : Nat) (rev : List Char), rev.length ≤ n →
    ((parseDims f rev).2 = true →
        List.Forall₂ (IsDim f) (blankWords rev.reverse) (parseDims f rev).1.reverse) ∧
    (∀ es, List.Forall₂ (IsDim f) (blankWords rev.reverse) es → (parseDims f rev).2 = true) := by
  intro n
  induction n with
  | zero =>
    intro rev h
    have : rev = [] := by simpa using h
    subst this
    rw [parseDims]
    simp [blankWords_nil]
  | succ n ih =>
    intro rev h
    rw [parseDims]
    by_cases hr : rev = []
    · subst hr; simp [blankWords_nil]
    rw [if_neg hr]
    have hlast := blankWords_last rev
    dsimp only at hlast ⊢
    generalize htok : (rev.takeWhile fun c => decide (c ≠ ' ')).reverse = tok at *
    have hrl : ((rev.dropWhile fun c => decide (c ≠ ' ')).drop 1).length ≤ n := by
      have := (List.dropWhile_sublist (fun c : Char => decide (c ≠ ' ')) (l := rev)).length_le
      simp only [List.length_drop]
      omega
    generalize (rev.dropWhile fun c => decide (c ≠ ' ')).drop 1 = rest at *
    obtain ⟨ih1, ih2⟩ := ih rest hrl
    by_cases ht : tok = []
    · rw [if_pos ht, List.append_nil] at hlast
      rw [if_pos ht, hlast]
      exact ⟨ih1, ih2⟩
    · rw [if_neg ht] at hlast
      rw [if_neg ht, hlast]
      constructor
      · cases hd : inqDim f tok with
        | none => intro hh; simp at hh
        | some e =>
          intro hh
          simp only [List.reverse_cons]
          exact List.rel_append (ih1 hh) (.cons ((inqDim_iff hf _ _).1 hd) .nil)
      · intro es hes
        obtain ⟨e1, e2, h1, h2, rfl⟩ : ∃ e1 e2, List.Forall₂ (IsDim f) (blankWords rest.reverse) e1 ∧
            List.Forall₂ (IsDim f) [tok] e2 ∧ es = e1 ++ e2 :=
          forall₂_append_left _ _ _ hes
        cases h2 with
        | cons hd _ =>
          rw [(inqDim_iff hf _ _).2 hd]
          exact ih2 _ h1

end Verif.CompressedDim
