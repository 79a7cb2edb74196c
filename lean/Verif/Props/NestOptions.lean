import Verif.Model.NestOptions
import Verif.Props.BlockSize
/-
C158: options of nests.
-/
namespace Verif
open NestOptions

namespace Spec.NestOptions
open Spec.BlockSize
/-- A list of numbers, given by their digits, with commas between them. -/
def commas : List (List (Fin 10)) → List Char
  | [] => []
  | [d] => text d
  | d :: e :: ds => text d ++ ',' :: commas (e :: ds)
/-- The numbers. -/
def values (l : List (List (Fin 10))) : List Int := l.map fun d => (value d : Int)
/-- The number for nest `n`, 0 if there is none. -/
def nth (l : List (List (Fin 10))) (n : Nat) : Int := (values l).getD n 0
/-- Each option is given once, with a list of numbers of at least one digit. -/
def Given (os : List (Opt × List Char)) (l : Opt → List (List (Fin 10))) : Prop :=
  ∀ o, (os.filter fun x => decide (x.1 = o)) = [(o, commas (l o))] ∧ (∀ d ∈ l o, d ≠ []) ∧ (l o).length ≤ 128
end Spec.NestOptions
open Spec.NestOptions

private theorem nest_digit : ∀ d : Fin 10, BlockSize.digit (Nat.digitChar d) = true ∧ (Nat.digitChar d).toNat - 48 = d ∧ Nat.digitChar d ≠ ',' := by decide

private theorem nest_value_cons (d : Fin 10) (ds : List (Fin 10)) : Spec.BlockSize.value (d :: ds) = d * 10 ^ ds.length + Spec.BlockSize.value ds := by
  unfold Spec.BlockSize.value
  rw [List.reverse_cons, List.map_append, Nat.ofDigits_append]
  simp
  ring

private theorem nest_atoi : ∀ (ds : List (Fin 10)) (acc : Nat), BlockSize.atoi acc (Spec.BlockSize.text ds) = acc * 10 ^ ds.length + Spec.BlockSize.value ds
  | [], acc => by simp [Spec.BlockSize.text, BlockSize.atoi, Spec.BlockSize.value]
  | d :: ds, acc => by
    show BlockSize.atoi acc (Nat.digitChar d :: Spec.BlockSize.text ds) = _
    rw [BlockSize.atoi, if_pos (nest_digit d).1, (nest_digit d).2.1, nest_atoi ds, nest_value_cons, List.length_cons]
    ring

private theorem tokens_text (rest : List Char) : ∀ (ds : List (Fin 10)) (cur : List Char), tokens cur (Spec.BlockSize.text ds ++ rest) = tokens (cur ++ Spec.BlockSize.text ds) rest
  | [], cur => by simp [Spec.BlockSize.text]
  | d :: ds, cur => by
    show tokens cur (Nat.digitChar d :: (Spec.BlockSize.text ds ++ rest)) = _
    rw [tokens, if_neg (nest_digit d).2.2, tokens_text rest ds]
    congr 1
    show cur ++ [_] ++ _ = cur ++ (_ :: _)
    simp [Spec.BlockSize.text]

private theorem text_ne {d : List (Fin 10)} (h : d ≠ []) : Spec.BlockSize.text d ≠ [] := by
  intro q; exact h (List.map_eq_nil_iff.1 q)

private theorem tokens_commas : ∀ l : List (List (Fin 10)), (∀ d ∈ l, d ≠ []) → tokens [] (commas l) = l.map Spec.BlockSize.text
  | [], _ => rfl
  | [d], h => by
    have := tokens_text [] d []
    rw [List.append_nil, List.nil_append] at this
    show tokens [] (Spec.BlockSize.text d) = _
    rw [this, tokens, if_neg (text_ne (h d List.mem_cons_self))]
    rfl
  | d :: e :: ds, h => by
    show tokens [] (Spec.BlockSize.text d ++ ',' :: commas (e :: ds)) = _
    rw [tokens_text, List.nil_append, tokens, if_pos rfl, if_neg (text_ne (h d List.mem_cons_self)),
      tokens_commas (e :: ds) (fun x hx => h x (List.mem_cons_of_mem _ hx))]
    rfl

private theorem token_values (l : List (List (Fin 10))) (h : ∀ d ∈ l, d ≠ []) : (tokens [] (commas l)).map (fun t => (BlockSize.atoi 0 t : Int)) = values l := by
  rw [tokens_commas l h, List.map_map]
  unfold values
  refine List.map_congr_left fun d _ => ?_
  show ((BlockSize.atoi 0 (Spec.BlockSize.text d) : Nat) : Int) = _
  rw [nest_atoi]
  simp

/-- A list of at most 128 numbers is read as these numbers, followed by zeros. -/
theorem C158_list (l : List (List (Fin 10))) (h : ∀ d ∈ l, d ≠ []) (hl : l.length ≤ 128) :
    parse (commas l) (List.replicate 128 0) = values l ++ List.replicate (128 - l.length) 0 := by
  have hv : (values l).length = l.length := List.length_map _
  unfold parse
  rw [token_values l h]
  simp only
  rw [List.take_of_length_le (by rw [hv, List.length_replicate]; exact hl), List.drop_replicate, hv]
  cases k : 128 - l.length with
  | zero => simp
  | succ j => simp [List.replicate_succ]

private theorem fold_filter (p : Opt) : ∀ (os : List (Opt × List Char)) (a : Arrays),
    os.foldl step a p = (os.filter fun x => decide (x.1 = p)).foldl (fun b x => parse x.2 b) (a p)
  | [], _ => rfl
  | o :: os, a => by
    rw [List.foldl_cons, fold_filter p os]
    by_cases c : o.1 = p
    · rw [List.filter_cons_of_pos (by simpa using c), List.foldl_cons]
      congr 1
      unfold step
      rw [if_pos c.symm]
    · rw [List.filter_cons_of_neg (by simpa using c)]
      congr 1
      unfold step
      rw [if_neg fun q => c q.symm]

private theorem arrays {os : List (Opt × List Char)} {l : Opt → List (List (Fin 10))} (h : Given os l) (o : Opt) :
    readOptions os o = values (l o) ++ List.replicate (128 - (l o).length) 0 := by
  obtain ⟨h1, h2, h3⟩ := h o
  unfold readOptions
  rw [fold_filter, h1, List.foldl_cons, List.foldl_nil, ← C158_list (l o) h2 h3]
  unfold zeros
  with_reducible rfl

private theorem entry {os : List (Opt × List Char)} {l : Opt → List (List (Fin 10))} (h : Given os l) (o : Opt) {n : Nat} (hn : n < 128) :
    (readOptions os o)[n]? = some (nth (l o) n) := by
  have hv : (values (l o)).length = (l o).length := List.length_map _
  rw [arrays h o]
  unfold nth
  by_cases c : n < (l o).length
  · rw [List.getElem?_append_left (by rw [hv]; exact c), List.getD_eq_getElem?_getD, List.getElem?_eq_getElem (by rw [hv]; exact c)]
    rfl
  · rw [List.getElem?_append_right (by rw [hv]; omega), List.getD_eq_getElem?_getD, List.getElem?_eq_none (l := values (l o)) (by rw [hv]; omega), List.getElem?_replicate,
      if_pos (by rw [hv]; omega)]
    rfl

private theorem check_ok {os : List (Opt × List Char)} {l : Opt → List (List (Fin 10))} (h : Given os l) {halo : Int} (hh : halo ≠ 0) :
    ∀ k n t, n + k ≤ 128 → (∀ o m, n ≤ m → m < n + k → nth (l o) m ≠ 0) → check halo (readOptions os) k n t = .ok (t + k)
  | 0, _, _, _, _ => rfl
  | k + 1, n, t, hk, hz => by
    have hn : n < 128 := by omega
    rw [check, entry h .refine hn, entry h .parent hn, entry h .istart hn, entry h .iend hn, entry h .jstart hn, entry h .jend hn]
    have z := fun o => hz o n (Nat.le_refl n) (by omega)
    simp only [z, hh, if_false, or_self]
    rw [check_ok h hh k (n + 1) (t + 1) (by omega) (fun o m h1 h2 => hz o m (by omega) (by omega))]
    congr 1
    omega

private theorem check_error {os : List (Opt × List Char)} {l : Opt → List (List (Fin 10))} (h : Given os l) {halo : Int} :
    ∀ k n t, n + k ≤ 128 → (∀ m, n ≤ m → m < n + k → nth (l .parent) m ≠ 0) → (halo = 0 ∧ 0 < k ∨ ∃ o m, n ≤ m ∧ m < n + k ∧ nth (l o) m = 0) →
      check halo (readOptions os) k n t = .error .error
  | 0, _, _, _, _, hb => by
    rcases hb with ⟨_, q⟩ | ⟨o, m, h1, h2, _⟩
    · omega
    · omega
  | k + 1, n, t, hk, hp, hb => by
    have hn : n < 128 := by omega
    rw [check, entry h .refine hn, entry h .parent hn, entry h .istart hn, entry h .iend hn, entry h .jstart hn, entry h .jend hn]
    simp only
    by_cases c1 : nth (l .refine) n = 0
    · rw [if_pos c1]
    · rw [if_neg c1, if_neg (hp n (Nat.le_refl n) (by omega))]
      by_cases c2 : nth (l .istart) n = 0 ∨ nth (l .iend) n = 0 ∨ nth (l .jstart) n = 0 ∨ nth (l .jend) n = 0 ∨ halo = 0
      · rw [if_pos c2]
      · rw [if_neg c2]
        refine check_error h k (n + 1) (t + 1) (by omega) (fun m h1 h2 => hp m (by omega) (by omega)) (.inr ?_)
        rcases hb with ⟨q, _⟩ | ⟨o, m, h1, h2, h3⟩
        · exact absurd (.inr (.inr (.inr (.inr q)))) c2
        · refine ⟨o, m, ?_, by omega, h3⟩
          by_contra hlt
          have e : m = n := by omega
          subst e
          cases o
          · exact c1 h3
          · exact hp m (Nat.le_refl m) (by omega) h3
          · exact c2 (.inl h3)
          · exact c2 (.inr (.inl h3))
          · exact c2 (.inr (.inr (.inl h3)))
          · exact c2 (.inr (.inr (.inr (.inl h3))))

/-- With all numbers of at most 128 nests given, in any order of the options, there is one tile for each nest, and its size is that of the region in the parent times the ratio. -/
theorem C158_nests_partial (os : List (Opt × List Char)) (l : Opt → List (List (Fin 10))) (nests : Nat) (halo : Int) (h : Given os l) (hn : nests ≤ 128) (hh : halo ≠ 0)
    (hz : ∀ o m, m < nests → nth (l o) m ≠ 0) :
    nestSizes os nests halo = .ok ((List.range nests).map fun n =>
      ((nth (l .iend) n - nth (l .istart) n + 1) * nth (l .refine) n, (nth (l .jend) n - nth (l .jstart) n + 1) * nth (l .refine) n)) := by
  unfold nestSizes
  simp only
  rw [check_ok h hh nests 0 6 (by omega) (fun o m _ h2 => hz o m (by omega))]
  simp only
  rw [if_neg (by omega), Nat.add_sub_cancel_left]
  congr 1
  refine List.map_congr_left fun n hm => ?_
  have hlt : n < 128 := by have := List.mem_range.1 hm; omega
  have g : ∀ o, (readOptions os o).getD n 0 = nth (l o) n := fun o => by rw [List.getD_eq_getElem?_getD, entry h o hlt]; rfl
  unfold size
  rw [g, g, g, g, g]

/-- A number that is missing in a list, or no halo, ends the program with a message, if all parents are given. -/
theorem C158_missing (os : List (Opt × List Char)) (l : Opt → List (List (Fin 10))) (nests : Nat) (halo : Int) (h : Given os l) (hn : nests ≤ 128)
    (hp : ∀ m, m < nests → nth (l .parent) m ≠ 0) (hb : halo = 0 ∧ 0 < nests ∨ ∃ o, (l o).length < nests) : nestSizes os nests halo = .error := by
  unfold nestSizes
  simp only
  rw [check_error h nests 0 6 (by omega) (fun m _ h2 => hp m (by omega))]
  rcases hb with q | ⟨o, q⟩
  · exact .inl q
  · refine .inr ⟨o, (l o).length, by omega, by omega, ?_⟩
    unfold nth
    rw [List.getD_eq_getElem?_getD, List.getElem?_eq_none (by unfold values; rw [List.length_map])]
    rfl

/-- Options of two nests; `par` and `ref` are the texts of two of them. -/
def c158Opts (par ref : List Char) : List (Opt × List Char) :=
  [(.parent, par), (.refine, ref), (.istart, ['3', ',', '5']), (.iend, ['8', ',', '6']), (.jstart, ['3', ',', '5']), (.jend, ['8', ',', '6'])]

/-- One parent is missing: no message, the tile is left out, and arrays are read beyond their end. -/
theorem C158_parent_wrong : nestSizes (c158Opts ['6'] ['2', ',', '3']) 2 1 = .broken := by decide +kernel

/-- An option is given again with fewer numbers: one of the first list is left, and there is no message. -/
theorem C158_repeat_wrong (x y z : Int) (rest : List Int) :
    parse ['4'] (x :: y :: z :: rest) = 4 :: y :: 0 :: rest.map (fun _ => 0) ∧
    nestSizes (c158Opts ['6', ',', '6'] ['2', ',', '3'] ++ [(.refine, ['4'])]) 2 1 = .ok [(24, 24), (6, 6)] := ⟨rfl, by decide +kernel⟩

/-- Two commas without a number between them: the numbers after them belong to other nests. -/
theorem C158_empty_wrong (cur cs : List Char) : tokens cur (',' :: ',' :: cs) = tokens cur (',' :: cs) := by
  by_cases h : cur = [] <;> simp [tokens, h]

/-- More than 128 nests: arrays are read beyond their end. -/
theorem C158_many_wrong : nestSizes ([Opt.refine, .parent, .istart, .iend, .jstart, .jend].map fun o => (o, commas (List.replicate 129 [1]))) 129 1 = .broken := by decide +kernel

def c158List : Opt → List (List (Fin 10))
  | .refine => [[2], [3]]
  | .parent => [[6], [6]]
  | .istart => [[3], [1, 1]]
  | .iend => [[8], [2, 0]]
  | .jstart => [[3], [5]]
  | .jend => [[8], [1, 6]]

example : nestSizes ([Opt.jend, .parent, .istart, .iend, .jstart, .refine].map fun o => (o, commas (c158List o))) 2 3 = .ok [(12, 12), (30, 36)] := by
  rw [C158_nests_partial _ c158List 2 3 (by intro o; cases o <;> decide) (by decide) (by decide) (by
    intro o m hm
    have : m = 0 ∨ m = 1 := by omega
    rcases this with rfl | rfl <;> cases o <;> decide)]
  decide

end Verif
