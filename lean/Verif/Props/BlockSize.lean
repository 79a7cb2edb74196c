import Verif.Model.BlockSize
import Mathlib.Data.Nat.Digits.Defs
import Mathlib.Tactic.Ring
/-
C154: NC_BLKSZ.
-/
namespace Verif
open BlockSize

namespace Spec.BlockSize
/-- The text of a number with the given digits, the most significant first. -/
def text (ds : List (Fin 10)) : List Char := ds.map fun d : Fin 10 => Nat.digitChar d
/-- The number. -/
def value (ds : List (Fin 10)) : Nat := Nat.ofDigits 10 (ds.reverse.map fun d : Fin 10 => (d : Nat))
/-- What may follow the digits, and the factor. -/
inductive Suffix : List Char → Nat → Prop
  | bytes : Suffix [] 1
  | kilo : Suffix ['K'] 1024
  | mega : Suffix ['M'] (1024 * 1024)
/-- A number, and perhaps K or M. -/
def Legal (s : List Char) : Prop := ∃ ds x f, Suffix x f ∧ s = text ds ++ x
end Spec.BlockSize
open Spec.BlockSize

private theorem digit_fin : ∀ d : Fin 10, digit (Nat.digitChar d) = true ∧ (Nat.digitChar d).toNat - 48 = d := by decide

private theorem digit_ex (c : Char) (h : digit c = true) : ∃ d : Fin 10, Nat.digitChar d = c := by
  unfold digit at h
  rw [Bool.and_eq_true, decide_eq_true_eq, decide_eq_true_eq] at h
  have h1 : (48 : Nat) ≤ c.toNat := h.1
  have h2 : c.toNat ≤ 57 := h.2
  have key : ∀ n : Fin 10, Nat.digitChar n = Char.ofNat (48 + n) := by decide
  refine ⟨⟨c.toNat - 48, by omega⟩, ?_⟩
  rw [key]
  show Char.ofNat (48 + (c.toNat - 48)) = c
  rw [show 48 + (c.toNat - 48) = c.toNat by omega]
  exact Char.ofNat_toNat c

private theorem value_cons (d : Fin 10) (ds : List (Fin 10)) : value (d :: ds) = d * 10 ^ ds.length + value ds := by
  unfold value
  rw [List.reverse_cons, List.map_append, Nat.ofDigits_append]
  simp
  ring

private theorem atoi_text : ∀ (ds : List (Fin 10)) (acc : Nat) (rest : List Char), (∀ c ∈ rest.head?, digit c = false) → atoi acc (text ds ++ rest) = acc * 10 ^ ds.length + value ds
  | [], acc, rest, h => by
    show atoi acc rest = _
    cases rest with
    | nil => simp [atoi, value]
    | cons c cs => rw [atoi, if_neg (by rw [h c rfl]; exact Bool.false_ne_true)]; simp [value]
  | d :: ds, acc, rest, h => by
    show atoi acc (Nat.digitChar d :: (text ds ++ rest)) = _
    rw [atoi, if_pos (digit_fin d).1, (digit_fin d).2, atoi_text ds _ rest h, value_cons, List.length_cons]
    ring

private theorem check_last (s : List Char) (c : Char) (h : check s [c] = none) : ∀ ds : List (Fin 10), check s (text ds ++ [c]) = none
  | [] => h
  | [d] => by
    show check s [Nat.digitChar d, c] = none
    rw [check, if_neg (by rw [(digit_fin d).1]; decide)]; exact h
  | d :: e :: ds => by
    show check s (Nat.digitChar d :: Nat.digitChar e :: (text ds ++ [c])) = none
    rw [check, if_neg (by rw [(digit_fin d).1]; decide)]
    exact check_last s c h (e :: ds)

private theorem check_digit (s : List Char) (d : Fin 10) : check s [Nat.digitChar d] = none := by
  rw [check, (digit_fin d).1]; rfl

private theorem text_snoc (ds : List (Fin 10)) (d : Fin 10) : text (ds ++ [d]) = text ds ++ [Nat.digitChar d] := by
  unfold text; rw [List.map_append]; rfl

private theorem check_legal (s : List Char) {t : List Char} (h : Legal t) : check s t = none := by
  obtain ⟨ds, x, f, hx, rfl⟩ := h
  cases hx with
  | bytes =>
    rw [List.append_nil]
    rcases List.eq_nil_or_concat ds with rfl | ⟨es, e, rfl⟩
    · rfl
    · rw [List.concat_eq_append, text_snoc]; exact check_last s _ (check_digit s e) es
  | kilo => exact check_last s 'K' rfl ds
  | mega => exact check_last s 'M' rfl ds

private theorem digit_not (d : Fin 10) : Nat.digitChar d ≠ 'K' ∧ Nat.digitChar d ≠ 'M' := by revert d; decide

private theorem value_bytes {ds : List (Fin 10)} : atoi 0 (text ds) = value ds := by
  have := atoi_text ds 0 [] (by simp)
  rwa [List.append_nil, Nat.zero_mul, Nat.zero_add] at this

private theorem value_suffix {ds : List (Fin 10)} (c : Char) (h : digit c = false) : atoi 0 (text ds ++ [c]) = value ds := by
  have := atoi_text ds 0 [c] (by simpa using h)
  rwa [Nat.zero_mul, Nat.zero_add] at this

/-- A number that is an `int`, with or without K or M, is this number of bytes. -/
theorem C154_number_partial (ds : List (Fin 10)) (hd : ds ≠ []) (hi : value ds ≤ 2147483647) (x : List Char) (f : Nat) (hx : Suffix x f) : parse (text ds ++ x) = .size (value ds * f) := by
  have hc := check_legal (text ds ++ x) ⟨ds, x, f, hx, rfl⟩
  unfold parse
  rw [hc]
  cases hx with
  | bytes =>
    simp only
    rw [List.append_nil, value_bytes, if_neg (by omega)]
    obtain ⟨es, e, rfl⟩ : ∃ es e, ds = es ++ [e] := ⟨_, _, (List.dropLast_append_getLast hd).symm⟩
    rw [text_snoc, List.getLast?_concat]
    simp only
    rw [if_neg (digit_not e).1, if_neg (digit_not e).2, Nat.mul_one]
  | kilo =>
    simp only
    rw [value_suffix 'K' (by decide), if_neg (by omega), List.getLast?_concat]
    simp only
    rw [if_pos trivial]
  | mega =>
    simp only
    rw [value_suffix 'M' (by decide), if_neg (by omega), List.getLast?_concat]
    simp only
    rw [if_neg (by decide), if_pos trivial]

private theorem check_illegal (s : List Char) : ∀ t : List Char, ¬Legal t → ∃ k, (k = 100 ∨ k = 102) ∧ check s t = some (fail s k)
  | [], h => absurd ⟨[], [], 1, .bytes, rfl⟩ h
  | [c], h => by
    refine ⟨100, .inl rfl, ?_⟩
    rw [check]
    by_cases hd : digit c = true
    · obtain ⟨d, rfl⟩ := digit_ex c hd
      exact absurd ⟨[d], [], 1, .bytes, rfl⟩ h
    · have hk : c ≠ 'K' := by rintro rfl; exact h ⟨[], ['K'], _, .kilo, rfl⟩
      have hm : c ≠ 'M' := by rintro rfl; exact h ⟨[], ['M'], _, .mega, rfl⟩
      rw [if_pos (by simp [hd, hk, hm])]
  | c :: d :: cs, h => by
    rw [check]
    by_cases hd : digit c = true
    · rw [if_neg (by simp [hd])]
      refine check_illegal s (d :: cs) ?_
      rintro ⟨ds, x, f, hx, e⟩
      obtain ⟨q, rfl⟩ := digit_ex c hd
      exact h ⟨q :: ds, x, f, hx, by rw [e]; rfl⟩
    · exact ⟨102, .inr rfl, by rw [if_pos (by simp [hd])]⟩

/-- Everything else ends with an error. -/
theorem C154_error_partial (s : List Char) (h : ¬Legal s) (hs : s.length ≤ 409) : parse s = .error := by
  obtain ⟨k, hk, e⟩ := check_illegal s s h
  unfold parse
  rw [e]
  simp only
  unfold fail
  rw [if_pos (by omega)]

/-- The message about a long value is written beyond its array. -/
theorem C154_long_wrong (s : List Char) (h : ¬Legal s) (hs : 412 ≤ s.length) : parse s = .broken := by
  obtain ⟨k, hk, e⟩ := check_illegal s s h
  unfold parse
  rw [e]
  simp only
  unfold fail
  rw [if_neg (by omega)]

/-- An empty value: the byte before it is read. -/
theorem C154_empty_wrong : parse [] = .broken := by decide

/-- K and M without a number are accepted as 0. -/
theorem C154_no_number_wrong : parse ['K'] = .size 0 ∧ parse ['M'] = .size 0 := by decide

/-- A number that is no `int`. -/
theorem C154_large_wrong (ds : List (Fin 10)) (hi : 2147483647 < value ds) : parse (text ds) = .broken := by
  have hc := check_legal (text ds) ⟨ds, [], 1, .bytes, (List.append_nil _).symm⟩
  unfold parse
  rw [hc]
  simp only
  rw [value_bytes, if_pos hi]

private theorem opens_later (n : Nat) : ∀ es : List (Option (List Char)), opens false (.size n) es = es.map fun _ => Result.size n
  | [] => rfl
  | e :: es => by simp [opens, opens_later n es]

/-- All files of a run are opened with the block size from the first call, whatever becomes of the variable later; without the variable it is 1048576. -/
theorem C154_all_files (first : Option (List Char)) (later : List (Option (List Char))) (n : Nat) (h : (match first with | none => .size 1048576 | some s => parse s) = Result.size n) :
    opens true (.size 1048576) (first :: later) = (first :: later).map fun _ => Result.size n := by
  cases first with
  | none =>
    simp only at h
    injection h with h
    subst h
    simp [opens, opens_later]
  | some s =>
    simp only at h
    simp [opens, h, opens_later]

/-- 64K -/
example : parse ['6', '4', 'K'] = .size 65536 := C154_number_partial [6, 4] (by decide) (by decide) ['K'] 1024 .kilo

/-- 10M in the first of three calls -/
example : opens true (.size 1048576) [some ['1', '0', 'M'], none, some ['5']] = [.size 10485760, .size 10485760, .size 10485760] :=
  C154_all_files _ _ _ (C154_number_partial [1, 0] (by decide) (by decide) ['M'] _ .mega)

private theorem c154Legal : ¬Legal ['6', 'k'] := by
  rintro ⟨ds, x, f, hx, e⟩
  have := check_legal ['6', 'k'] ⟨ds, x, f, hx, e⟩
  revert this
  decide

example : parse ['6', 'k'] = .error := C154_error_partial _ c154Legal (by decide)

/-- 3000000000 -/
example : parse ['3', '0', '0', '0', '0', '0', '0', '0', '0', '0'] = .broken := C154_large_wrong [3, 0, 0, 0, 0, 0, 0, 0, 0, 0] (by decide)

end Verif
