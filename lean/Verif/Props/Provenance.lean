import Verif.Model.Provenance
import Mathlib.Data.List.SplitOn
import Mathlib.Tactic.Linarith
/-
C144: the command line and the great circle flag in the files.
-/
namespace Verif
open Provenance

private theorem cat_eq (n : Nat) (s w : Word) : cat n s w = if (s ++ w).length < n then .ok (s ++ w) else .error .undefined := by
  unfold cat
  rw [List.length_append]
  by_cases h : s.length + w.length < n
  · rw [if_pos h, if_neg (by omega)]
  · rw [if_neg h, if_pos (by omega)]

private theorem join_cons (w v : Word) (ws : List Word) : [' '].intercalate (w :: v :: ws) = w ++ ' ' :: [' '].intercalate (v :: ws) := by
  simp [List.intercalate, List.intersperse]

private theorem more_eq (n : Nat) : ∀ (ws : List Word) (s : Word), s.length < n →
    more n s ws = if ([' '].intercalate (s :: ws)).length < n then .ok ([' '].intercalate (s :: ws)) else .error .undefined
  | [], s, h => by
    have : [' '].intercalate [s] = s := by simp [List.intercalate, List.intersperse]
    rw [this, if_pos h]
    rfl
  | w :: ws, s, h => by
    have e : [' '].intercalate (s :: w :: ws) = [' '].intercalate ((s ++ [' '] ++ w) :: ws) := by
      cases ws with
      | nil => simp [List.intercalate, List.intersperse]
      | cons v vs => rw [join_cons, join_cons, join_cons]; simp
    have hl : ∀ t : Word, t.length ≤ ([' '].intercalate (t :: ws)).length := by
      intro t
      cases ws with
      | nil => simp [List.intercalate, List.intersperse]
      | cons v vs => rw [join_cons, List.length_append]; omega
    rw [e, more, cat_eq]
    by_cases h1 : (s ++ [' ']).length < n
    · rw [if_pos h1]
      show (cat n (s ++ [' ']) w >>= fun s => more n s ws) = _
      rw [cat_eq]
      by_cases h2 : (s ++ [' '] ++ w).length < n
      · rw [if_pos h2]
        exact more_eq n ws _ h2
      · rw [if_neg h2, if_neg (fun hc => h2 (lt_of_le_of_lt (hl _) hc))]
        rfl
    · rw [if_neg h1, if_neg (fun hc => h1 (lt_of_le_of_lt (le_trans (by simp only [List.length_append]; omega) (hl (s ++ [' '] ++ w))) hc))]
      rfl

/-- The attribute `history` is the command line, with one blank between the words, if it is shorter than the array of the program; otherwise the program writes outside the array. -/
theorem C144_history_partial (p : Program) (w : Word) (ws : List Word) :
    history (size p) (w :: ws) = if ([' '].intercalate (w :: ws)).length < size p then .ok ([' '].intercalate (w :: ws)) else .error .undefined := by
  have hl : w.length ≤ ([' '].intercalate (w :: ws)).length := by
    cases ws with
    | nil => simp [List.intercalate, List.intersperse]
    | cons v vs => rw [join_cons, List.length_append]; omega
  rw [history]
  rw [cat_eq, List.nil_append]
  by_cases h : w.length < size p
  · rw [if_pos h]
    exact more_eq _ ws w h
  · rw [if_neg h, if_neg (fun hc => h (lt_of_le_of_lt hl hc))]
    rfl

/-- The words of the command line can be read from `history`, if they have no blank. -/
theorem C144_round_trip (p : Program) (args : List Word) (hne : args ≠ []) (hb : ∀ w ∈ args, ' ' ∉ w) {h : Word} (hh : history (size p) args = .ok h) :
    h.splitOn ' ' = args := by
  cases args with
  | nil => exact absurd rfl hne
  | cons w ws =>
    rw [C144_history_partial] at hh
    split_ifs at hh
    rw [← Except.ok.inj hh]
    exact List.splitOn_intercalate ' ' hb (List.cons_ne_nil _ _)

/-- Every program has a bound: a command line with one long word makes it write outside the array. For make_vgrid 256 characters suffice, for make_topog, make_solo_mosaic,
make_quick_mosaic and make_coupler_mosaic 512. -/
theorem C144_long_wrong (p : Program) (w v : Word) (ws : List Word) (h : size p ≤ v.length) : history (size p) (w :: v :: ws) = .error .undefined := by
  rw [C144_history_partial, if_neg]
  rw [join_cons, List.length_append, List.length_cons]
  have hl : v.length ≤ ([' '].intercalate (v :: ws)).length := by
    cases ws with
    | nil => simp [List.intercalate, List.intersperse]
    | cons u us => rw [join_cons, List.length_append]; omega
  omega

/-! ### fregrid -/

/-- A word of more than 512 characters is replaced. -/
def shownWord (w : Word) : Word := if 512 < w.length then "(**please see the field list in this file**)".toList else w

private theorem fmore_eq : ∀ (ws : List Word) (p s : Word), s.length < 4096 →
    (p :: ws).IsChain (fun p w => 512 < w.length → p ∈ ["--scalar_field".toList, "--u_field".toList, "--v_field".toList]) →
    fregridMore p s ws = if ([' '].intercalate (s :: ws.map shownWord)).length < 4096 then .ok ([' '].intercalate (s :: ws.map shownWord)) else .error .undefined
  | [], p, s, h, _ => by
    have : [' '].intercalate (s :: List.map shownWord []) = s := by simp [List.intercalate, List.intersperse]
    rw [this, if_pos h]
    rfl
  | w :: ws, p, s, h, hc => by
    rw [List.isChain_cons_cons] at hc
    obtain ⟨hc1, hc2⟩ := hc
    have e : [' '].intercalate (s :: (w :: ws).map shownWord) = [' '].intercalate ((s ++ [' '] ++ shownWord w) :: ws.map shownWord) := by
      rw [List.map_cons]
      cases ws.map shownWord with
      | nil => simp [List.intercalate, List.intersperse]
      | cons v vs => rw [join_cons, join_cons, join_cons]; simp
    have hl : ∀ t : Word, t.length ≤ ([' '].intercalate (t :: ws.map shownWord)).length := by
      intro t
      cases ws.map shownWord with
      | nil => simp [List.intercalate, List.intersperse]
      | cons v vs => rw [join_cons, List.length_append]; omega
    have step : fregridMore p s (w :: ws) = (cat 4096 s [' '] >>= fun s => cat 4096 s (shownWord w) >>= fun s => fregridMore w s ws) := by
      rw [fregridMore]
      unfold shownWord MAXENTRY MAXATT
      by_cases hw : 512 < w.length
      · simp only [if_pos hw]
        have : p ∈ lists := hc1 hw
        simp only [if_pos this]
        rfl
      · simp only [if_neg hw]
    rw [e, step, cat_eq]
    by_cases h1 : (s ++ [' ']).length < 4096
    · rw [if_pos h1]
      show (cat 4096 (s ++ [' ']) (shownWord w) >>= fun s => fregridMore w s ws) = _
      rw [cat_eq]
      by_cases h2 : (s ++ [' '] ++ shownWord w).length < 4096
      · rw [if_pos h2]
        exact fmore_eq ws w _ h2 hc2
      · rw [if_neg h2, if_neg (fun hc => h2 (lt_of_le_of_lt (hl _) hc))]
        rfl
    · rw [if_neg h1, if_neg (fun hc => h1 (lt_of_le_of_lt (le_trans (by simp only [List.length_append]; omega) (hl (s ++ [' '] ++ shownWord w))) hc))]
      rfl

/-- fregrid: if only lists of fields are longer than 512 characters, `history` is the command line with a note in place of these lists, as long as this is shorter than 4096
characters. -/
theorem C144_fregrid_partial (w : Word) (ws : List Word)
    (hc : (w :: ws).IsChain (fun p w => 512 < w.length → p ∈ ["--scalar_field".toList, "--u_field".toList, "--v_field".toList])) :
    fregridHistory (w :: ws) = if ([' '].intercalate (w :: ws.map shownWord)).length < 4096 then .ok ([' '].intercalate (w :: ws.map shownWord)) else .error .undefined := by
  have hl : w.length ≤ ([' '].intercalate (w :: ws.map shownWord)).length := by
    cases ws.map shownWord with
    | nil => simp [List.intercalate, List.intersperse]
    | cons v vs => rw [join_cons, List.length_append]; omega
  rw [fregridHistory, MAXATT]
  rw [cat_eq, List.nil_append]
  by_cases h : w.length < 4096
  · rw [if_pos h]
    exact fmore_eq ws w w h hc
  · rw [if_neg h, if_neg (fun hc => h (lt_of_le_of_lt hl hc))]
    rfl

/-- Any other long word stops fregrid. -/
theorem C144_fregrid_refused (w v : Word) (ws : List Word) (hw : w.length + 1 < 4096) (hl : 512 < v.length)
    (hn : w ∉ ["--scalar_field".toList, "--u_field".toList, "--v_field".toList]) : fregridHistory (w :: v :: ws) = .error .refused := by
  rw [fregridHistory, MAXATT]
  rw [cat_eq, List.nil_append, if_pos (by omega)]
  show fregridMore w w (v :: ws) = _
  rw [fregridMore, MAXATT, cat_eq, if_pos (by rw [List.length_append, List.length_singleton]; exact hw)]
  show (if MAXENTRY < v.length then _ else _) = _
  rw [if_pos (show MAXENTRY < v.length from hl), if_neg (show w ∉ lists from hn)]

/-- So does a list of fields of the form `--scalar_field=...`, which `getopt_long` accepts. -/
theorem C144_fregrid_equals_wrong (w l : Word) (ws : List Word) (hw : w.length + 1 < 4096) (hn : w ∉ ["--scalar_field".toList, "--u_field".toList, "--v_field".toList])
    (hl : 497 < l.length) : fregridHistory (w :: ("--scalar_field=".toList ++ l) :: ws) = .error .refused := by
  refine C144_fregrid_refused w _ ws hw ?_ hn
  rw [List.length_append]
  have : ("--scalar_field=".toList).length = 15 := by decide
  omega

/-- Several lists of fields: a short name of the program and three lists of 2000 characters each give a short history. -/
example : (fregridHistory ["fregrid".toList, "--scalar_field".toList, List.replicate 2000 'a', "--u_field".toList, List.replicate 2000 'b', "--v_field".toList,
    List.replicate 2000 'c']).isOk = true := by decide +kernel

/-! ### The great circle flag -/

/-- What a program writes, another one reads: the flag for the great circle algorithm goes from file to file. -/
theorem C144_great_circle (h : Option Word) (g : Bool) : readGca (provenance h g) = .ok g := by
  cases g with
  | true => cases h <;> rfl
  | false =>
    cases h with
    | none => rfl
    | some h =>
      have : (("great_circle_algorithm".toList : Word) == "history".toList) = false := by decide
      simp only [provenance, readGca, Bool.false_eq_true, if_false, List.nil_append, List.lookup, this]

/-- Other texts are refused. -/
theorem C144_great_circle_refused (a : Atts) (v : Word) (h : a.lookup "great_circle_algorithm".toList = some v) (h1 : v ≠ "TRUE".toList) (h2 : v ≠ "FALSE".toList) :
    readGca a = .error .refused := by
  unfold readGca
  rw [h]
  simp only [if_neg h1, if_neg h2]

end Verif
