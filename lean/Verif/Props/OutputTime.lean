import Verif.Model.OutputTime
/-
C159: the time axis of the output.
-/
namespace Verif
open OutputTime

variable {α : Type}

private theorem load_at {k : Kind} {file : List α} {start count size i : Nat} (h : start + count ≤ file.length) (hi : i < count) :
    (load k file start count size).getD i .junk = .val (file[start + i]'(by omega)) := by
  have hl : (((file.drop start).take count).map Cell.val).length = count := by rw [List.length_map, List.length_take, List.length_drop]; omega
  unfold load
  simp only
  rw [List.getD_eq_getElem?_getD, List.getElem?_append_left (by rw [hl]; exact hi), List.getElem?_eq_getElem (by rw [hl]; exact hi), Option.getD_some, List.getElem_map, List.getElem_take,
    List.getElem_drop]

private theorem junk_either (p : Prop) [Decidable p] : (if p then some (Cell.junk : Cell α) else none).getD .junk = .junk := by
  by_cases c : p
  · rw [if_pos c]; rfl
  · rw [if_neg c]; rfl

private theorem load_beyond {k : Kind} {file : List α} {start count size i : Nat} (h : start + count ≤ file.length) (hi : count ≤ i) :
    (load k file start count size).getD i .junk = .junk := by
  have hl : (((file.drop start).take count).map Cell.val).length = count := by rw [List.length_map, List.length_take, List.length_drop]; omega
  unfold load
  simp only
  rw [List.getD_eq_getElem?_getD, List.getElem?_append_right (by rw [hl]; exact hi), List.getElem?_replicate]
  exact junk_either _

private theorem times_at (k : Kind) (mem : List (Cell α)) : ∀ n m, times k mem n m = if m < n then at' k mem m 0 else .fill
  | 0, m => by rw [if_neg (by omega)]; rfl
  | n + 1, m => by
    rw [times, put]
    by_cases c : m = n
    · rw [if_pos c, if_pos (by omega), c]
    · rw [if_neg c, times_at k mem n m]
      by_cases d : m < n
      · rw [if_pos d, if_pos (by omega)]
      · rw [if_neg d, if_neg (by omega)]

private theorem edges_at (k : Kind) (mem : List (Cell α)) : ∀ n m, edges k mem n m = if m < n then at' k mem (2 * m) 0 else .fill
  | 0, m => by rw [if_neg (by omega)]; rfl
  | n + 1, m => by
    rw [edges, put]
    by_cases c : m = n
    · rw [if_pos c, if_pos (by omega), c]
    · rw [if_neg c, edges_at k mem n m]
      by_cases d : m < n
      · rw [if_pos d, if_pos (by omega)]
      · rw [if_neg d, if_neg (by omega)]

private theorem bounds_at (k : Kind) (mem : List (Cell α)) : ∀ n m j, j < 2 → bounds k mem n (2 * m + j) = if m < n then at' k mem (2 * m) j else .fill
  | 0, m, j, _ => by rw [if_neg (by omega)]; rfl
  | n + 1, m, j, hj => by
    rw [bounds, put, put]
    by_cases c : m = n
    · subst c
      rw [if_pos (Nat.lt_succ_self m)]
      have : j = 0 ∨ j = 1 := by omega
      rcases this with rfl | rfl
      · rw [if_neg (by omega), if_pos (by omega)]
      · rw [if_pos rfl]
    · rw [if_neg (by omega), if_neg (by omega), bounds_at k mem n m j hj]
      by_cases d : m < n
      · rw [if_pos d, if_pos (by omega)]
      · rw [if_neg d, if_neg (by omega)]

/-- Each step of the output has the time of the step of the input whose data is remapped to it (`lstart + m`), and there are no more, if times are real numbers. -/
theorem C159_time_partial (file : List α) (lstart nt : Nat) (h : lstart + nt ≤ file.length) (m : Nat) :
    timeOut .double file lstart nt m = if q : m < nt then .val (file[lstart + m]'(by omega)) else .fill := by
  unfold timeOut
  rw [times_at]
  by_cases c : m < nt
  · rw [if_pos c, dif_pos c]
    exact load_at h c
  · rw [if_neg c, dif_neg c]

/-- So with bounds of two dimensions. -/
theorem C159_bounds_partial (file : List α) (lstart nt : Nat) (h : 2 * (lstart + nt) ≤ file.length) (m j : Nat) (hj : j < 2) :
    boundsOut .double file lstart nt (2 * m + j) = if q : m < nt then .val (file[2 * (lstart + m) + j]'(by omega)) else .fill := by
  unfold boundsOut
  rw [bounds_at _ _ _ _ _ hj]
  by_cases c : m < nt
  · rw [if_pos c, dif_pos c]
    show (load Kind.double file (2 * lstart) (2 * nt) (2 * nt)).getD (2 * m + j) .junk = _
    rw [load_at (by omega) (by omega)]
    congr 2
    omega
  · rw [if_neg c, dif_neg c]

/-- Times that are `int`: step `m` has the time of step `2 m`, and the second half of the steps has none. -/
theorem C159_int_wrong (file : List α) (lstart nt : Nat) (h : lstart + nt ≤ file.length) (m : Nat) (hm : m < nt) :
    timeOut .int file lstart nt m = if q : 2 * m < nt then .val (file[lstart + 2 * m]'(by omega)) else .junk := by
  unfold timeOut
  rw [times_at, if_pos hm]
  show (load Kind.int file lstart nt nt).getD (2 * m + 0) .junk = _
  by_cases c : 2 * m < nt
  · rw [dif_pos c]
    exact load_at h c
  · rw [dif_neg c]
    exact load_beyond h (by omega)

/-- So with their bounds. -/
theorem C159_int_bounds_wrong (file : List α) (lstart nt : Nat) (h : 2 * (lstart + nt) ≤ file.length) (m j : Nat) (hj : j < 2) (hm : m < nt) :
    boundsOut .int file lstart nt (2 * m + j) = if q : 2 * m < nt then .val (file[2 * (lstart + 2 * m) + j]'(by omega)) else .junk := by
  unfold boundsOut
  rw [bounds_at _ _ _ _ _ hj, if_pos hm]
  show (load Kind.int file (2 * lstart) (2 * nt) (2 * nt)).getD (2 * (2 * m) + j) .junk = _
  by_cases c : 2 * m < nt
  · rw [dif_pos c, load_at (by omega) (by omega)]
    congr 2
    omega
  · rw [dif_neg c]
    exact load_beyond (by omega) (by omega)

/-- Edges of one dimension: position `m` has edge `2 m`, or something from behind the array; the last edge is never written. -/
theorem C159_edges_wrong (file : List α) (lstart nt : Nat) (h : lstart + (nt + 1) ≤ file.length) :
    (∀ m, m < nt → edgesOut .double file lstart nt m = if q : 2 * m ≤ nt then .val (file[lstart + 2 * m]'(by omega)) else .junk) ∧ edgesOut .double file lstart nt nt = .fill := by
  unfold edgesOut
  refine ⟨fun m hm => ?_, by rw [edges_at, if_neg (Nat.lt_irrefl nt)]⟩
  rw [edges_at, if_pos hm]
  show (load Kind.double file lstart (nt + 1) (nt + 1)).getD (2 * m + 0) .junk = _
  by_cases c : 2 * m ≤ nt
  · rw [dif_pos c]
    exact load_at h (by omega)
  · rw [dif_neg c]
    exact load_beyond h (by omega)

/-- Times 10, 20, 30, 40, from the second on, three steps. -/
example : (List.range 4).map (timeOut .double [10, 20, 30, 40] 1 3) = [.val 20, .val 30, .val 40, .fill] := by
  simp only [List.range, List.range.loop, List.map, C159_time_partial [10, 20, 30, 40] 1 3 (by decide)]; decide
example : (List.range 4).map (boundsOut .double [5, 15, 15, 25, 25, 35] 1 2) = [.val 15, .val 25, .val 25, .val 35] := by decide
example : timeOut .double [10, 20, 30, 40] 1 3 2 = .val 40 := by rw [C159_time_partial _ _ _ (by decide)]; rfl
/-- As whole numbers: 20, 40, and something. -/
example : timeOut .int [10, 20, 30, 40] 1 3 1 = .val 40 ∧ timeOut .int [10, 20, 30, 40] 1 3 2 = .junk :=
  ⟨by rw [C159_int_wrong _ _ _ (by decide) _ (by decide)]; rfl, by rw [C159_int_wrong _ _ _ (by decide) _ (by decide)]; rfl⟩
/-- Edges 5, 15, 25, 35 of three steps: 5, 25, something, nothing. -/
example : (List.range 4).map (edgesOut .double [5, 15, 25, 35] 0 3) = [.val 5, .val 25, .junk, .fill] := by decide

end Verif
