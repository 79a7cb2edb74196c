import Verif.Model.Lon
import Mathlib.Tactic.Linarith
/-
C33: insertion and deletion of vertices. An array with `n` used elements is the list `used a n`.
-/
namespace Verif.Lon

variable {α : Type}

/-- The first `n` elements of an array. -/
def used (a : Nat → α) (n : Nat) : List α := (List.range n).map a

theorem delLoop_eq : ∀ (r : Nat) (a : Nat → α) (k m : Nat),
    delLoop r a k m = if k ≤ m ∧ m < k + r then a (m + 1) else a m
  | 0, a, k, m => by simp [delLoop]
  | r + 1, a, k, m => by
    rw [delLoop, delLoop_eq r]
    simp only [put]
    by_cases h1 : m = k
    · subst h1
      rw [if_neg (by omega), if_pos rfl, if_pos (by omega)]
    · by_cases h2 : k + 1 ≤ m ∧ m < k + 1 + r
      · rw [if_pos h2, if_neg (by omega), if_pos (by omega)]
      · rw [if_neg h2, if_neg h1, if_neg (by omega)]

theorem insLoop_eq : ∀ (r : Nat) (a : Nat → α) (k m : Nat),
    insLoop r a k m = if k < m ∧ m ≤ k + r then a (m - 1) else a m
  | 0, a, k, m => by rw [insLoop, if_neg (by omega)]
  | r + 1, a, k, m => by
    rw [insLoop, insLoop_eq r]
    simp only [put]
    by_cases h1 : m = k + r + 1
    · subst h1
      rw [if_neg (by omega), if_pos rfl, if_pos (by omega)]; rfl
    · by_cases h2 : k < m ∧ m ≤ k + r
      · rw [if_pos h2, if_neg (by omega), if_pos (by omega)]
      · rw [if_neg h2, if_neg h1, if_neg (by omega)]

/-- C33. Inserting puts the new vertex before vertex `k` and keeps all others in their order; elements behind the
polygon are not touched. -/
theorem C33_insert (a : Nat → α) (n k : Nat) (v : α) (hk : k ≤ n) :
    (insertVtx a n k v).2 = (n : Int) + 1 ∧
    used (insertVtx a n k v).1 (n + 1) = (used a n).take k ++ v :: (used a n).drop k ∧
    ∀ m, n < m → (insertVtx a n k v).1 m = a m := by
  refine ⟨rfl, ?_, ?_⟩
  · apply List.ext_getElem
    · simp [used]; omega
    · intro i h1 h2
      simp only [used, List.length_map, List.length_range] at h1
      simp only [used, List.getElem_map, List.getElem_range, insertVtx, put, insLoop_eq]
      rw [List.getElem_append]
      simp only [List.length_take, List.length_map, List.length_range, Nat.min_eq_left hk]
      by_cases h : i < k
      · simp only [h, dif_pos]
        rw [if_neg (by omega), if_neg (by omega)]
        simp
      · simp only [h, dif_neg, not_false_iff]
        by_cases h' : i = k
        · subst h'; simp
        · rw [if_neg h', if_pos (by omega)]
          obtain ⟨j, hj⟩ : ∃ j, i - k = j + 1 := ⟨i - k - 1, by omega⟩
          simp only [hj, List.getElem_cons_succ, List.getElem_drop, List.getElem_map, List.getElem_range]
          congr 1; omega
  · intro m hm
    simp only [insertVtx, put, insLoop_eq]
    rw [if_neg (by omega), if_neg (by omega)]

/-- C33. Deleting removes vertex `k` and keeps all others in their order. -/
theorem C33_delete (a : Nat → α) (n k : Nat) (hk : k < n) :
    (deleteVtx a n k).2 = ((n - 1 : Nat) : Int) ∧
    used (deleteVtx a n k).1 (n - 1) = (used a n).take k ++ (used a n).drop (k + 1) ∧
    ∀ m, n ≤ m → (deleteVtx a n k).1 m = a m := by
  refine ⟨?_, ?_, ?_⟩
  · simp only [deleteVtx]; omega
  · apply List.ext_getElem
    · simp [used]; omega
    · intro i h1 h2
      simp only [used, List.length_map, List.length_range] at h1
      simp only [used, List.getElem_map, List.getElem_range, deleteVtx, delLoop_eq]
      rw [List.getElem_append]
      simp only [List.length_take, List.length_map, List.length_range, Nat.min_eq_left (Nat.le_of_lt hk)]
      by_cases h : i < k
      · simp only [h, dif_pos]
        rw [if_neg (by omega)]
        simp
      · simp only [h, dif_neg, not_false_iff]
        rw [if_pos (by omega)]
        simp only [List.getElem_drop, List.getElem_map, List.getElem_range]
        congr 1; omega
  · intro m hm
    simp only [deleteVtx, delLoop_eq]
    rw [if_neg (by omega)]

/-- C33. Deleting the vertex just inserted restores the polygon. -/
theorem C33_insert_delete (a : Nat → α) (n k : Nat) (v : α) (hk : k ≤ n) :
    used (deleteVtx (insertVtx a n k v).1 (n + 1) k).1 n = used a n := by
  have h := (C33_delete (insertVtx a n k v).1 (n + 1) k (by omega)).2.1
  rw [(C33_insert a n k v hk).2.1] at h
  simp only [Nat.add_sub_cancel] at h
  rw [h]
  have hl : ((used a n).take k).length = k := by simp [used, hk]
  rw [List.take_append_of_le_length (by omega), List.take_of_length_le (by omega)]
  rw [List.drop_append, hl, List.drop_eq_nil_of_le (by omega)]
  simp

/-- C33. Inserting the vertex just deleted restores the polygon. -/
theorem C33_delete_insert (a : Nat → α) (n k : Nat) (hk : k < n) :
    used (insertVtx (deleteVtx a n k).1 (n - 1) k (a k)).1 n = used a n := by
  have h := (C33_insert (deleteVtx a n k).1 (n - 1) k (a k) (by omega)).2.1
  rw [(C33_delete a n k hk).2.1, show n - 1 + 1 = n by omega] at h
  rw [h]
  have hl : ((used a n).take k).length = k := by simp [used]; omega
  rw [List.take_append_of_le_length (by omega), List.take_of_length_le (by omega)]
  rw [List.drop_append, hl, List.drop_eq_nil_of_le (by omega)]
  have hd : (used a n).drop k = a k :: (used a n).drop (k + 1) := by
    rw [List.drop_eq_getElem_cons (by simp [used, hk])]
    simp [used]
  simp only [Nat.sub_self, List.drop_zero, List.nil_append]
  rw [← hd, List.take_append_drop]

example : used (insertVtx (fun k => 10 * k) 4 1 7).1 5 = [0, 7, 10, 20, 30] ∧
    used (deleteVtx (fun k => 10 * k) 4 1).1 3 = [0, 20, 30] := by decide

end Verif.Lon
