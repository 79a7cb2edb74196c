import Verif.Model.NestLength
import Mathlib.Tactic.Ring
/-
C82: `dy` in the files of nested tiles.
-/
namespace Verif.NestLength

theorem offset_pos (sz : Nat → Nat × Nat) (n : Nat) (h : ∀ m, m < n → (sz m).1 = (sz m).2) :
    offsetM sz n = posE sz n := by
  induction n with
  | zero => rfl
  | succ n ih =>
    have e := h n (by omega)
    rw [offsetM, posE, ih (fun m hm => h m (by omega)), e]
    ring_nf

theorem offset_mono (sz : Nat → Nat × Nat) (n m : Nat) (h : n ≤ m) : offsetM sz n ≤ offsetM sz m := by
  induction m with
  | zero => rw [Nat.le_zero.1 h]
  | succ m ih =>
    rcases Nat.lt_or_ge m n with h1 | h1
    · rw [show n = m + 1 by omega]
    · have := ih h1
      rw [offsetM]; omega

/-- If all tiles but the last are squares, the file of each tile has the values of `dy` computed for it. Missing for the
whole claim: several nests of which one but the last is not a square, see `C82_nest_wrong`. -/
theorem C82_nest_partial {L : Type} (sz : Nat → Nat × Nat) (v : Nat → Nat → Nat → L) (ntiles : Nat)
    (h : ∀ m, m + 1 < ntiles → (sz m).1 = (sz m).2) (n j i : Nat) (hn : n < ntiles) (hj : j < (sz n).2)
    (hi : i ≤ (sz n).1) : file sz v ntiles n j i = some (v n j i) := by
  unfold file
  have hlt : j * ((sz n).1 + 1) + i < ((sz n).1 + 1) * (sz n).2 := by
    have := Nat.mul_le_mul_right ((sz n).1 + 1) (show j + 1 ≤ (sz n).2 by omega)
    rw [Nat.add_mul, Nat.mul_comm (sz n).2] at this
    omega
  have key : ∀ m, n < m → m ≤ ntiles → store sz v m (posE sz n + j * ((sz n).1 + 1) + i) = some (v n j i) := by
    intro m
    induction m with
    | zero => intro h; omega
    | succ m ih =>
      intro h1 h2
      rw [store]
      rcases Nat.lt_or_ge n m with h3 | h3
      · rw [if_neg]
        · exact ih h3 (by omega)
        · rintro ⟨h4, -⟩
          have h5 := offset_mono sz (n + 1) m h3
          have h6 := offset_pos sz (n + 1) (fun k hk => h k (by omega))
          rw [h6, posE] at h5
          omega
      · obtain rfl : n = m := by omega
        have e := offset_pos sz n (fun k hk => h k (by omega))
        rw [e, if_pos (by omega)]
        have e2 : posE sz n + j * ((sz n).1 + 1) + i - posE sz n = ((sz n).1 + 1) * j + i := by
          rw [Nat.mul_comm]; omega
        rw [e2, Nat.mul_add_div (by omega), Nat.div_eq_of_lt (by omega), Nat.mul_add_mod,
          Nat.mod_eq_of_lt (by omega), Nat.add_zero]
  exact key ntiles hn (Nat.le_refl _)

/-- Six tiles of size 4 and a nest of 2 by 6 cells: row 5 of the nest -/
example : file (fun n => if n < 6 then (4, 4) else (2, 6)) (fun n j i => (n, j, i)) 7 6 5 2 = some (6, 5, 2) :=
  C82_nest_partial _ _ 7 (fun m hm => by rw [if_pos (by omega)]) 6 5 2 (by omega) (by decide) (by decide)

/-- With two nests of which the first has 2 by 6 cells, the file of the second begins with the element in row 1 and column 1
of its values and ends with an element which was never set, and the last element of the first file is a value of the second
nest: six tiles of size 4, and a second nest of 2 by 4 cells. -/
theorem C82_nest_wrong :
    let sz : Nat → Nat × Nat := fun n => if n < 6 then (4, 4) else if n = 6 then (2, 6) else (2, 4)
    file sz (fun n j i => (n, j, i)) 8 7 0 0 = some (7, 1, 1)
      ∧ file sz (fun n j i => (n, j, i)) 8 6 5 2 = some (7, 1, 0)
      ∧ file sz (fun n j i => (n, j, i)) 8 7 3 2 = none := by
  decide +kernel

end Verif.NestLength
