import Verif.Lemmas.TransferMosaic
/-
Lemmas about the grids of atmosphere and land and the vertical grid.
-/
namespace Verif.TransferMosaic
open Verif.Spec.TransferMosaic

theorem put_same {α : Type} (a : Mem α) (k : Nat) (v : Option α) : put a k v k = v := by simp [put]

theorem put_ne {α : Type} (a : Mem α) (k m : Nat) (v : Option α) (h : m ≠ k) : put a k v m = a m := by simp [put, h]

theorem mul_ne {a b s : Nat} (hs : 0 < s) (h : a ≠ b) : a * s ≠ b * s := fun e => h (Nat.eq_of_mul_eq_mul_right hs e)

theorem interleave_even {α : Type} (s : Nat) (hs : 0 < s) (b t : List α) (a : Mem α) (i : Nat) (hi : i < b.length) :
    interleave s b t a (2 * i * s) = b[i]? := by
  unfold interleave
  rw [fold_miss (fun a : Mem α => a (2 * i * s))]
  · refine fold_hit (fun a : Mem α => a (2 * i * s)) (fun _ => True) _ _ i hi _ (fun _ _ _ _ => trivial) (fun x _ => ?_)
      (fun x q _ hne => ?_) a trivial
    · exact put_same _ _ _
    · exact put_ne _ _ _ _ (mul_ne hs (by omega))
  · intro x q _
    exact put_ne _ _ _ _ (mul_ne hs (by omega))

theorem interleave_odd {α : Type} (s : Nat) (hs : 0 < s) (b t : List α) (a : Mem α) (i : Nat) (hi : i < t.length) :
    interleave s b t a ((2 * i + 1) * s) = t[i]? := by
  unfold interleave
  refine fold_hit (fun a : Mem α => a ((2 * i + 1) * s)) (fun _ => True) _ _ i hi _ (fun _ _ _ _ => trivial) (fun x _ => ?_)
    (fun x q _ hne => ?_) _ trivial
  · exact put_same _ _ _
  · exact put_ne _ _ _ _ (mul_ne hs (by omega))

theorem rows_copy {α : Type} (nxp nyp : Nat) (x0 : Mem α) (r c : Nat) (hr : r < nyp) (hc : c < nxp) :
    (List.range (nyp - 1)).foldl (fun x j => (List.range nxp).foldl (fun (x : Mem α) i => put x ((j + 1) * nxp + i) (x i)) x) x0
      (r * nxp + c) = x0 c := by
  have low : ∀ (x : Mem α) (j i c : Nat), c < nxp → put x ((j + 1) * nxp + i) (x i) c = x c := by
    intro x j i c hc
    refine put_ne _ _ _ _ (fun h => ?_)
    have : nxp ≤ (j + 1) * nxp := Nat.le_mul_of_pos_left _ (by omega)
    omega
  have inv : ∀ (j : Nat) (l : List Nat) (x : Mem α), (∀ c, c < nxp → x c = x0 c) →
      ∀ c, c < nxp → (l.foldl (fun (x : Mem α) i => put x ((j + 1) * nxp + i) (x i)) x) c = x0 c := by
    intro j l x hx
    refine fold_inv (fun x : Mem α => ∀ c, c < nxp → x c = x0 c) _ l (fun s i _ hs c hc => ?_) x hx
    rw [low s j i c hc]
    exact hs c hc
  cases r with
  | zero =>
    rw [Nat.zero_mul, Nat.zero_add]
    exact fold_inv (fun x : Mem α => ∀ c, c < nxp → x c = x0 c) _ _ (fun s j _ hs => inv j _ s hs) x0 (fun _ _ => rfl) c hc
  | succ q =>
    refine fold_hit (fun x : Mem α => x ((q + 1) * nxp + c)) (fun x => ∀ c, c < nxp → x c = x0 c) _ _ q (by omega) _
      (fun s j _ hs => inv j _ s hs) (fun s hs => ?_) (fun s j hj hne => ?_) x0 (fun _ _ => rfl)
    · refine fold_hit (fun x : Mem α => x ((q + 1) * nxp + c)) (fun x => ∀ c, c < nxp → x c = x0 c) _ _ c hc _
        (fun s i _ hs c hc => ?_) (fun s hs => ?_) (fun s i hi hne => ?_) s hs
      · rw [low s q i c hc]; exact hs c hc
      · rw [put_same]; exact hs c hc
      · exact put_ne _ _ _ _ (by omega)
    · refine fold_miss (fun x : Mem α => x ((q + 1) * nxp + c)) _ _ (fun s i hi => ?_) s
      rw [put_flat _ _ (List.mem_range.1 hi) hc, if_neg (by omega)]

theorem cols_copy {α : Type} (nxp nyp : Nat) (y0 : Mem α) (r c : Nat) (hr : r < nyp) (hc : c < nxp) :
    (List.range (nxp - 1)).foldl (fun y i => (List.range nyp).foldl (fun (y : Mem α) j => put y (j * nxp + (i + 1)) (y (j * nxp))) y)
      y0 (r * nxp + c) = y0 (r * nxp) := by
  have low : ∀ (y : Mem α) (j i r : Nat), i + 1 < nxp → put y (j * nxp + (i + 1)) (y (j * nxp)) (r * nxp) = y (r * nxp) := by
    intro y j i r hi
    have := put_flat (r := j) (c := i + 1) (r' := r) (c' := 0) y (y (j * nxp)) hi (by omega)
    simp only [Nat.add_zero] at this
    rw [this, if_neg (by omega)]
  have inv : ∀ (i : Nat) (l : List Nat) (y : Mem α), i + 1 < nxp → (∀ r, y (r * nxp) = y0 (r * nxp)) →
      ∀ r, (l.foldl (fun (y : Mem α) j => put y (j * nxp + (i + 1)) (y (j * nxp))) y) (r * nxp) = y0 (r * nxp) := by
    intro i l y hi hy
    refine fold_inv (fun y : Mem α => ∀ r, y (r * nxp) = y0 (r * nxp)) _ l (fun s j _ hs r => ?_) y hy
    rw [low s j i r hi]
    exact hs r
  cases c with
  | zero =>
    rw [Nat.add_zero]
    exact fold_inv (fun y : Mem α => ∀ r, y (r * nxp) = y0 (r * nxp)) _ _
      (fun s i hi hs => inv i _ s (by have := List.mem_range.1 hi; omega) hs) y0 (fun _ => rfl) r
  | succ q =>
    refine fold_hit (fun y : Mem α => y (r * nxp + (q + 1))) (fun y => ∀ r, y (r * nxp) = y0 (r * nxp)) _ _ q (by omega) _
      (fun s i hi hs => inv i _ s (by omega) hs) (fun s hs => ?_) (fun s i hi hne => ?_) y0 (fun _ => rfl)
    · refine fold_hit (fun y : Mem α => y (r * nxp + (q + 1))) (fun y => ∀ r, y (r * nxp) = y0 (r * nxp)) _ _ r hr _
        (fun s j _ hs r => ?_) (fun s hs => ?_) (fun s j hj hne => ?_) s hs
      · rw [low s j q r hc]; exact hs r
      · rw [put_same]; exact hs r
      · rw [put_flat _ _ hc hc, if_neg (by omega)]
    · refine fold_miss (fun y : Mem α => y (r * nxp + (q + 1))) _ _ (fun s j hj => ?_) s
      rw [put_flat _ _ (show i + 1 < nxp by omega) hc, if_neg (by omega)]

end Verif.TransferMosaic
