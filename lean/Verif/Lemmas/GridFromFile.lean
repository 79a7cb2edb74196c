import Verif.Model.GridFromFile
import Verif.Lemmas.TransferMosaic
import Verif.Spec.GridFromFile
import Mathlib.Tactic.Ring
import Mathlib.Tactic.Linarith
namespace Verif.GridFromFile
open Verif.TransferMosaic (Mem put loop2 fold_miss fold_hit fold_inv loop2_hit flat_inj put_flat)

theorem loop2_miss {S V : Type} (get : S → V) (body : Nat → Nat → S → S) (ny nx : Nat)
    (hmiss : ∀ j i s, j < ny → i < nx → get (body j i s) = get s) (s : S) : get (loop2 ny nx body s) = get s := by
  unfold loop2
  refine fold_miss get _ _ (fun s j hj => ?_) s
  exact fold_miss get _ _ (fun s i hi => hmiss j i s (List.mem_range.1 hj) (List.mem_range.1 hi)) s

/-- A loop that writes `v j i` to place (p j, q i). -/
theorem write_at {F : Type} (w ny nx : Nat) (p q : Nat → Nat) (v : Nat → Nat → Option F) (body : Nat → Nat → Mem F → Mem F)
    (hb : ∀ j i a, body j i a = put a (p j * w + q i) (v j i)) (hq : ∀ i < nx, q i < w)
    (hp' : ∀ j j', p j = p j' → j = j') (hq' : ∀ i i', q i = q i' → i = i') (a : Mem F) (j i : Nat) (hj : j < ny) (hi : i < nx) :
    loop2 ny nx body a (p j * w + q i) = v j i := by
  refine loop2_hit (fun a : Mem F => a (p j * w + q i)) body ny nx j i hj hi _ (fun s => ?_) (fun j' i' s hj' hi' hne => ?_) a
  · show body j i s _ = _
    rw [hb]; simp [put]
  · show body j' i' s _ = _
    rw [hb, put_flat _ _ (hq i' hi') (hq i hi), if_neg]
    rintro ⟨h1, h2⟩
    exact hne ⟨(hp' _ _ h1).symm, (hq' _ _ h2).symm⟩

theorem write_other {F : Type} (w ny nx : Nat) (p q : Nat → Nat) (v : Nat → Nat → Option F) (body : Nat → Nat → Mem F → Mem F)
    (hb : ∀ j i a, body j i a = put a (p j * w + q i) (v j i)) (hq : ∀ i < nx, q i < w)
    (a : Mem F) (r k : Nat) (hk : k < w) (h : ∀ j i, j < ny → i < nx → r = p j → k ≠ q i) :
    loop2 ny nx body a (r * w + k) = a (r * w + k) := by
  refine loop2_miss (fun a : Mem F => a (r * w + k)) body ny nx (fun j i s hj hi => ?_) a
  show body j i s _ = _
  rw [hb, put_flat _ _ (hq i hi) hk, if_neg]
  rintro ⟨h1, h2⟩
  exact h j i hj hi h1 h2

theorem write_all {F : Type} (w ny nx : Nat) (hw : nx ≤ w) (v : Nat → Nat → Option F) (body : Nat → Nat → Mem F → Mem F)
    (hb : ∀ j i a, body j i a = put a (j * w + i) (v j i)) (a : Mem F) (j i : Nat) (hj : j < ny) (hi : i < nx) :
    loop2 ny nx body a (j * w + i) = v j i :=
  write_at w ny nx (fun j => j) (fun i => i) v body hb (fun i h => by show i < w; omega) (fun _ _ h => h) (fun _ _ h => h) a j i hj hi

section
variable {F : Type} [Field F]

/-- The whole of one coordinate of the supergrid: by parity of row and column. -/
theorem sides_at (pr : Option F × Option F → Option F) (m : Mode) (mid : F × F → F × F → F × F) (ni nj : Nat) (s : Src F) (c t : Mem F) (J I : Nat)
    (hJ : J ≤ 2 * nj) (hI : I ≤ 2 * ni) :
    putSides pr m mid ni nj (2 * ni + 1) s (putCentres ni nj (2 * ni + 1) t (putCorners ni nj (2 * ni + 1) c (fun _ => none))) (J * (2 * ni + 1) + I) =
      if J % 2 = 0 then if I % 2 = 0 then c (J / 2 * (ni + 1) + I / 2) else pr (sideX m mid ni s (J / 2) (I / 2))
      else if I % 2 = 0 then pr (sideY m mid ni s (J / 2) (I / 2)) else t (J / 2 * ni + I / 2) := by
  unfold putSides putCentres putCorners
  simp only [Nat.add_assoc]
  rcases Nat.even_or_odd' J with ⟨j, rfl | rfl⟩ <;> rcases Nat.even_or_odd' I with ⟨i, rfl | rfl⟩
  · rw [write_other (2 * ni + 1) nj (ni + 1) (fun j => j * 2 + 1) (fun i => i * 2) _ _ (fun _ _ _ => rfl) (fun i h => by show i * 2 < _; omega) _ _ _ (by omega)
        (fun j' i' _ _ h => by have h : 2 * j = j' * 2 + 1 := h; omega),
      write_other (2 * ni + 1) (nj + 1) ni (fun j => j * 2) (fun i => i * 2 + 1) _ _ (fun _ _ _ => rfl) (fun i h => by show i * 2 + 1 < _; omega) _ _ _ (by omega)
        (fun j' i' _ _ h => by show 2 * i ≠ i' * 2 + 1; omega),
      write_other (2 * ni + 1) nj ni (fun j => j * 2 + 1) (fun i => i * 2 + 1) _ _ (fun _ _ _ => rfl) (fun i h => by show i * 2 + 1 < _; omega) _ _ _ (by omega)
        (fun j' i' _ _ h => by show 2 * i ≠ i' * 2 + 1; omega)]
    have := write_at (2 * ni + 1) (nj + 1) (ni + 1) (fun j => j * 2) (fun i => i * 2) (fun j i => c (j * (ni + 1) + i))
      (fun j i a => put a (j * 2 * (2 * ni + 1) + i * 2) (c (j * (ni + 1) + i))) (fun _ _ _ => rfl) (fun i h => by show i * 2 < _; omega)
      (fun a b h => by have h : a * 2 = b * 2 := h; omega) (fun a b h => by have h : a * 2 = b * 2 := h; omega) (fun _ => none) j i (by omega) (by omega)
    rw [show (2 * j) = j * 2 by ring, show (2 * i) = i * 2 by ring]
    simp only [Nat.mul_mod_left, if_true, Nat.mul_div_cancel _ (show 0 < 2 by omega)]
    exact this
  · rw [write_other (2 * ni + 1) nj (ni + 1) (fun j => j * 2 + 1) (fun i => i * 2) _ _ (fun _ _ _ => rfl) (fun i h => by show i * 2 < _; omega) _ _ _ (by omega)
        (fun j' i' _ _ h => by have h : 2 * j = j' * 2 + 1 := h; omega)]
    have := write_at (2 * ni + 1) (nj + 1) ni (fun j => j * 2) (fun i => i * 2 + 1) (fun j i => pr (sideX m mid ni s j i))
      (fun j i a => put a (j * 2 * (2 * ni + 1) + i * 2 + 1) (pr (sideX m mid ni s j i))) (fun _ _ _ => rfl) (fun i h => by show i * 2 + 1 < _; omega)
      (fun a b h => by have h : a * 2 = b * 2 := h; omega) (fun a b h => by have h : a * 2 + 1 = b * 2 + 1 := h; omega)
      (loop2 nj ni (fun j i a => put a ((j * 2 + 1) * (2 * ni + 1) + i * 2 + 1) (t (j * ni + i)))
        (loop2 (nj + 1) (ni + 1) (fun j i a => put a (j * 2 * (2 * ni + 1) + i * 2) (c (j * (ni + 1) + i))) (fun _ => none))) j i (by omega) (by omega)
    rw [if_pos (by omega), if_neg (by omega), show 2 * j / 2 = j by omega, show (2 * i + 1) / 2 = i by omega, show (2 * j) = j * 2 by ring,
      show (2 * i) = i * 2 by ring]
    exact this
  · have := write_at (2 * ni + 1) nj (ni + 1) (fun j => j * 2 + 1) (fun i => i * 2) (fun j i => pr (sideY m mid ni s j i))
      (fun j i a => put a ((j * 2 + 1) * (2 * ni + 1) + i * 2) (pr (sideY m mid ni s j i))) (fun _ _ _ => rfl) (fun i h => by show i * 2 < _; omega)
      (fun a b h => by have h : a * 2 + 1 = b * 2 + 1 := h; omega) (fun a b h => by have h : a * 2 = b * 2 := h; omega)
      (loop2 (nj + 1) ni (fun j i a => put a (j * 2 * (2 * ni + 1) + i * 2 + 1) (pr (sideX m mid ni s j i)))
      (loop2 nj ni (fun j i a => put a ((j * 2 + 1) * (2 * ni + 1) + i * 2 + 1) (t (j * ni + i)))
        (loop2 (nj + 1) (ni + 1) (fun j i a => put a (j * 2 * (2 * ni + 1) + i * 2) (c (j * (ni + 1) + i))) (fun _ => none)))) j i (by omega) (by omega)
    rw [if_neg (by omega), if_pos (by omega), show (2 * j + 1) / 2 = j by omega, show (2 * i) / 2 = i by omega, show (2 * j) = j * 2 by ring,
      show (2 * i) = i * 2 by ring]
    exact this
  · rw [write_other (2 * ni + 1) nj (ni + 1) (fun j => j * 2 + 1) (fun i => i * 2) _ _ (fun _ _ _ => rfl) (fun i h => by show i * 2 < _; omega) _ _ _ (by omega)
        (fun j' i' _ _ h => by show 2 * i + 1 ≠ i' * 2; omega),
      write_other (2 * ni + 1) (nj + 1) ni (fun j => j * 2) (fun i => i * 2 + 1) _ _ (fun _ _ _ => rfl) (fun i h => by show i * 2 + 1 < _; omega) _ _ _ (by omega)
        (fun j' i' _ _ h => by have h : 2 * j + 1 = j' * 2 := h; omega)]
    have := write_at (2 * ni + 1) nj ni (fun j => j * 2 + 1) (fun i => i * 2 + 1) (fun j i => t (j * ni + i))
      (fun j i a => put a ((j * 2 + 1) * (2 * ni + 1) + i * 2 + 1) (t (j * ni + i))) (fun _ _ _ => rfl) (fun i h => by show i * 2 + 1 < _; omega)
      (fun a b h => by have h : a * 2 + 1 = b * 2 + 1 := h; omega) (fun a b h => by have h : a * 2 + 1 = b * 2 + 1 := h; omega)
      (loop2 (nj + 1) (ni + 1) (fun j i a => put a (j * 2 * (2 * ni + 1) + i * 2) (c (j * (ni + 1) + i))) (fun _ => none)) j i (by omega) (by omega)
    rw [if_neg (by omega), if_neg (by omega), show (2 * j + 1) / 2 = j by omega, show (2 * i + 1) / 2 = i by omega, show (2 * j) = j * 2 by ring,
      show (2 * i) = i * 2 by ring]
    exact this

theorem rows_at (n m : Nat) (lon : Nat → F) (j i : Nat) (hj : j < m) (hi : i < n) : rows n m lon (j * n + i) = some (lon i) :=
  write_all n m n (le_refl _) (fun _ i => some (lon i)) _ (fun _ _ _ => rfl) _ j i hj hi

theorem columns_at (n m : Nat) (lat : Nat → F) (j i : Nat) (hj : j < m) (hi : i < n) : columns n m lat (j * n + i) = some (lat j) :=
  write_all n m n (le_refl _) (fun j _ => some (lat j)) _ (fun _ _ _ => rfl) _ j i hj hi

theorem fold_put {F : Type} (n : Nat) (p : Nat → Nat) (v : Nat → Option F) (a : Mem F) (k : Nat) (h : ∀ i < n, k = p i → v i = v (i)) :
    ∀ i < n, k = p i → (∀ i' < n, p i' = p i → i' = i) → (List.range n).foldl (fun a i => put a (p i) (v i)) a k = v i := by
  intro i hi hk hinj
  refine fold_hit (fun a : Mem F => a k) (fun _ => True) _ n i hi (v i) (fun _ _ _ _ => trivial) (fun s _ => by simp [put, hk])
    (fun s i' hi' hne => ?_) a trivial
  show put s (p i') (v i') k = s k
  unfold put
  rw [if_neg]
  intro h
  exact hne (hinj i' hi' (by omega))

theorem fold_put_other {F : Type} (n : Nat) (p : Nat → Nat) (v : Nat → Option F) (a : Mem F) (k : Nat) (h : ∀ i < n, k ≠ p i) :
    (List.range n).foldl (fun a i => put a (p i) (v i)) a k = a k := by
  refine fold_miss (fun a : Mem F => a k) _ _ (fun s i hi => ?_) a
  show put s (p i) (v i) k = s k
  unfold put
  rw [if_neg (h i (List.mem_range.1 hi))]

theorem corners2_at (n m : Nat) (hn : 0 < n) (hm : 0 < m) (K : Nat → Nat → F) (v : Nat → F) (hv : Spec.GridFromFile.Vertices n m K v) (j i : Nat) (hj : j ≤ m)
    (hi : i ≤ n) : corners2 n m v (j * (n + 1) + i) = some (K j i) := by
  have hlast : m * n - 1 = (m - 1) * n + (n - 1) := by
    obtain ⟨m, rfl⟩ : ∃ k, m = k + 1 := ⟨m - 1, by omega⟩
    rw [Nat.add_sub_cancel, Nat.add_mul]; omega
  unfold corners2
  have ne : ∀ a b c d : Nat, b < n + 1 → d < n + 1 → (a ≠ c ∨ b ≠ d) → a * (n + 1) + b ≠ c * (n + 1) + d := by
    intro a b c d hb hd h h'
    have := (flat_inj hb hd).1 h'
    omega
  by_cases h1 : j = m ∧ i = n
  · obtain ⟨rfl, rfl⟩ := h1
    unfold put
    rw [if_pos rfl, hlast]
    have := (hv (j - 1) (by omega) (i - 1) (by omega)).2.2.1
    rw [show ((j - 1) * i + (i - 1)) * 4 + 2 = 4 * ((j - 1) * i + (i - 1)) + 2 by ring, this, show j - 1 + 1 = j by omega, show i - 1 + 1 = i by omega]
  · rw [show ∀ (a : Mem F) (k : Nat) (w : Option F), k ≠ j * (n + 1) + i → put a k w (j * (n + 1) + i) = a (j * (n + 1) + i) from
      fun a k w h => by unfold put; rw [if_neg (fun h' => h h'.symm)]]
    swap
    · exact ne _ _ _ _ (by omega) (by omega) (by omega)
    by_cases h2 : j = m
    · subst h2
      have hi' : i < n := by omega
      rw [fold_put n (fun i => j * (n + 1) + i) _ _ _ (fun _ _ _ => rfl) i hi' rfl (fun i' _ h => by have h : j * (n + 1) + i' = j * (n + 1) + i := h; omega)]
      have := (hv (j - 1) (by omega) i hi').2.2.2
      rw [show ((j - 1) * n + i) * 4 + 3 = 4 * ((j - 1) * n + i) + 3 by ring, this, show j - 1 + 1 = j by omega]
    · rw [fold_put_other n (fun i => m * (n + 1) + i) _ _ _ (fun i' hi' => ne _ _ _ _ (by omega) (by omega) (by omega))]
      by_cases h3 : i = n
      · subst h3
        rw [fold_put m (fun j => j * (i + 1) + i) _ _ _ (fun _ _ _ => rfl) j (by omega) rfl
          (fun j' _ h => ((flat_inj (by omega) (by omega)).1 h).1)]
        have := (hv j (by omega) (i - 1) (by omega)).2.1
        rw [show (j * i + i - 1) * 4 + 1 = 4 * (j * i + (i - 1)) + 1 by rw [Nat.add_sub_assoc (by omega)]; ring, this, show i - 1 + 1 = i by omega]
      · rw [fold_put_other m (fun j => j * (n + 1) + n) _ _ _ (fun j' hj' => ne _ _ _ _ (by omega) (by omega) (by omega))]
        rw [write_all (n + 1) m n (by omega) (fun j i => some (v ((j * n + i) * 4))) _ (fun _ _ _ => rfl) _ j i (by omega) (by omega)]
        rw [show (j * n + i) * 4 = 4 * (j * n + i) by ring, (hv j (by omega) i (by omega)).1]

theorem lonCorners3_at (n m : Nat) (hn : 0 < n) (b v : Nat → F) (hv : Spec.GridFromFile.Bounds n b v) (j i : Nat) (hj : j ≤ m) (hi : i ≤ n) :
    lonCorners3 n m v (j * (n + 1) + i) = some (b i) := by
  unfold lonCorners3
  refine fold_hit (fun a : Mem F => a (j * (n + 1) + i)) (fun _ => True) _ (m + 1) j (by omega) _ (fun _ _ _ _ => trivial) (fun s _ => ?_)
    (fun s j' hj' hne => ?_) _ trivial
  · show put _ _ _ _ = _
    by_cases h : i = n
    · subst h
      unfold put
      rw [if_pos rfl, show 2 * i - 1 = 2 * (i - 1) + 1 by omega, (hv (i - 1) (by omega)).2, show i - 1 + 1 = i by omega]
    · unfold put
      rw [if_neg (by omega)]
      have := fold_put n (fun i => j * (n + 1) + i) (fun i => some (v (2 * i))) s (j * (n + 1) + i) (fun _ _ _ => rfl) i (by omega) rfl
        (fun i' _ h => by have h : j * (n + 1) + i' = j * (n + 1) + i := h; omega)
      unfold put at this
      rw [this, (hv i (by omega)).1]
  · show put _ _ _ _ = _
    have ne : ∀ d, d < n + 1 → j * (n + 1) + i ≠ j' * (n + 1) + d := fun d hd h' => by
      have := (flat_inj (show i < n + 1 by omega) hd).1 h'
      omega
    rw [show ∀ (a : Mem F) (k : Nat) (w : Option F), j * (n + 1) + i ≠ k → put a k w (j * (n + 1) + i) = a (j * (n + 1) + i) from
      fun a k w h => by unfold put; rw [if_neg h]]
    · exact fold_put_other n (fun i => j' * (n + 1) + i) _ _ _ (fun i' hi' => ne i' (by omega))
    · exact ne n (by omega)

theorem latCorners3_at (n m : Nat) (hm : 0 < m) (b v : Nat → F) (hv : Spec.GridFromFile.Bounds m b v) (j i : Nat) (hj : j ≤ m) (hi : i ≤ n) :
    latCorners3 n m v (j * (n + 1) + i) = some (b j) := by
  unfold latCorners3
  refine fold_hit (fun a : Mem F => a (j * (n + 1) + i)) (fun _ => True) _ (n + 1) i (by omega) _ (fun _ _ _ _ => trivial) (fun s _ => ?_)
    (fun s i' hi' hne => ?_) _ trivial
  · show put _ _ _ _ = _
    by_cases h : j = m
    · subst h
      unfold put
      rw [if_pos rfl, show 2 * j - 1 = 2 * (j - 1) + 1 by omega, (hv (j - 1) (by omega)).2, show j - 1 + 1 = j by omega]
    · unfold put
      rw [if_neg (fun h' => h ((flat_inj (by omega) (by omega)).1 h').1)]
      have := fold_put m (fun j => j * (n + 1) + i) (fun j => some (v (2 * j))) s (j * (n + 1) + i) (fun _ _ _ => rfl) j (by omega) rfl
        (fun j' _ h => ((flat_inj (by omega) (by omega)).1 h).1)
      unfold put at this
      rw [this, (hv j (by omega)).1]
  · show put _ _ _ _ = _
    have ne : ∀ c, j * (n + 1) + i ≠ c * (n + 1) + i' := fun c h' => by
      have := (flat_inj (show i < n + 1 by omega) hi').1 h'
      omega
    rw [show ∀ (a : Mem F) (k : Nat) (w : Option F), j * (n + 1) + i ≠ k → put a k w (j * (n + 1) + i) = a (j * (n + 1) + i) from
      fun a k w h => by unfold put; rw [if_neg h]]
    · exact fold_put_other m (fun j => j * (n + 1) + i') _ _ _ (fun j' hj' => ne j')
    · exact ne m

end

end Verif.GridFromFile
