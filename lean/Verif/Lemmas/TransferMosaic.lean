import Verif.Spec.TransferMosaic
import Mathlib.Tactic.Ring
import Mathlib.Tactic.Linarith
/-
Lemmas about the loops of `transfer_to_mosaic_grid`.
-/
namespace Verif.TransferMosaic
open Verif.Spec.TransferMosaic

theorem fold_miss {S V : Type} (get : S → V) (f : S → Nat → S) (l : List Nat)
    (h : ∀ s, ∀ i ∈ l, get (f s i) = get s) (s : S) : get (l.foldl f s) = get s := by
  induction l generalizing s with
  | nil => rfl
  | cons a t ih =>
    rw [List.foldl_cons, ih (fun s i hi => h s i (List.mem_cons_of_mem _ hi)), h s a List.mem_cons_self]

theorem fold_inv {S : Type} (I : S → Prop) (f : S → Nat → S) (l : List Nat)
    (h : ∀ s, ∀ i ∈ l, I s → I (f s i)) (s : S) (hs : I s) : I (l.foldl f s) := by
  induction l generalizing s with
  | nil => exact hs
  | cons a t ih =>
    rw [List.foldl_cons]
    exact ih (fun s i hi => h s i (List.mem_cons_of_mem _ hi)) _ (h s a List.mem_cons_self hs)

/-- A place written in exactly one turn of a loop. -/
theorem fold_hit {S V : Type} (get : S → V) (I : S → Prop) (f : S → Nat → S) (n k : Nat) (hk : k < n) (v : V)
    (hI : ∀ s i, i < n → I s → I (f s i)) (hhit : ∀ s, I s → get (f s k) = v)
    (hmiss : ∀ s i, i < n → i ≠ k → get (f s i) = get s) (s : S) (hs : I s) :
    get ((List.range n).foldl f s) = v := by
  obtain ⟨m, rfl⟩ : ∃ m, n = k + 1 + m := ⟨n - (k + 1), by omega⟩
  rw [List.range_add, List.foldl_append, List.range_succ, List.foldl_append, List.foldl_cons, List.foldl_nil]
  rw [fold_miss get f]
  · refine hhit _ (fold_inv I f _ (fun s i hi h => hI s i ?_ h) s hs)
    have := List.mem_range.1 hi
    omega
  · intro s i hi
    obtain ⟨a, ha, rfl⟩ := List.mem_map.1 hi
    have := List.mem_range.1 ha
    exact hmiss s _ (by omega) (by omega)

theorem loop2_hit {S V : Type} (get : S → V) (body : Nat → Nat → S → S) (ny nx j0 i0 : Nat) (hj : j0 < ny)
    (hi : i0 < nx) (v : V) (hhit : ∀ s, get (body j0 i0 s) = v)
    (hmiss : ∀ j i s, j < ny → i < nx → ¬ (j = j0 ∧ i = i0) → get (body j i s) = get s) (s : S) :
    get (loop2 ny nx body s) = v := by
  unfold loop2
  refine fold_hit get (fun _ => True) _ ny j0 hj v (fun _ _ _ _ => trivial) (fun s _ => ?_) (fun s j hjn hne => ?_) s trivial
  · exact fold_hit get (fun _ => True) _ nx i0 hi v (fun _ _ _ _ => trivial) (fun s _ => hhit s)
      (fun s i hin hne => hmiss j0 i s hj hin (fun h => hne h.2)) s trivial
  · exact fold_miss get _ _ (fun s i hin => hmiss j i s hjn (List.mem_range.1 hin) (fun h => hne h.1)) s

theorem flat_inj {n r c r' c' : Nat} (hc : c < n) (hc' : c' < n) : r * n + c = r' * n + c' ↔ r = r' ∧ c = c' := by
  constructor
  · intro h
    have h1 : (r * n + c) / n = (r' * n + c') / n := by rw [h]
    have e : ∀ a b, b < n → (a * n + b) / n = a := by
      intro a b hb
      rw [Nat.add_comm, Nat.add_mul_div_right _ _ (by omega), Nat.div_eq_of_lt hb, Nat.zero_add]
    rw [e _ _ hc, e _ _ hc'] at h1
    subst h1
    exact ⟨rfl, by omega⟩
  · rintro ⟨rfl, rfl⟩; rfl

theorem put_flat {F : Type} {n r c r' c' : Nat} (a : Mem F) (v : Option F) (hc : c < n) (hc' : c' < n) :
    put a (r * n + c) v (r' * n + c') = if r' = r ∧ c' = c then v else a (r' * n + c') := by
  unfold put
  by_cases h : r' * n + c' = r * n + c
  · rw [if_pos h, if_pos ((flat_inj hc' hc).1 h)]
  · rw [if_neg h, if_neg (fun h' => h ((flat_inj hc' hc).2 h'))]

theorem put_row0 {F : Type} {n c r' c' : Nat} (a : Mem F) (v : Option F) (hc : c < n) (hc' : c' < n) :
    put a c v (r' * n + c') = if r' = 0 ∧ c' = c then v else a (r' * n + c') := by
  have := put_flat (r := 0) a v hc hc' (r' := r')
  simpa using this

variable {F : Type} [Field F]

theorem coordCell_at (nxT : Nat) (t e n c : Fld F) (v : Nat → Fld F) (j i : Nat) (a : Mem F) (r k : Nat)
    (hi : i < nxT) (hk : k < 2 * nxT + 1) :
    coordCell nxT t e n c v j i a (r * (2 * nxT + 1) + k) =
      if j = 0 ∧ i = 0 ∧ r = 0 ∧ k = 0 then some (v 0 j i)
      else if j = 0 ∧ r = 0 ∧ k = 2 * i + 2 then some (v 1 j i)
      else if j = 0 ∧ r = 0 ∧ k = 2 * i + 1 then some ((v 0 j i + v 1 j i) / 2)
      else if r = 2 * j + 2 ∧ k = 2 * i + 1 then some (n j i)
      else if r = 2 * j + 2 ∧ k = 2 * i + 2 then some (c j i)
      else if r = 2 * j + 1 ∧ k = 2 * i + 2 then some (e j i)
      else if r = 2 * j + 1 ∧ k = 2 * i + 1 then some (t j i)
      else a (r * (2 * nxT + 1) + k) := by
  unfold coordCell
  have e1 : 2 * (i + 1) = 2 * i + 2 := by ring
  have e2 : 2 * (j + 1) = 2 * j + 2 := by ring
  have e3 : 2 * i + 2 - 1 = 2 * i + 1 := rfl
  have e4 : 2 * j + 2 - 1 = 2 * j + 1 := rfl
  rw [e1, e2, e3, e4]
  by_cases hj : j = 0
  · by_cases hi0 : i = 0
    · rw [if_pos ⟨hi0, hj⟩, if_pos hj, put_row0 _ _ (by omega) hk, put_row0 _ _ (by omega) hk, put_row0 _ _ (by omega) hk,
        put_flat _ _ (by omega) hk, put_flat _ _ (by omega) hk, put_flat _ _ (by omega) hk, put_flat _ _ (by omega) hk]
      simp [hj, hi0]
    · rw [if_neg (fun h => hi0 h.1), if_pos hj, put_row0 _ _ (by omega) hk, put_row0 _ _ (by omega) hk,
        put_flat _ _ (by omega) hk, put_flat _ _ (by omega) hk, put_flat _ _ (by omega) hk, put_flat _ _ (by omega) hk]
      simp [hj, hi0]
  · rw [if_neg (fun h => hj h.2), if_neg hj,
        put_flat _ _ (by omega) hk, put_flat _ _ (by omega) hk, put_flat _ _ (by omega) hk, put_flat _ _ (by omega) hk]
    simp [hj]

theorem dxCell_at (o : Old F) (j i : Nat) (a : Mem F) (r k : Nat) (hi : i < o.nx) (hk : k < 2 * o.nx) :
    dxCell o j i a (r * (2 * o.nx) + k) =
      if i = 0 ∧ r = 2 * j + 2 ∧ k = 2 * i then some (o.ds_02_22_T j i - o.ds_01_11_C j i)
      else if j = 0 ∧ r = 0 ∧ k = 2 * i + 1 then some (orUnknown o.ds_10_20_T 0 i)
      else if j = 0 ∧ r = 0 ∧ k = 2 * i then some (orUnknown o.ds_00_10_T 0 i)
      else if r = 2 * j + 2 ∧ k = 2 * i + 1 then some (o.ds_01_11_C j i)
      else if 0 < i ∧ r = 2 * j + 2 ∧ k = 2 * i then some (o.ds_11_21_C j (i - 1))
      else if r = 2 * j + 1 ∧ k = 2 * i + 1 then some (o.ds_11_21_T j i)
      else if r = 2 * j + 1 ∧ k = 2 * i then some (o.ds_01_11_T j i)
      else a (r * (2 * o.nx) + k) := by
  unfold dxCell
  by_cases hj : j = 0
  · by_cases hi0 : i = 0
    · rw [if_pos hi0, if_pos hj, if_neg (show ¬ 0 < i by omega), put_flat _ _ (by omega) hk, put_row0 _ _ (by omega) hk,
        put_row0 _ _ (by omega) hk, put_flat _ _ (by omega) hk, put_flat _ _ (by omega) hk, put_flat _ _ (by omega) hk]
      simp [hj, hi0]
    · rw [if_neg hi0, if_pos hj, if_pos (show 0 < i by omega), put_row0 _ _ (by omega) hk, put_row0 _ _ (by omega) hk,
        put_flat _ _ (by omega) hk, put_flat _ _ (by omega) hk, put_flat _ _ (by omega) hk, put_flat _ _ (by omega) hk]
      have : 0 < i := by omega
      simp [hj, hi0, this]
  · by_cases hi0 : i = 0
    · rw [if_pos hi0, if_neg hj, if_neg (show ¬ 0 < i by omega), put_flat _ _ (by omega) hk,
        put_flat _ _ (by omega) hk, put_flat _ _ (by omega) hk, put_flat _ _ (by omega) hk]
      simp [hj, hi0]
    · rw [if_neg hi0, if_neg hj, if_pos (show 0 < i by omega),
        put_flat _ _ (by omega) hk, put_flat _ _ (by omega) hk, put_flat _ _ (by omega) hk, put_flat _ _ (by omega) hk]
      have : 0 < i := by omega
      simp [hj, hi0, this]

theorem dyCell_at (o : Old F) (j i : Nat) (a : Mem F) (r k : Nat) (hi : i < o.nx) (hk : k < 2 * o.nx + 1) :
    dyCell o j i a (r * (2 * o.nx + 1) + k) =
      if r = 2 * j + 1 ∧ k = 2 * i + 2 then eastHigh o j i
      else if r = 2 * j ∧ k = 2 * i + 2 then eastLow o j i
      else if r = 2 * j + 1 ∧ k = 2 * i + 1 then some (o.ds_11_12_T j i)
      else if r = 2 * j ∧ k = 2 * i + 1 then some (o.ds_10_11_T j i)
      else a (r * (2 * o.nx + 1) + k) := by
  unfold dyCell
  rw [put_flat _ _ (by omega) hk, put_flat _ _ (by omega) hk, put_flat _ _ (by omega) hk, put_flat _ _ (by omega) hk]

/-- The angles are set like coordinates with zeros on the south side. -/
theorem angCell_eq (o : Old F) (j i : Nat) (a : Mem F) (r k : Nat) (hi : i < o.nx) (hk : k < 2 * o.nx + 1) :
    angCell o j i a (r * (2 * o.nx + 1) + k) =
      coordCell o.nx (orUnknown o.angT) (orUnknown o.angE) (orUnknown o.angN) o.angC (fun _ _ _ => 0) j i a
        (r * (2 * o.nx + 1) + k) := by
  rw [coordCell_at _ _ _ _ _ _ _ _ _ _ _ hi hk]
  unfold angCell
  by_cases hj : j = 0
  · by_cases hi0 : i = 0
    · rw [if_pos ⟨hi0, hj⟩, if_pos hj, put_row0 _ _ (by omega) hk, put_row0 _ _ (by omega) hk, put_row0 _ _ (by omega) hk,
        put_flat _ _ (by omega) hk, put_flat _ _ (by omega) hk, put_flat _ _ (by omega) hk, put_flat _ _ (by omega) hk]
      simp only [hj, hi0, true_and, add_zero, zero_div]
      split_ifs <;> first | rfl | (exfalso; omega)
    · rw [if_neg (fun h => hi0 h.1), if_pos hj, put_row0 _ _ (by omega) hk, put_row0 _ _ (by omega) hk,
        put_flat _ _ (by omega) hk, put_flat _ _ (by omega) hk, put_flat _ _ (by omega) hk, put_flat _ _ (by omega) hk]
      simp only [hj, hi0, true_and, false_and, if_false, add_zero, zero_div]
      split_ifs <;> first | rfl | (exfalso; omega)
  · rw [if_neg (fun h => hj h.2), if_neg hj,
        put_flat _ _ (by omega) hk, put_flat _ _ (by omega) hk, put_flat _ _ (by omega) hk, put_flat _ _ (by omega) hk]
    simp only [hj, false_and, if_false]
    split_ifs <;> first | rfl | (exfalso; omega)

/-- The wrapped column. -/
theorem wrap_other (nx from_ rows : Nat) (f : F → F) (a : Mem F) (r k : Nat) (hk : k ≤ nx) (hk0 : 0 < k) :
    wrapColumn nx from_ rows f a (r * (nx + 1) + k) = a (r * (nx + 1) + k) := by
  unfold wrapColumn
  refine fold_miss (fun a : Mem F => a (r * (nx + 1) + k)) _ _ (fun s q _ => ?_) a
  split
  · rfl
  · have := put_flat (r := q) (c := 0) s ((s (q * (nx + 1) + nx)).map f) (show 0 < nx + 1 by omega)
      (show k < nx + 1 by omega) (r' := r)
    rw [Nat.add_zero] at this
    rw [this, if_neg (by omega)]

theorem wrap_before (nx from_ rows : Nat) (f : F → F) (a : Mem F) (r : Nat) (h : r < from_ ∨ rows ≤ r) :
    wrapColumn nx from_ rows f a (r * (nx + 1)) = a (r * (nx + 1)) := by
  unfold wrapColumn
  refine fold_miss (fun a : Mem F => a (r * (nx + 1))) _ _ (fun s q hq => ?_) a
  have hq := List.mem_range.1 hq
  split
  · rfl
  · have := put_flat (r := q) (c := 0) (c' := 0) s ((s (q * (nx + 1) + nx)).map f) (show 0 < nx + 1 by omega)
      (show 0 < nx + 1 by omega) (r' := r)
    simp only [Nat.add_zero] at this
    rw [this, if_neg (by omega)]

theorem wrap_hit (nx from_ rows : Nat) (hnx : 0 < nx) (f : F → F) (a : Mem F) (r : Nat) (h : from_ ≤ r) (h' : r < rows) :
    wrapColumn nx from_ rows f a (r * (nx + 1)) = (a (r * (nx + 1) + nx)).map f := by
  unfold wrapColumn
  refine fold_hit (fun a : Mem F => a (r * (nx + 1))) (fun s => s (r * (nx + 1) + nx) = a (r * (nx + 1) + nx)) _ rows r h' _
    (fun s q hq hs => ?_) (fun s hs => ?_) (fun s q hq hne => ?_) a rfl
  · split
    · exact hs
    · have := put_flat (r := q) (c := 0) s ((s (q * (nx + 1) + nx)).map f) (show 0 < nx + 1 by omega)
        (show nx < nx + 1 by omega) (r' := r)
      rw [Nat.add_zero] at this
      rw [this, if_neg (by omega)]
      exact hs
  · rw [if_neg (by omega), ← hs]
    simp [put]
  · split
    · rfl
    · have := put_flat (r := q) (c := 0) (c' := 0) s ((s (q * (nx + 1) + nx)).map f) (show 0 < nx + 1 by omega)
        (show 0 < nx + 1 by omega) (r' := r)
      simp only [Nat.add_zero] at this
      rw [this, if_neg (by omega)]

/-- The four kinds of points and the sides, for any of the arrays set by `coordCell`. -/
theorem coord_points {S : Type} (get : S → Mem F) (body : Nat → Nat → S → S) (ny nx : Nat) (hny : 0 < ny) (hnx : 0 < nx)
    (t e n c : Fld F) (v : Nat → Fld F) (west : F → F) (s : S)
    (hb : ∀ j i s r k, j < ny → i < nx → k < 2 * nx + 1 →
      get (body j i s) (r * (2 * nx + 1) + k) = coordCell nx t e n c v j i (get s) (r * (2 * nx + 1) + k)) :
    Points ny nx t e n c v west
      (val (2 * nx + 1) (wrapColumn (2 * nx) 1 (2 * ny + 1) west (get (loop2 ny nx body s)))) := by
  have key : ∀ r k j i (w : Option F), j < ny → i < nx → k < 2 * nx + 1 →
      (∀ a : Mem F, coordCell nx t e n c v j i a (r * (2 * nx + 1) + k) = w) →
      (∀ j' i' (a : Mem F), j' < ny → i' < nx → ¬ (j' = j ∧ i' = i) →
        coordCell nx t e n c v j' i' a (r * (2 * nx + 1) + k) = a (r * (2 * nx + 1) + k)) →
      get (loop2 ny nx body s) (r * (2 * nx + 1) + k) = w := by
    intro r k j i w hj hi hk h1 h2
    refine loop2_hit (fun s => get s (r * (2 * nx + 1) + k)) body ny nx j i hj hi w (fun s => ?_) (fun j' i' s hj' hi' hne => ?_) s
    · rw [hb j i s r k hj hi hk, h1]
    · rw [hb j' i' s r k hj' hi' hk, h2 j' i' _ hj' hi' hne]
  have inner : ∀ r k, 0 < k → k < 2 * nx + 1 →
      val (2 * nx + 1) (wrapColumn (2 * nx) 1 (2 * ny + 1) west (get (loop2 ny nx body s))) r k =
      get (loop2 ny nx body s) (r * (2 * nx + 1) + k) := by
    intro r k h0 hk
    exact wrap_other _ _ _ _ _ _ _ (by omega) h0
  have hcentre : ∀ j i, j < ny → i < nx → get (loop2 ny nx body s) ((2 * j + 1) * (2 * nx + 1) + (2 * i + 1)) = some (t j i) := by
    intro j i hj hi
    refine key _ _ j i _ hj hi (by omega) (fun a => ?_) (fun j' i' a hj' hi' hne => ?_)
    · rw [coordCell_at _ _ _ _ _ _ _ _ _ _ _ hi (by omega)]
      rw [if_neg (by omega), if_neg (by omega), if_neg (by omega), if_neg (by omega), if_neg (by omega), if_neg (by omega),
        if_pos ⟨rfl, rfl⟩]
    · rw [coordCell_at _ _ _ _ _ _ _ _ _ _ _ hi' (by omega)]
      rw [if_neg (by omega), if_neg (by omega), if_neg (by omega), if_neg (by omega), if_neg (by omega), if_neg (by omega),
        if_neg (by omega)]
  have heast : ∀ j i, j < ny → i < nx → get (loop2 ny nx body s) ((2 * j + 1) * (2 * nx + 1) + (2 * i + 2)) = some (e j i) := by
    intro j i hj hi
    refine key _ _ j i _ hj hi (by omega) (fun a => ?_) (fun j' i' a hj' hi' hne => ?_)
    · rw [coordCell_at _ _ _ _ _ _ _ _ _ _ _ hi (by omega)]
      rw [if_neg (by omega), if_neg (by omega), if_neg (by omega), if_neg (by omega), if_neg (by omega), if_pos ⟨rfl, rfl⟩]
    · rw [coordCell_at _ _ _ _ _ _ _ _ _ _ _ hi' (by omega)]
      rw [if_neg (by omega), if_neg (by omega), if_neg (by omega), if_neg (by omega), if_neg (by omega), if_neg (by omega),
        if_neg (by omega)]
  have hnorth : ∀ j i, j < ny → i < nx → get (loop2 ny nx body s) ((2 * j + 2) * (2 * nx + 1) + (2 * i + 1)) = some (n j i) := by
    intro j i hj hi
    refine key _ _ j i _ hj hi (by omega) (fun a => ?_) (fun j' i' a hj' hi' hne => ?_)
    · rw [coordCell_at _ _ _ _ _ _ _ _ _ _ _ hi (by omega)]
      rw [if_neg (by omega), if_neg (by omega), if_neg (by omega), if_pos ⟨rfl, rfl⟩]
    · rw [coordCell_at _ _ _ _ _ _ _ _ _ _ _ hi' (by omega)]
      rw [if_neg (by omega), if_neg (by omega), if_neg (by omega), if_neg (by omega), if_neg (by omega), if_neg (by omega),
        if_neg (by omega)]
  have hcorner : ∀ j i, j < ny → i < nx → get (loop2 ny nx body s) ((2 * j + 2) * (2 * nx + 1) + (2 * i + 2)) = some (c j i) := by
    intro j i hj hi
    refine key _ _ j i _ hj hi (by omega) (fun a => ?_) (fun j' i' a hj' hi' hne => ?_)
    · rw [coordCell_at _ _ _ _ _ _ _ _ _ _ _ hi (by omega)]
      rw [if_neg (by omega), if_neg (by omega), if_neg (by omega), if_neg (by omega), if_pos ⟨rfl, rfl⟩]
    · rw [coordCell_at _ _ _ _ _ _ _ _ _ _ _ hi' (by omega)]
      rw [if_neg (by omega), if_neg (by omega), if_neg (by omega), if_neg (by omega), if_neg (by omega), if_neg (by omega),
        if_neg (by omega)]
  refine ⟨fun j i hj hi => ?_, fun j i hj hi => ?_, fun j i hj hi => ?_, fun j i hj hi => ?_, fun i hi => ?_, fun i hi => ?_, ?_,
    fun r h1 h2 => ?_⟩
  · rw [inner _ _ (by omega) (by omega), hcentre j i hj hi]
  · rw [inner _ _ (by omega) (by omega), heast j i hj hi]
  · rw [inner _ _ (by omega) (by omega), hnorth j i hj hi]
  · rw [inner _ _ (by omega) (by omega), hcorner j i hj hi]
  · rw [inner _ _ (by omega) (by omega)]
    refine key _ _ 0 i _ hny hi (by omega) (fun a => ?_) (fun j' i' a hj' hi' hne => ?_)
    · rw [coordCell_at _ _ _ _ _ _ _ _ _ _ _ hi (by omega)]
      rw [if_neg (by omega), if_neg (by omega), if_pos ⟨rfl, rfl, rfl⟩]
    · rw [coordCell_at _ _ _ _ _ _ _ _ _ _ _ hi' (by omega)]
      rw [if_neg (by omega), if_neg (by omega), if_neg (by omega), if_neg (by omega), if_neg (by omega), if_neg (by omega),
        if_neg (by omega)]
  · rw [inner _ _ (by omega) (by omega)]
    refine key _ _ 0 i _ hny hi (by omega) (fun a => ?_) (fun j' i' a hj' hi' hne => ?_)
    · rw [coordCell_at _ _ _ _ _ _ _ _ _ _ _ hi (by omega)]
      rw [if_neg (by omega), if_pos ⟨rfl, rfl, rfl⟩]
    · rw [coordCell_at _ _ _ _ _ _ _ _ _ _ _ hi' (by omega)]
      rw [if_neg (by omega), if_neg (by omega), if_neg (by omega), if_neg (by omega), if_neg (by omega), if_neg (by omega),
        if_neg (by omega)]
  · have h0 := wrap_before (2 * nx) 1 (2 * ny + 1) west (get (loop2 ny nx body s)) 0 (Or.inl (by omega))
    rw [Nat.zero_mul] at h0
    show wrapColumn (2 * nx) 1 (2 * ny + 1) west (get (loop2 ny nx body s)) (0 * (2 * nx + 1) + 0) = _
    rw [Nat.zero_mul, Nat.add_zero, h0]
    have := key 0 0 0 0 (some (v 0 0 0)) hny hnx (by omega) (fun a => ?_) (fun j' i' a hj' hi' hne => ?_)
    · rwa [Nat.zero_mul, Nat.add_zero] at this
    · rw [coordCell_at _ _ _ _ _ _ _ _ _ _ _ hnx (by omega)]
      rw [if_pos ⟨rfl, rfl, rfl, rfl⟩]
    · rw [coordCell_at _ _ _ _ _ _ _ _ _ _ _ hi' (by omega)]
      rw [if_neg (by omega), if_neg (by omega), if_neg (by omega), if_neg (by omega), if_neg (by omega), if_neg (by omega),
        if_neg (by omega)]
  · have hw := wrap_hit (2 * nx) 1 (2 * ny + 1) (by omega) west (get (loop2 ny nx body s)) r h1 (by omega)
    have hin := inner r (2 * nx) (by omega) (by omega)
    have hv : val (2 * nx + 1) (wrapColumn (2 * nx) 1 (2 * ny + 1) west (get (loop2 ny nx body s))) r 0 =
        (get (loop2 ny nx body s) (r * (2 * nx + 1) + 2 * nx)).map west := by
      rw [← hw]; rfl
    rw [hin, hv]
    obtain ⟨m, rfl⟩ : ∃ m, nx = m + 1 := ⟨nx - 1, by omega⟩
    have e2 : 2 * (m + 1) = 2 * m + 2 := by ring
    obtain ⟨q, hq | hq⟩ : ∃ q, r = 2 * q + 1 ∨ r = 2 * q + 2 := ⟨(r - 1) / 2, by omega⟩
    · refine ⟨e q m, ?_, ?_⟩
      · have := heast q m (by omega) (by omega)
        rw [hq]; exact this
      · have := heast q m (by omega) (by omega)
        rw [hq]
        rw [show (2 * q + 1) * (2 * (m + 1) + 1) + 2 * (m + 1) = (2 * q + 1) * (2 * (m + 1) + 1) + (2 * m + 2) by ring, this]
        rfl
    · refine ⟨c q m, ?_, ?_⟩
      · have := hcorner q m (by omega) (by omega)
        rw [hq]; exact this
      · have := hcorner q m (by omega) (by omega)
        rw [hq]
        rw [show (2 * q + 2) * (2 * (m + 1) + 1) + 2 * (m + 1) = (2 * q + 2) * (2 * (m + 1) + 1) + (2 * m + 2) by ring, this]
        rfl

theorem corners_of {ny nx : Nat} {t e n c : Fld F} {v : Nat → Fld F} {west : F → F} {p : Nat → Nat → Option F}
    (h : Points ny nx t e n c v west p) (hj : Joined ny nx c v) (ha : Around ny nx c v west) {j i : Nat} (hjn : j < ny)
    (hin : i < nx) : Corners v p j i := by
  have hwest : ∀ q, q < ny → p (2 * q + 2) 0 = some (v 3 q 0) := by
    intro q hq
    obtain ⟨u, h1, h2⟩ := h.westSide (2 * q + 2) (by omega) (by omega)
    have h3 := h.corner q (nx - 1) hq (by omega)
    rw [show 2 * (nx - 1) + 2 = 2 * nx by omega, h1, Option.some.injEq] at h3
    rw [h2, h3, ha q hq]
  refine ⟨?_, ?_, ?_, ?_⟩
  · by_cases hj0 : j = 0
    · subst hj0
      by_cases hi0 : i = 0
      · subst hi0; exact h.first
      · obtain ⟨m, rfl⟩ : ∃ m, i = m + 1 := ⟨i - 1, by omega⟩
        rw [hj.sw 0 m hjn hin]
        exact h.southCorner m (by omega)
    · obtain ⟨q, rfl⟩ : ∃ q, j = q + 1 := ⟨j - 1, by omega⟩
      by_cases hi0 : i = 0
      · subst hi0
        rw [hj.west q hjn]
        exact hwest q (by omega)
      · obtain ⟨m, rfl⟩ : ∃ m, i = m + 1 := ⟨i - 1, by omega⟩
        rw [hj.sw (q + 1) m hjn hin, hj.se q m hjn (by omega)]
        exact h.corner q m (by omega) (by omega)
  · by_cases hj0 : j = 0
    · subst hj0
      exact h.southCorner i hin
    · obtain ⟨q, rfl⟩ : ∃ q, j = q + 1 := ⟨j - 1, by omega⟩
      rw [hj.se q i hjn hin]
      exact h.corner q i (by omega) hin
  · rw [hj.ne j i hjn hin]
    exact h.corner j i hjn hin
  · by_cases hi0 : i = 0
    · subst hi0
      exact hwest j hjn
    · obtain ⟨m, rfl⟩ : ∃ m, i = m + 1 := ⟨i - 1, by omega⟩
      rw [hj.nw j m hjn hin]
      exact h.corner j m hjn (by omega)

end Verif.TransferMosaic
