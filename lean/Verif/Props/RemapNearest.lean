import Verif.Model.RemapLand
import Mathlib.Order.Basic
import Mathlib.Algebra.Order.Ring.Rat
/-
C90: the search for nearest points in remap_land.
-/
namespace Verif

open Verif.RemapLand

variable {K : Type} [LinearOrder K]

/-- Among the points `lo`, ... `hi - 1` which are not masked, `l` is the first of those with the smallest distance. -/
def FirstNearest (mask : Nat → Nat) (dist : Nat → K) (lo hi l : Nat) : Prop :=
  lo ≤ l ∧ l < hi ∧ mask l ≠ 0 ∧ ∀ l', lo ≤ l' → l' < hi → mask l' ≠ 0 → dist l ≤ dist l' ∧ (l' < l → dist l < dist l')

/-- What is known after the points `lo`, ... `hi - 1` -/
def NearInv (mask : Nat → Nat) (dist : Nat → K) (lo hi : Nat) : Option (Nat × K) → Prop
  | none => ∀ l, lo ≤ l → l < hi → mask l = 0
  | some (l, d) => d = dist l ∧ FirstNearest mask dist lo hi l

theorem near_step (mask : Nat → Nat) (dist : Nat → K) (lo hi : Nat) (hlo : lo ≤ hi) (best : Option (Nat × K))
    (h : NearInv mask dist lo hi best) : NearInv mask dist lo (hi + 1) (nearStep best mask dist hi) := by
  unfold nearStep
  by_cases hm : mask hi = 0
  · rw [if_pos hm]
    cases best with
    | none =>
      intro l h1 h2
      rcases Nat.lt_or_ge l hi with h3 | h3
      · exact h l h1 h3
      · rwa [show l = hi by omega]
    | some b =>
      obtain ⟨l, d⟩ := b
      obtain ⟨h0, h1, h2, h3, h4⟩ := h
      refine ⟨h0, h1, by omega, h3, fun l' a1 a2 a3 => ?_⟩
      rcases Nat.lt_or_ge l' hi with h5 | h5
      · exact h4 l' a1 h5 a3
      · exact absurd hm (by rwa [← show l' = hi by omega])
  · rw [if_neg hm]
    cases best with
    | none =>
      refine ⟨rfl, hlo, by omega, hm, fun l' a1 a2 a3 => ?_⟩
      rcases Nat.lt_or_ge l' hi with h5 | h5
      · exact absurd (h l' a1 h5) a3
      · rw [show l' = hi by omega]
        exact ⟨le_refl _, fun h => absurd h (by omega)⟩
    | some b =>
      obtain ⟨l, d⟩ := b
      obtain ⟨h0, h1, h2, h3, h4⟩ := h
      subst h0
      dsimp only
      by_cases hd : dist hi < dist l
      · rw [if_pos hd]
        refine ⟨rfl, hlo, by omega, hm, fun l' a1 a2 a3 => ?_⟩
        rcases Nat.lt_or_ge l' hi with h5 | h5
        · have := lt_of_lt_of_le hd (h4 l' a1 h5 a3).1
          exact ⟨this.le, fun _ => this⟩
        · rw [show l' = hi by omega]
          exact ⟨le_refl _, fun h => absurd h (by omega)⟩
      · rw [if_neg hd]
        refine ⟨rfl, h1, by omega, h3, fun l' a1 a2 a3 => ?_⟩
        rcases Nat.lt_or_ge l' hi with h5 | h5
        · exact h4 l' a1 h5 a3
        · rw [show l' = hi by omega]
          exact ⟨not_lt.1 hd, fun h => absurd h (by omega)⟩

theorem near_row (mask : Nat → Nat) (dist : Nat → K) (lo base : Nat) (hlo : lo ≤ base) (n : Nat) (best : Option (Nat × K))
    (h : NearInv mask dist lo base best) :
    NearInv mask dist lo (base + n) ((List.range n).foldl (init := best) fun best i => nearStep best mask dist (base + i)) := by
  induction n with
  | zero => exact h
  | succ n ih =>
    rw [List.range_succ, List.foldl_append]
    exact near_step mask dist lo (base + n) (by omega) _ ih

theorem near_all (mask : Nat → Nat) (dist : Nat → K) (nface npts : Nat) :
    NearInv mask dist 0 (nface * npts) (nearest nface npts mask dist) := by
  unfold nearest
  induction nface with
  | zero => intro l h1 h2; omega
  | succ m ih =>
    rw [List.range_succ, List.foldl_append, Nat.succ_mul]
    exact near_row mask dist 0 (m * npts) (by omega) npts _ ih

/-- C90: a destination point which is not masked gets the face and the index of the first of the nearest source points that
are not masked; the search stops the program if and only if all source points are masked. A masked destination point gets
nothing. -/
theorem C90_full_search (nface npts : Nat) (maskSrc : Nat → Nat) (maskDst : Nat) (dist : Nat → K) :
    (maskDst = 0 → fullSearch nface npts maskSrc maskDst dist = .ok none)
    ∧ (maskDst ≠ 0 →
      (fullSearch nface npts maskSrc maskDst dist = .error .noNearest ∧ ∀ l < nface * npts, maskSrc l = 0)
      ∨ ∃ m i, fullSearch nface npts maskSrc maskDst dist = .ok (some (m, i)) ∧ m < nface ∧ i < npts
          ∧ FirstNearest maskSrc dist 0 (nface * npts) (m * npts + i)) := by
  unfold fullSearch
  refine ⟨fun h => if_pos h, fun h => ?_⟩
  rw [if_neg h]
  have := near_all maskSrc dist nface npts
  cases hb : nearest nface npts maskSrc dist with
  | none =>
    rw [hb] at this
    exact Or.inl ⟨rfl, fun l hl => this l (by omega) hl⟩
  | some b =>
    obtain ⟨l, d⟩ := b
    rw [hb] at this
    obtain ⟨-, h1⟩ := this
    have hlt := h1.2.1
    have hn : 0 < npts := by
      rcases Nat.eq_zero_or_pos npts with h0 | h0
      · rw [h0, Nat.mul_zero] at hlt; omega
      · exact h0
    refine Or.inr ⟨l / npts, l % npts, rfl, ?_, Nat.mod_lt _ hn, ?_⟩
    · rwa [Nat.div_lt_iff_lt_mul hn]
    · rwa [Nat.div_add_mod']

/-- Two faces with two points: the nearest point is masked, the next nearest are points 1 of face 0 and 0 of face 1. -/
example : (fullSearch 2 2 (fun l => if l = 0 then 0 else 1) 1 (fun l => ([1, 2, 2, 5] : List Nat)[l]!)).toOption
    = some (some (0, 1)) := by decide

/-- C90: the search in one face gives the first of its nearest points that are not masked, whether it searches or takes the
result of the full search. -/
theorem C90_face_search (nface npts : Nat) (maskSrc : Nat → Nat) (maskDst : Nat) (dist : Nat → K) (hd : maskDst ≠ 0)
    (map : Option (Nat × Nat)) (hmap : fullSearch nface npts maskSrc maskDst dist = .ok map) (face : Nat) (hf : face < nface) :
    (faceSearch npts maskSrc maskDst dist map face = .error .noNearest
      ∧ ∀ i < npts, maskSrc (face * npts + i) = 0)
    ∨ ∃ i, faceSearch npts maskSrc maskDst dist map face = .ok (some i) ∧ i < npts
      ∧ FirstNearest maskSrc dist (face * npts) (face * npts + npts) (face * npts + i) := by
  have hsearch : (faceSearch.search npts maskSrc dist face = .error .noNearest
        ∧ ∀ i < npts, maskSrc (face * npts + i) = 0)
      ∨ ∃ i, faceSearch.search npts maskSrc dist face = .ok (some i) ∧ i < npts
        ∧ FirstNearest maskSrc dist (face * npts) (face * npts + npts) (face * npts + i) := by
    have := near_row maskSrc dist (face * npts) (face * npts) (le_refl _) npts none (fun l h1 h2 => by omega)
    unfold faceSearch.search
    cases hb : (List.range npts).foldl (init := none) fun best i => nearStep best maskSrc dist (face * npts + i) with
    | none =>
      rw [hb] at this
      exact Or.inl ⟨rfl, fun i hi => this _ (by omega) (by omega)⟩
    | some b =>
      obtain ⟨l, d⟩ := b
      rw [hb] at this
      obtain ⟨-, h1⟩ := this
      have h2 := h1.1
      have h3 := h1.2.1
      refine Or.inr ⟨l - face * npts, rfl, by omega, ?_⟩
      rwa [show face * npts + (l - face * npts) = l by omega]
  unfold faceSearch
  rw [if_neg hd]
  cases map with
  | none => exact hsearch
  | some b =>
    obtain ⟨m, i⟩ := b
    dsimp only
    by_cases hm : m = face
    · rw [if_pos hm]
      subst hm
      rcases (C90_full_search nface npts maskSrc maskDst dist).2 hd with ⟨h, -⟩ | ⟨m', i', h, h1, h2, h3, h4, h5, h6⟩
      · rw [hmap] at h; cases h
      · rw [hmap] at h
        injection h with h
        injection h with h
        injection h with h7 h8
        subst h7 h8
        refine Or.inr ⟨i, rfl, h2, by omega, by omega, h5, fun l' a1 a2 a3 => h6 l' (by omega) ?_ a3⟩
        have : m * npts + npts ≤ nface * npts := by rw [← Nat.succ_mul]; exact Nat.mul_le_mul_right _ hf
        omega
    · rw [if_neg hm]
      exact hsearch

/-- C90, a defect: for vegetation the program stops if the source face with the number of the destination face has no soil,
although the nearest point is known and the result of the second search is not used. -/
theorem C90_face_search_wrong : ∃ (maskSrc : Nat → Nat) (dist : Nat → Nat) (map : Option (Nat × Nat)),
    (fullSearch 2 1 maskSrc 1 dist).toOption = some map ∧ map = some (1, 0)
    ∧ (faceSearch 1 maskSrc 1 dist map 0).toOption = none :=
  ⟨fun l => l, fun _ => 0, some (1, 0), by decide, rfl, by decide⟩

end Verif
