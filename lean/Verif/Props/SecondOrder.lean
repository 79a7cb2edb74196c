import Verif.Props.Conserve
/-
C45: second order conservative interpolation conserves.

The gradient terms cancel because `setup_conserve_interp` measures the distances from the centroid of the
union of the exchange cells, provided that these cover the source cell (up to the ratio 1e-3 tested
there).
-/
namespace Verif
open Conserve Spec

variable {K : Type} [Field K] [LinearOrder K] [IsStrictOrderedRing K]

/-- The exchange cells of source cell `(i, j)` of tile `t`. -/
def fromSource (t i j : Nat) (cells : List (XCell K)) : List (XCell K) :=
  cells.filter fun c => decide (c.t1 = t ∧ c.i1 = i ∧ c.j1 = j)

def rawFrom (t i j : Nat) (raw : List (XRaw K)) : List (XRaw K) :=
  raw.filter fun c => decide (c.t1 = t ∧ c.i1 = i ∧ c.j1 = j)

omit [LinearOrder K] [IsStrictOrderedRing K] in
theorem cellSum_eq (nx1 : Nat → Nat) (f : XRaw K → K) (raw : List (XRaw K)) (t n : Nat) :
    cellSum nx1 f raw t n =
      total f (raw.filter fun r => decide (r.t1 = t ∧ r.j1 * nx1 r.t1 + r.i1 = n)) := by
  have gen : ∀ (raw : List (XRaw K)) (a : Nat → Nat → K),
      (raw.foldl (fun a r => fun t => if t = r.t1 then addAt (a t) (r.j1 * nx1 r.t1 + r.i1) (f r) else a t) a)
        t n = a t n + total f (raw.filter fun r => decide (r.t1 = t ∧ r.j1 * nx1 r.t1 + r.i1 = n)) := by
    intro raw
    induction raw with
    | nil => intro a; simp [total]
    | cons r raw ih =>
      intro a
      rw [List.foldl_cons, ih, List.filter_cons]
      by_cases h1 : t = r.t1
      · subst h1
        rw [if_pos rfl]
        by_cases h2 : r.j1 * nx1 r.t1 + r.i1 = n
        · rw [if_pos (by simpa using h2), total_cons]
          unfold addAt
          rw [if_pos h2.symm]
          ring
        · rw [if_neg (by simpa using h2)]
          unfold addAt
          rw [if_neg (fun e => h2 e.symm)]
      · rw [if_neg h1, if_neg (by simpa using fun e => absurd e.symm h1)]
  unfold cellSum
  rw [gen, zero_add]

/-- The source cells indices are in the grid. -/
def RawInGrid (nx1 : Nat → Nat) (raw : List (XRaw K)) : Prop := ∀ r ∈ raw, r.i1 < nx1 r.t1

omit [LinearOrder K] [IsStrictOrderedRing K] in
theorem rawFrom_flat {nx1 : Nat → Nat} {raw : List (XRaw K)} (hr : RawInGrid nx1 raw) {t i : Nat} (j : Nat)
    (hi : i < nx1 t) :
    (raw.filter fun r => decide (r.t1 = t ∧ r.j1 * nx1 r.t1 + r.i1 = j * nx1 t + i)) = rawFrom t i j raw := by
  unfold rawFrom
  apply List.filter_congr
  intro r hrm
  rw [decide_eq_decide]
  constructor
  · rintro ⟨rfl, h⟩
    exact ⟨rfl, (rowMajor_inj (hr r hrm) hi).1 h⟩
  · rintro ⟨rfl, h1, h2⟩
    exact ⟨rfl, (rowMajor_inj (hr r hrm) hi).2 ⟨h1, h2⟩⟩

/-- The exchange cells cover source cell `(i, j)` of tile `t` up to `ratio`. -/
def Covered (nx1 : Nat → Nat) (ratio : K) (cellArea : Nat → Nat → K) (raw : List (XRaw K)) (t i j : Nat) :
    Prop :=
  |total (fun r => r.area) (rawFrom t i j raw) - cellArea t (j * nx1 t + i)| / cellArea t (j * nx1 t + i) <
    ratio

/-- C45. For a covered source cell the first moments of its exchange cells vanish. -/
theorem C45_centroid (nx1 : Nat → Nat) (ratio : K) (cellArea fullLon fullLat : Nat → Nat → K)
    (raw : List (XRaw K)) (hr : RawInGrid nx1 raw) (hpos : ∀ r ∈ raw, 0 < r.area) (t i j : Nat)
    (hi : i < nx1 t) (hcov : Covered nx1 ratio cellArea raw t i j) :
    total (fun c => c.area * c.di) (fromSource t i j (recentre nx1 ratio cellArea fullLon fullLat raw)) = 0 ∧
    total (fun c => c.area * c.dj) (fromSource t i j (recentre nx1 ratio cellArea fullLon fullLat raw)) = 0 := by
  by_cases hne : rawFrom t i j raw = []
  · have : fromSource t i j (recentre nx1 ratio cellArea fullLon fullLat raw) = [] := by
      unfold fromSource recentre
      rw [List.filter_map]
      have : (raw.filter ((fun c : XCell K => decide (c.t1 = t ∧ c.i1 = i ∧ c.j1 = j)) ∘ fun r =>
          (⟨r.t1, r.i1, r.j1, r.i2, r.j2, r.area,
      r.clon / r.area - cellCentroid nx1 ratio cellArea fullLon (fun r => r.clon) raw r.t1 (r.j1 * nx1 r.t1 + r.i1),
      r.clat / r.area - cellCentroid nx1 ratio cellArea fullLat (fun r => r.clat) raw r.t1 (r.j1 * nx1 r.t1 + r.i1)⟩ :
            XCell K))) = rawFrom t i j raw := rfl
      rw [this, hne]; rfl
    rw [this]
    exact ⟨rfl, rfl⟩
  · have hS : 0 < total (fun r : XRaw K => r.area) (rawFrom t i j raw) :=
      total_pos (fun r h => hpos r (List.mem_filter.1 h).1) hne
    have key : ∀ (f : XRaw K → K) (full : Nat → Nat → K),
        total (fun r => r.area * (f r / r.area -
          cellCentroid nx1 ratio cellArea full f raw r.t1 (r.j1 * nx1 r.t1 + r.i1))) (rawFrom t i j raw) = 0 := by
      intro f full
      have hc : cellCentroid nx1 ratio cellArea full f raw t (j * nx1 t + i) =
          total f (rawFrom t i j raw) / total (fun r => r.area) (rawFrom t i j raw) := by
        unfold cellCentroid
        rw [cellSum_eq, cellSum_eq, rawFrom_flat hr j hi]
        simp only []
        rw [if_pos hS]
        exact if_pos hcov
      have : total (fun r => r.area * (f r / r.area -
          cellCentroid nx1 ratio cellArea full f raw r.t1 (r.j1 * nx1 r.t1 + r.i1))) (rawFrom t i j raw) =
          total (fun r => f r + -(total f (rawFrom t i j raw) / total (fun r => r.area) (rawFrom t i j raw)) *
            r.area) (rawFrom t i j raw) := by
        apply total_congr
        intro r hrm
        have hm := List.mem_filter.1 hrm
        have h2 : r.t1 = t ∧ r.i1 = i ∧ r.j1 = j := by simpa using hm.2
        rw [h2.1, h2.2.1, h2.2.2, hc]
        have := ne_of_gt (hpos r hm.1)
        field_simp
        ring
      rw [this, total_add, total_mul]
      field_simp
      ring
    have conv : ∀ g : XCell K → K,
        total g (fromSource t i j (recentre nx1 ratio cellArea fullLon fullLat raw)) =
        total (fun r => g ⟨r.t1, r.i1, r.j1, r.i2, r.j2, r.area,
          r.clon / r.area - cellCentroid nx1 ratio cellArea fullLon (fun r => r.clon) raw r.t1 (r.j1 * nx1 r.t1 + r.i1),
          r.clat / r.area - cellCentroid nx1 ratio cellArea fullLat (fun r => r.clat) raw r.t1 (r.j1 * nx1 r.t1 + r.i1)⟩)
          (rawFrom t i j raw) := by
      intro g
      unfold fromSource recentre
      rw [List.filter_map]
      unfold total
      rw [List.map_map]
      rfl
    rw [conv, conv]
    exact ⟨key _ _, key _ _⟩

/-- A sum weighted with factors that depend only on a key vanishes if the sums of each key do. -/
theorem total_by_key {α β : Type} [DecidableEq β] (key : α → β) (G : β → K) (f : α → K) : ∀ (n : Nat) (l : List α),
    l.length ≤ n → (∀ b, total f (l.filter fun a => decide (key a = b)) = 0) →
    total (fun a => G (key a) * f a) l = 0 := by
  intro n
  induction n with
  | zero =>
    intro l hl _
    have : l = [] := List.length_eq_zero_iff.1 (by omega)
    rw [this]; rfl
  | succ n ih =>
    intro l hl h
    cases l with
    | nil => rfl
    | cons a l =>
      -- split by the key of the first entry
      have split : ∀ (p : α → Bool) (g : α → K) (m : List α),
          total g m = total g (m.filter p) + total g (m.filter fun a => !p a) := by
        intro p g m
        induction m with
        | nil => simp [total]
        | cons x m ihm =>
          rw [List.filter_cons, List.filter_cons, total_cons, ihm]
          cases p x
          · simp [total_cons]; ring
          · simp [total_cons]; ring
      rw [split (fun x => decide (key x = key a))]
      have h1 : total (fun x => G (key x) * f x) ((a :: l).filter fun x => decide (key x = key a)) = 0 := by
        have : total (fun x => G (key x) * f x) ((a :: l).filter fun x => decide (key x = key a)) =
            total (fun x => G (key a) * f x) ((a :: l).filter fun x => decide (key x = key a)) := by
          apply total_congr
          intro x hx
          have := (List.mem_filter.1 hx).2
          rw [of_decide_eq_true this]
        rw [this, total_mul, h, mul_zero]
      rw [h1, zero_add]
      apply ih
      · rw [List.filter_cons]
        have e : (!decide (key a = key a)) = false := by simp
        rw [if_neg (by simp)]
        have := List.length_filter_le (fun x => !decide (key x = key a)) l
        simp only [List.length_cons] at hl
        omega
      · intro b
        rw [List.filter_filter]
        by_cases hb : b = key a
        · subst hb
          have : ((a :: l).filter fun x => decide (key x = key a) && !decide (key x = key a)) = [] := by
            rw [List.filter_eq_nil_iff]
            intro x _
            simp
          rw [this]; rfl
        · have : ((a :: l).filter fun x => decide (key x = b) && !decide (key x = key a)) =
              (a :: l).filter fun x => decide (key x = b) := by
            apply List.filter_congr
            intro x _
            by_cases hx : key x = b
            · have : ¬ key x = key a := fun e => hb (hx ▸ e)
              simp [hx, hb]
            · simp [hx]
          rw [this]; exact h b

/-- The position of the source cell. -/
def srcKey (c : XCell K) : Nat × Nat × Nat := (c.t1, c.i1, c.j1)

theorem moments (nx1 : Nat → Nat) (ratio : K) (cellArea fullLon fullLat : Nat → Nat → K)
    (raw : List (XRaw K)) (hr : RawInGrid nx1 raw) (hpos : ∀ r ∈ raw, 0 < r.area)
    (hcov : ∀ r ∈ raw, Covered nx1 ratio cellArea raw r.t1 r.i1 r.j1)
    (cells : List (XCell K)) (hcells : cells = recentre nx1 ratio cellArea fullLon fullLat raw) :
    ∀ b : Nat × Nat × Nat,
      total (fun c => c.area * c.di) (cells.filter fun c => decide (srcKey c = b)) = 0 ∧
      total (fun c => c.area * c.dj) (cells.filter fun c => decide (srcKey c = b)) = 0 := by
    intro b
    obtain ⟨t, i, j⟩ := b
    have eb : (cells.filter fun c => decide (srcKey c = (t, i, j))) = fromSource t i j cells := by
      unfold fromSource
      apply List.filter_congr
      intro c _
      rw [decide_eq_decide]
      simp [srcKey]
    rw [eb]
    by_cases hne : rawFrom t i j raw = []
    · have : fromSource t i j cells = [] := by
        rw [hcells]
        unfold fromSource
        rw [List.filter_eq_nil_iff]
        intro c hcm
        obtain ⟨r, hrm, rfl⟩ := List.mem_map.1 hcm
        rw [rawFrom, List.filter_eq_nil_iff] at hne
        exact hne r hrm
      rw [this]
      exact ⟨rfl, rfl⟩
    · obtain ⟨r, hrm⟩ := List.exists_mem_of_ne_nil _ hne
      have hm := List.mem_filter.1 hrm
      have h2 : r.t1 = t ∧ r.i1 = i ∧ r.j1 = j := by simpa using hm.2
      have h3 := hcov r hm.1
      have h4 := hr r hm.1
      rw [h2.1, h2.2.1, h2.2.2] at h3
      rw [h2.1, h2.2.1] at h4
      rw [hcells]
      exact C45_centroid nx1 ratio cellArea fullLon fullLat raw hr hpos t i j h4 h3

/-- The weight of an exchange cell is its area times a factor of the source cell. -/
def srcWeight (cf : Conf K) (k : Nat × Nat × Nat) : K :=
    (match cf.weight with | some w => w k.1 (k.2.2 * cf.nx1 k.1 + k.2.1) | none => 1) *
    (match cf.measures with
      | some m => m k.1 (k.2.2 * cf.nx1 k.1 + k.2.1) / cf.cellArea k.1 (k.2.2 * cf.nx1 k.1 + k.2.1)
      | none => 1)

omit [LinearOrder K] [IsStrictOrderedRing K] in
theorem xArea_eq (cf : Conf K) (hs : cf.sum = false) (c : XCell K) :
    xArea cf c = c.area * srcWeight cf (srcKey c) := by
    unfold xArea
    simp only [hs, Bool.false_eq_true, if_false, srcWeight, srcKey, n1]
    cases cf.weight <;> cases cf.measures <;> simp <;> ring

/-- C45. Second order interpolation with the distances of `setup_conserve_interp`: if every source cell
met by an exchange cell is covered, the integral over the target grid is the sum of source value times
(weighted) area over the valid exchange cells, as for first order: the gradients contribute nothing. -/
theorem C45_conserves (cf : Conf K) (s : Src K) (ny2 : Nat) (ratio : K) (cellArea fullLon fullLat : Nat → Nat → K)
    (raw : List (XRaw K)) (hr : RawInGrid cf.nx1 raw) (hpos : ∀ r ∈ raw, 0 < r.area)
    (hcov : ∀ r ∈ raw, Covered cf.nx1 ratio cellArea raw r.t1 r.i1 r.j1)
    (hc : ∀ r ∈ raw, r.i2 < cf.nx2 ∧ r.j2 < ny2)
    (hs : cf.sum = false) (ht : cf.target = false) (ho : cf.order2 = true) (out : Nat → K)
    (cells : List (XCell K)) (hcells : cells = recentre cf.nx1 ratio cellArea fullLon fullLat raw)
    (h : scalarInterp cf s cells = some out) (hw : ∀ c ∈ cells, 0 ≤ xArea cf c) :
    gridSum cf.nx2 ny2 (fun i j => out (j * cf.nx2 + i) * total (xArea cf) (validOverlap cf s i j cells)) =
      total (fun c => srcVal cf s c * xArea cf c)
        (cells.filter fun c => !cf.hasMissing || decide (srcVal cf s c ≠ cf.missing)) := by
  have hg : InGrid cf.nx2 ny2 cells := by
    intro c hcm
    rw [hcells] at hcm
    obtain ⟨r, hrm, rfl⟩ := List.mem_map.1 hcm
    exact hc r hrm
  rw [C27_fregrid_conserves cf s ny2 cells hg hs ht out h hw]
  let key : XCell K → Nat × Nat × Nat := srcKey
  let W : Nat × Nat × Nat → K := srcWeight cf
  have hW : ∀ c, xArea cf c = c.area * W (key c) := xArea_eq cf hs
  let V : Nat × Nat × Nat → K := fun k => s.data k.1 ((k.2.2 + 1) * (cf.nx1 k.1 + 2) + k.2.1 + 1)
  have hV : ∀ c, srcVal cf s c = V (key c) := by
    intro c; simp [srcVal, ho, V, key, srcKey]
  let U : Nat × Nat × Nat → Bool := fun k => !cf.hasMissing || decide (V k ≠ cf.missing)
  let A : Nat × Nat × Nat → K := fun k => if cf.hasMissing && s.gradMask k.1 (k.2.2 * cf.nx1 k.1 + k.2.1) then 0 else 1
  have hX : ∀ c, xVal cf s c = srcVal cf s c + A (key c) * (s.gradX c.t1 (n1 cf c) * c.di) +
      A (key c) * (s.gradY c.t1 (n1 cf c) * c.dj) := by
    intro c
    unfold xVal
    rw [if_pos ho]
    show _ = srcVal cf s c + (if cf.hasMissing && s.gradMask c.t1 (n1 cf c) then 0 else 1) * _ +
      (if cf.hasMissing && s.gradMask c.t1 (n1 cf c) then 0 else 1) * _
    by_cases hm : (cf.hasMissing && s.gradMask c.t1 (n1 cf c)) = true
    · rw [if_pos hm, if_pos hm]; ring
    · rw [if_neg hm, if_neg hm]; ring
  rw [total_filter, total_filter]
  have e : ∀ c ∈ cells, (if (!cf.hasMissing || decide (srcVal cf s c ≠ cf.missing)) = true then
        xVal cf s c * xArea cf c else 0) =
      (if (!cf.hasMissing || decide (srcVal cf s c ≠ cf.missing)) = true then srcVal cf s c * xArea cf c else 0) +
      ((fun k : Nat × Nat × Nat => (if U k then A k * s.gradX k.1 (k.2.2 * cf.nx1 k.1 + k.2.1) * W k else 0))
          (key c) * (c.area * c.di) +
       (fun k : Nat × Nat × Nat => (if U k then A k * s.gradY k.1 (k.2.2 * cf.nx1 k.1 + k.2.1) * W k else 0))
          (key c) * (c.area * c.dj)) := by
    intro c _
    have hU : U (key c) = (!cf.hasMissing || decide (srcVal cf s c ≠ cf.missing)) := by
      simp only [U, hV]
    beta_reduce
    rw [hU]
    split
    · rw [hX, hW]
      simp only [key, srcKey, n1]
      ring
    · ring
  rw [total_congr e, total_add, total_add]
  have moment := moments cf.nx1 ratio cellArea fullLon fullLat raw hr hpos hcov cells hcells
  have hx := total_by_key key
    (fun k => if U k then A k * s.gradX k.1 (k.2.2 * cf.nx1 k.1 + k.2.1) * W k else 0)
    (fun c => c.area * c.di) cells.length cells (Nat.le_refl _) (fun b => (moment b).1)
  have hy := total_by_key key
    (fun k => if U k then A k * s.gradY k.1 (k.2.2 * cf.nx1 k.1 + k.2.1) * W k else 0)
    (fun c => c.area * c.dj) cells.length cells (Nat.le_refl _) (fun b => (moment b).2)
  rw [hx, hy]
  ring

/-! ### Concrete case -/

/-- One source cell of area 2 cut in two halves with centroids -1 and 1 shifted by 5. -/
def exRaw : List (XRaw ℚ) := [⟨0, 0, 0, 0, 0, 1, 4, 0⟩, ⟨0, 0, 0, 1, 0, 1, 6, 0⟩]

example : RawInGrid (fun _ => 1) exRaw ∧ (∀ r ∈ exRaw, 0 < r.area) := by
  unfold RawInGrid; decide +kernel
example : ∀ r ∈ exRaw, Covered (fun _ => 1) (1 / 1000) (fun _ _ => 2) exRaw r.t1 r.i1 r.j1 := by
  unfold Covered; decide +kernel
example : (recentre (fun _ => 1) (1 / 1000) (fun _ _ => 2) (fun _ _ => 0) (fun _ _ => 0) exRaw).map
    (fun c => (c.di, c.dj)) = [(-1, 0), (1, 0)] := by decide +kernel

/-- Value 10, gradient 3: the two target cells get 7 and 13. -/
example : ((scalarInterp ⟨fun _ => 1, 2, true, false, -1, none, false, none, 0, fun _ _ => 2, false, fun _ => 1⟩
    ⟨fun _ _ => 10, fun _ _ => 3, fun _ _ => 0, fun _ _ => false⟩
    (recentre (fun _ => 1) (1 / 1000 : ℚ) (fun _ _ => 2) (fun _ _ => 0) (fun _ _ => 0) exRaw)).map
      fun o => (List.range 2).map o) = some [7, 13] := by decide +kernel

end Verif
