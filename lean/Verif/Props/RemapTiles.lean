import Verif.Model.RemapLand
import Mathlib.Tactic.Ring
import Mathlib.Algebra.Order.Ring.Rat
import Mathlib.Algebra.Field.Rat
/-
C89: remap_land reads the tiles of a restart file.

Full statement: for every restart file, the tiles of each cell are taken in the order of the file, with their fractions, tags,
numbers and positions, and a file with more tiles in a cell than `ntile` is rejected. `C89_tiles_partial` proves this for
files with at most `ntile` tiles in each cell, `C89_rejected_partial` for files with more than `ntile + 1` in some cell;
`C89_one_more_wrong` shows that one tile more is not rejected.
-/
namespace Verif

open Verif.RemapLand

/-- The position `l` of a file belongs to a tile of cell `p`: it has a tag, and the number of the cell is the remainder of
`tile_index`. -/
def tileOfCell {K : Type} (nx ny p : Nat) (e : Entry K) : Bool := e.tag.isSome && e.idx % (nx * ny) == p

/-- The tiles of cell `p` in the order of the file, with their positions -/
def tilesOf {K : Type} (nx ny : Nat) (file : List (Entry K)) (p : Nat) : List (Entry K × Nat) :=
  file.zipIdx.filter fun x => tileOfCell nx ny p x.1

/-- The number of tiles of the cells `isc`, ... `iec` before position `l` of the file -/
def rankOf {K : Type} (nx ny isc iec : Nat) (file : List (Entry K)) (l : Nat) : Nat :=
  (file.take l).countP fun e => e.tag.isSome && (isc ≤ e.idx % (nx * ny) && e.idx % (nx * ny) ≤ iec)

/-- What is to be kept about a tile -/
def slotOf {K : Type} (nx ny isc iec : Nat) (allTile : Bool) (file : List (Entry K)) (x : Entry K × Nat) : Slot K :=
  { frac := x.1.frac, tag := x.1.tag.getD 0, tag2 := x.1.tag2,
    idx := if allTile then x.2 else rankOf nx ny isc iec file x.2, otn := x.1.idx / (nx * ny) }

theorem cell_eq (nx ny idx : Nat) : cellOf nx ny idx = idx % (nx * ny) := by
  unfold cellOf
  rw [Nat.mod_mul, Nat.mul_comm nx, Nat.add_comm]

/-- What holds after `n` positions -/
structure TilesInv {K : Type} (nx ny ntile isc iec : Nat) (allTile : Bool) (file : List (Entry K)) (n : Nat) (s : Info K) :
    Prop where
  count : ∀ p, isc ≤ p → p ≤ iec → s.count (p - isc) = (tilesOf nx ny (file.take n) p).length
  slots : ∀ p, isc ≤ p → p ≤ iec → ∀ c < ntile,
    s.slots (ntile * (p - isc) + c) = (tilesOf nx ny (file.take n) p)[c]?.map (slotOf nx ny isc iec allTile file)
  pos : s.pos = rankOf nx ny isc iec file n

theorem tilesOf_take_succ {K : Type} (nx ny : Nat) (file : List (Entry K)) (n : Nat) (h : n < file.length) (p : Nat) :
    tilesOf nx ny (file.take (n + 1)) p
      = tilesOf nx ny (file.take n) p ++ if tileOfCell nx ny p file[n] then [(file[n], n)] else [] := by
  unfold tilesOf
  rw [List.take_succ_eq_append_getElem h, List.zipIdx_append, List.filter_append]
  congr 1
  rw [List.length_take, Nat.min_eq_left h.le]
  by_cases hc : tileOfCell nx ny p file[n] = true
  · simp [hc]
  · simp [hc]

theorem rankOf_succ {K : Type} (nx ny isc iec : Nat) (file : List (Entry K)) (n : Nat) (h : n < file.length) :
    rankOf nx ny isc iec file (n + 1) = rankOf nx ny isc iec file n
      + if file[n].tag.isSome && (isc ≤ file[n].idx % (nx * ny) && file[n].idx % (nx * ny) ≤ iec) then 1 else 0 := by
  unfold rankOf
  rw [List.take_succ_eq_append_getElem h, List.countP_append, List.countP_singleton]

theorem tilesOf_length_le {K : Type} (nx ny : Nat) (file : List (Entry K)) (n p : Nat) :
    (tilesOf nx ny (file.take n) p).length ≤ (tilesOf nx ny file p).length := by
  unfold tilesOf
  conv_rhs => rw [← List.take_append_drop n file, List.zipIdx_append, List.filter_append, List.length_append]
  omega

theorem tiles_step {K : Type} (nx ny ntile isc iec : Nat) (allTile : Bool) (file : List (Entry K)) (n : Nat)
    (hn : n < file.length) (hx : 0 < nx) (hy : 0 < ny)
    (hroom : ∀ p, isc ≤ p → p ≤ iec → (tilesOf nx ny file p).length ≤ ntile) (s : Info K)
    (hs : TilesInv nx ny ntile isc iec allTile file n s) :
    ∃ s', infoStep nx ny ntile isc iec allTile s n file[n] = .ok s'
      ∧ TilesInv nx ny ntile isc iec allTile file (n + 1) s' := by
  have hsucc := tilesOf_take_succ nx ny file n hn
  have hrank := rankOf_succ nx ny isc iec file n hn
  have hle := tilesOf_length_le nx ny file (n + 1)
  generalize hE : file[n] = e at *
  unfold infoStep
  cases ht : e.tag with
  | none =>
    refine ⟨s, rfl, fun p h1 h2 => ?_, fun p h1 h2 c hc => ?_, ?_⟩
    · rw [hs.count p h1 h2, hsucc]; simp [tileOfCell, ht]
    · rw [hs.slots p h1 h2 c hc, hsucc]; simp [tileOfCell, ht]
    · rw [hs.pos, hrank]; simp [ht]
  | some tag =>
    dsimp only
    rw [if_neg (by omega), cell_eq]
    obtain ⟨q, hq⟩ : ∃ q, e.idx % (nx * ny) = q := ⟨_, rfl⟩
    rw [hq] at hrank ⊢
    by_cases hin : q < isc ∨ iec < q
    · rw [if_pos hin]
      refine ⟨s, rfl, fun p h1 h2 => ?_, fun p h1 h2 c hc => ?_, ?_⟩
      · rw [hs.count p h1 h2, hsucc, if_neg (by simp [tileOfCell, hq]; omega), List.append_nil]
      · rw [hs.slots p h1 h2 c hc, hsucc, if_neg (by simp [tileOfCell, hq]; omega), List.append_nil]
      · rw [hs.pos, hrank, if_neg (by simp; omega), Nat.add_zero]
    · rw [if_neg hin]
      have hq1 : isc ≤ q := by omega
      have hq2 : q ≤ iec := by omega
      have htile : tileOfCell nx ny q e = true := by simp [tileOfCell, ht, hq]
      have hcount := hs.count q hq1 hq2
      have hlen := hle q
      rw [hsucc q, if_pos htile, List.length_append, List.length_singleton, ← hcount] at hlen
      have hr := hroom q hq1 hq2
      have hk : ntile * (q - isc) + s.count (q - isc) < ntile * (iec + 1 - isc) := by
        have : ntile * (q - isc + 1) ≤ ntile * (iec + 1 - isc) := Nat.mul_le_mul_left _ (by omega)
        rw [Nat.mul_add] at this
        omega
      rw [if_neg (by omega), if_neg (by omega)]
      refine ⟨_, rfl, fun p h1 h2 => ?_, fun p h1 h2 c hc => ?_, ?_⟩
      · dsimp only
        by_cases hp : p = q
        · subst hp
          rw [if_pos rfl, hcount, hsucc p, if_pos htile]
          simp
        · rw [if_neg (by omega), hs.count p h1 h2, hsucc p, if_neg (by simp [tileOfCell, hq]; omega), List.append_nil]
      · dsimp only
        by_cases hp : p = q
        · subst hp
          rw [hsucc p, if_pos htile]
          by_cases hc' : c = s.count (p - isc)
          · subst hc'
            rw [if_pos rfl, List.getElem?_append_right (by omega), hcount, Nat.sub_self]
            simp [slotOf, ht, hs.pos]
          · rw [if_neg (by omega), hs.slots p h1 h2 c hc]
            by_cases hlt : c < (tilesOf nx ny (file.take n) p).length
            · rw [List.getElem?_append_left hlt]
            · rw [List.getElem?_eq_none (by omega), List.getElem?_eq_none (by simp; omega)]
        · have hne : ntile * (p - isc) + c ≠ ntile * (q - isc) + s.count (q - isc) := by
            intro h
            rcases Nat.lt_or_gt_of_ne (show p - isc ≠ q - isc by omega) with hlt | hlt
            · have : ntile * (p - isc + 1) ≤ ntile * (q - isc) := Nat.mul_le_mul_left _ hlt
              rw [Nat.mul_add] at this
              omega
            · have : ntile * (q - isc + 1) ≤ ntile * (p - isc) := Nat.mul_le_mul_left _ hlt
              rw [Nat.mul_add] at this
              omega
          rw [if_neg hne, hs.slots p h1 h2 c hc, hsucc p, if_neg (by simp [tileOfCell, hq]; omega), List.append_nil]
      · dsimp only
        rw [hs.pos, hrank, if_pos (by simp [ht]; omega)]

theorem tiles_loop {K : Type} (nx ny ntile isc iec : Nat) (allTile : Bool) (file : List (Entry K)) (hx : 0 < nx) (hy : 0 < ny)
    (hroom : ∀ p, isc ≤ p → p ≤ iec → (tilesOf nx ny file p).length ≤ ntile) (k : Nat) :
    ∀ n s, n + k = file.length → TilesInv nx ny ntile isc iec allTile file n s →
    ∃ s', infoLoop nx ny ntile isc iec allTile n (file.drop n) s = .ok s'
      ∧ TilesInv nx ny ntile isc iec allTile file file.length s' := by
  induction k with
  | zero =>
    intro n s h hs
    rw [List.drop_of_length_le (by omega)]
    exact ⟨s, rfl, by rwa [← h]⟩
  | succ k ih =>
    intro n s h hs
    obtain ⟨s1, h1, h2⟩ := tiles_step nx ny ntile isc iec allTile file n (by omega) hx hy hroom s hs
    obtain ⟨s2, h3, h4⟩ := ih (n + 1) s1 (by omega) h2
    refine ⟨s2, ?_, h4⟩
    rw [List.drop_eq_getElem_cons (by omega), infoLoop, h1]
    exact h3

/-- C89: if no cell has more than `ntile` tiles, then the tiles of each cell are those of the file in its order, each with its
fraction, its tags, its number `tile_index / (nx * ny)`, and its position: in the file, or among the tiles of this kind. -/
theorem C89_tiles_partial {K : Type} (nx ny ntile isc iec : Nat) (allTile : Bool) (file : List (Entry K)) (hx : 0 < nx)
    (hy : 0 < ny) (hroom : ∀ p, isc ≤ p → p ≤ iec → (tilesOf nx ny file p).length ≤ ntile) :
    ∃ s, tileInfo nx ny ntile isc iec allTile file = .ok s
      ∧ ∀ p, isc ≤ p → p ≤ iec → s.count (p - isc) = (tilesOf nx ny file p).length
        ∧ ∀ c < ntile, s.slots (ntile * (p - isc) + c)
          = (tilesOf nx ny file p)[c]?.map (slotOf nx ny isc iec allTile file) := by
  obtain ⟨s, h1, h2⟩ := tiles_loop nx ny ntile isc iec allTile file hx hy hroom file.length 0 (Info.empty K) (by omega)
    ⟨fun p _ _ => by simp [Info.empty, tilesOf], fun p _ _ c _ => by simp [Info.empty, tilesOf], by simp [Info.empty, rankOf]⟩
  refine ⟨s, h1, fun p hp1 hp2 => ⟨?_, fun c hc => ?_⟩⟩
  · rw [h2.count p hp1 hp2, List.take_length]
  · rw [h2.slots p hp1 hp2 c hc, List.take_length]

/-- Two by one cells with three soil tiles and a tile of another kind -/
example : (tileInfo (K := ℚ) 2 1 2 0 1 false [⟨some 5, none, 0, 1 / 2⟩, ⟨none, none, 1, 1⟩, ⟨some 6, none, 1, 1 / 3⟩,
      ⟨some 7, none, 2, 1 / 4⟩]).toOption.map (fun s => (s.count 0, s.count 1, s.slots 1, s.slots 2, s.slots 3))
    = some (2, 1, some ⟨1 / 4, 7, none, 2, 1⟩, some ⟨1 / 3, 6, none, 1, 0⟩, none) := by
  rfl

example : ∀ p, 0 ≤ p → p ≤ 1 → (tilesOf 2 1 [⟨some 5, none, 0, (1 / 2 : ℚ)⟩, ⟨none, none, 1, 1⟩, ⟨some 6, none, 1, 1 / 3⟩,
      ⟨some 7, none, 2, 1 / 4⟩] p).length ≤ 2 := by
  intro p _ h
  obtain rfl | rfl : p = 0 ∨ p = 1 := by omega
  · decide
  · decide

theorem rejected_loop {K : Type} (nx ny ntile isc iec : Nat) (allTile : Bool) (q : Nat) (hx : 0 < nx) (hy : 0 < ny)
    (hq : isc ≤ q ∧ q ≤ iec) (es : List (Entry K)) :
    ∀ n (s : Info K), ntile + 1 < s.count (q - isc) + (es.filter (tileOfCell nx ny q)).length →
      s.count (q - isc) ≤ ntile + 1 →
      ∀ s', infoLoop nx ny ntile isc iec allTile n es s ≠ .ok s' := by
  induction es with
  | nil => intro n s h1 h2; simp at h1; omega
  | cons e es ih =>
    intro n s h1 h2 s' h
    rw [infoLoop] at h
    cases h3 : infoStep nx ny ntile isc iec allTile s n e with
    | error x => rw [h3] at h; cases h
    | ok s1 =>
      rw [h3] at h
      simp only [bind, Except.bind] at h
      refine ih (n + 1) s1 ?_ ?_ s' h
      all_goals
        rw [List.filter_cons] at h1
        unfold infoStep at h3
        cases ht : e.tag with
        | none =>
          rw [ht] at h3
          injection h3 with h3
          subst h3
          simp [tileOfCell, ht] at h1
          first | exact h1 | exact h2
        | some tag =>
          rw [ht] at h3
          dsimp only at h3
          rw [if_neg (by omega), cell_eq] at h3
          by_cases hc : tileOfCell nx ny q e = true
          · have hc' : e.idx % (nx * ny) = q := by simp [tileOfCell] at hc; exact hc.2
            rw [if_pos hc, List.length_cons] at h1
            rw [hc', if_neg (by omega)] at h3
            split at h3
            · cases h3
            · split at h3
              · cases h3
              · injection h3 with h3
                subst h3
                dsimp only
                rw [if_pos rfl]
                omega
          · have hc' : e.idx % (nx * ny) ≠ q := by
              intro h; apply hc; simp [tileOfCell, ht, h]
            rw [if_neg hc] at h1
            split at h3
            · injection h3 with h3
              subst h3
              omega
            · split at h3
              · cases h3
              · split at h3
                · cases h3
                · injection h3 with h3
                  subst h3
                  dsimp only
                  rw [if_neg (by omega)]
                  omega

/-- C89: a file with more than `ntile + 1` tiles in a cell is rejected. -/
theorem C89_rejected_partial {K : Type} (nx ny ntile isc iec : Nat) (allTile : Bool) (file : List (Entry K)) (hx : 0 < nx)
    (hy : 0 < ny) (q : Nat) (hq : isc ≤ q ∧ q ≤ iec) (h : ntile + 1 < (tilesOf nx ny file q).length) (s : Info K) :
    tileInfo nx ny ntile isc iec allTile file ≠ .ok s := by
  apply rejected_loop nx ny ntile isc iec allTile q hx hy hq file 0 (Info.empty K)
  · have : (tilesOf nx ny file q).length = (file.filter (tileOfCell nx ny q)).length := by
      unfold tilesOf
      rw [← List.countP_eq_length_filter, ← List.countP_eq_length_filter]
      conv_rhs => rw [← List.zipIdx_map_fst 0 file, List.countP_map]
      rfl
    simp only [Info.empty]
    omega
  · simp [Info.empty]

/-- C89, a defect: with one tile in a cell too many the program goes on, and this tile is taken for a tile of the next cell,
which has none (l.2481 has `>` for `>=`). -/
theorem C89_one_more_wrong : (tileInfo (K := ℚ) 2 1 1 0 1 false [⟨some 5, none, 0, 1 / 2⟩, ⟨some 6, none, 2, 1 / 3⟩]).toOption.map
      (fun s => (s.count 0, s.count 1, s.slots 1)) = some (2, 0, some ⟨1 / 3, 6, none, 1, 1⟩)
    ∧ tilesOf 2 1 [⟨some 5, none, 0, (1 / 2 : ℚ)⟩, ⟨some 6, none, 2, 1 / 3⟩] 1 = [] := by
  constructor
  · decide +kernel
  · rfl

end Verif
