import Verif.Model.Regional
import Verif.Lemmas.CString
import Mathlib.Algebra.Order.Ring.Rat
import Mathlib.Algebra.Field.Rat
import Mathlib.Data.Rat.Floor
import Mathlib.Tactic.Linarith
import Mathlib.Tactic.IntervalCases
import Mathlib.Data.List.Basic
/-
C88: make_regional_mosaic.
-/
namespace Verif

open Verif.Regional Verif.CString

/-- The end of the name of a file of tile `k` -/
def tileSuffix (k : Nat) : List Char := ".tile".toList ++ digits k ++ ".nc".toList

theorem digits_no_dot (k : Nat) : '.' ∉ digits k := by
  unfold digits
  intro h
  have := Nat.isDigit_of_mem_toDigits (b := 10) (by omega) (by omega) h
  exact absurd this (by decide)

theorem digits_inj {a b : Nat} (h : digits a = digits b) : a = b := by
  unfold digits at h
  have ha := Nat.ofDigitChars_toDigits (b := 10) (n := a) (by omega) (by omega)
  have hb := Nat.ofDigitChars_toDigits (b := 10) (n := b) (by omega) (by omega)
  rw [← ha, ← hb, h]

theorem tileSuffix_cons (k : Nat) : tileSuffix k = '.' :: ("tile".toList ++ digits k ++ '.' :: "nc".toList) := by
  unfold tileSuffix
  rw [show ".tile".toList = '.' :: "tile".toList by decide, show ".nc".toList = '.' :: "nc".toList by decide]
  simp

theorem tileSuffix_prefix {n k : Nat} {t : List Char} (h : tileSuffix n ++ t = tileSuffix k) : n = k := by
  rw [tileSuffix_cons, tileSuffix_cons] at h
  simp only [List.cons_append, List.append_assoc, List.cons.injEq, true_and, List.append_cancel_left_eq] at h
  exact digits_inj (((List.append_cons_inj_of_notMem (digits_no_dot k) (by decide)).1 h.symm).1).symm

/-- The end of a name of tile `n` comes up in a name of tile `k` only before its end, or if the tiles are the same. -/
theorem tileSuffix_infix {n k : Nat} {base : List Char} (h : tileSuffix n <:+: base ++ tileSuffix k) :
    tileSuffix n <:+: base ∨ n = k := by
  have hd : ∀ m, '.' ∉ "tile".toList ++ digits m := by
    intro m hm
    rcases List.mem_append.1 hm with hm | hm
    · exact absurd hm (by decide)
    · exact digits_no_dot m hm
  obtain ⟨s, t, h⟩ := h
  rw [List.append_assoc, List.append_eq_append_iff] at h
  rcases h with ⟨w, hw, h2⟩ | ⟨w, hw, h2⟩
  · rw [List.append_eq_append_iff] at h2
    rcases h2 with ⟨u, hu, h3⟩ | ⟨u, hu, h3⟩
    · exact Or.inl ⟨s, u, by rw [hw, hu, List.append_assoc]⟩
    · match w, u, hu, h3 with
      | [], u, hu, h3 =>
        right
        rw [List.nil_append] at hu
        rw [← hu] at h3
        exact tileSuffix_prefix h3.symm
      | w, [], hu, h3 =>
        left
        rw [List.append_nil] at hu
        exact ⟨s, [], by rw [hw, hu, List.append_nil]⟩
      | c :: w', d :: u', hu, h3 =>
        exfalso
        rw [tileSuffix_cons] at hu h3
        simp only [List.cons_append, List.cons.injEq] at hu h3
        rw [← h3.1] at hu
        have := (List.append_cons_inj_of_notMem (hd n) (by decide)).1 hu.2
        rw [← this.2.2] at h3
        have := h3.2
        simp at this
  · cases w with
    | nil =>
      right
      rw [List.nil_append] at h2
      exact tileSuffix_prefix h2.symm
    | cons c w =>
      exfalso
      rw [tileSuffix_cons k, tileSuffix_cons n] at h2
      simp only [List.cons_append, List.cons.injEq] at h2
      have := (List.append_cons_inj_of_notMem (hd k) (by decide)).1 h2.2
      have := congrArg List.length this.2.2
      simp at this

/-- C88: the tile is the number at the end of the name of the file, unless the name has such an end also further left. -/
theorem C88_tile (ntiles k : Nat) (hk : 1 ≤ k ∧ k ≤ ntiles) (base : List Char)
    (hb : ∀ n, ¬(".tile".toList ++ digits n ++ ".nc".toList) <:+: base) :
    tileOf ntiles (base ++ (".tile".toList ++ digits k ++ ".nc".toList)) = some (k - 1) := by
  unfold tileOf
  rw [List.find?_range_eq_some]
  refine ⟨?_, List.mem_range.2 (by omega), fun j hj => ?_⟩
  · rw [strstr_iff, show k - 1 + 1 = k by omega]
    exact (List.suffix_append _ _).isInfix
  · rw [Bool.not_eq_true', Bool.eq_false_iff, Ne, strstr_iff]
    intro h
    rcases tileSuffix_infix h with h | h
    · exact hb _ h
    · omega

/-- Tile 10, not tile 1 -/
example : tileOf 12 "atmos.tile10.nc".toList = some 9 := C88_tile 12 10 (by omega) "atmos".toList (by
  intro n h
  have := h.length_le
  simp at this)

/-- C88: a number which is off by less than a half is rounded to the integer that is meant. -/
theorem C88_round {K : Type} [Field K] [LinearOrder K] [IsStrictOrderedRing K] [FloorRing K] (r : K) (n : Int)
    (h : |r - n| < 1 / 2) : roundInt r = n := by
  rw [abs_lt] at h
  obtain ⟨h1, h2⟩ := h
  unfold roundInt
  split
  · rw [Int.floor_eq_iff]
    constructor <;> linarith
  · rw [Int.ceil_eq_iff]
    constructor <;> linarith

example : roundInt (2999999 / 1000000 : ℚ) = 3 := C88_round _ 3 (by norm_num [abs_lt])

/-- The values of an axis mean the numbers `a`, `a + 1`, ... -/
def AxisFrom {K : Type} [Field K] [LinearOrder K] (axis : List K) (a : Int) : Prop :=
  ∀ i (h : i < axis.length), |axis[i] - ((a + (i : Int) : Int) : K)| < 1 / 2

variable {K : Type} [Field K] [LinearOrder K] [IsStrictOrderedRing K] [FloorRing K]

theorem axis_map {axis : List K} {a : Int} (h : AxisFrom axis a) :
    axis.map roundInt = (List.range axis.length).map fun i : Nat => a + (i : Int) := by
  apply List.ext_getElem (by simp)
  intro i h1 h2
  rw [List.getElem_map, List.getElem_map, List.getElem_range]
  exact C88_round _ _ (h i (by simpa using h1))

theorem axis_start {axis : List K} {a : Int} (h : AxisFrom axis a) (hne : axis ≠ []) (e : Err) : axisStart e axis = .ok a := by
  have hl : 0 < axis.length := List.length_pos_iff.2 hne
  unfold axisStart
  rw [axis_map h]
  rw [List.head?_map, List.getLast?_map, List.head?_range, List.getLast?_range, if_neg (by omega), if_neg (by omega)]
  simp only [Option.map_some]
  rw [if_pos (by omega)]
  simp

/-- C88: for axes which mean the cells from row `j0 + 1` and column `i0 + 1`, inside the tile, the program writes exactly the
points of these cells. The points of cell `(j, i)` are those in rows `2 * j`, ... `2 * j + 2` and columns `2 * i`, ...
`2 * i + 2`, so the cell is the cell `(j0 + j, i0 + i)` of the tile. -/
theorem C88_region (ntiles k : Nat) (hk : 1 ≤ k ∧ k ≤ ntiles) (base : List Char)
    (hb : ∀ n, ¬(".tile".toList ++ digits n ++ ".nc".toList) <:+: base) (xaxis yaxis : List K) (i0 j0 : Nat)
    (hx : AxisFrom xaxis (i0 + 1)) (hy : AxisFrom yaxis (j0 + 1)) (hx0 : xaxis ≠ []) (hy0 : yaxis ≠ [])
    (files : Nat → TileFile K) (ncx ncy : Nat) (hf : (files (k - 1)).nxp = 2 * ncx + 1 ∧ (files (k - 1)).nyp = 2 * ncy + 1)
    (hi : i0 + xaxis.length ≤ ncx) (hj : j0 + yaxis.length ≤ ncy) :
    ∃ out, run ntiles (base ++ (".tile".toList ++ digits k ++ ".nc".toList)) xaxis yaxis files = .ok out
      ∧ out.tile + 1 = k ∧ out.nx = xaxis.length ∧ out.ny = yaxis.length
      ∧ ∀ j i, j < out.ny → i < out.nx → ∀ dj ≤ 2, ∀ di ≤ 2,
          out.x (2 * j + dj) (2 * i + di) = (files (k - 1)).x (2 * (j0 + j) + dj) (2 * (i0 + i) + di)
          ∧ out.y (2 * j + dj) (2 * i + di) = (files (k - 1)).y (2 * (j0 + j) + dj) (2 * (i0 + i) + di) := by
  unfold run
  rw [C88_tile ntiles k hk base hb, axis_start hx hx0, axis_start hy hy0]
  simp only [bind, Except.bind, hx0, hy0, or_self, if_false, readBlock, hf.1, hf.2, pure, Except.pure]
  have hc : 0 ≤ 2 * ((j0 : Int) + 1) - 2 ∧ 0 ≤ 2 * ((i0 : Int) + 1) - 2
      ∧ 2 * ((j0 : Int) + 1) - 2 + ((2 * yaxis.length + 1 : Nat) : Int) ≤ ((2 * ncy + 1 : Nat) : Int)
      ∧ 2 * ((i0 : Int) + 1) - 2 + ((2 * xaxis.length + 1 : Nat) : Int) ≤ ((2 * ncx + 1 : Nat) : Int) := by omega
  simp only [if_pos hc]
  refine ⟨_, rfl, by dsimp only; omega, rfl, rfl, fun j i _ _ dj _ di _ => ?_⟩
  dsimp only
  rw [show (2 * ((j0 : Int) + 1) - 2).toNat + (2 * j + dj) = 2 * (j0 + j) + dj by omega,
    show (2 * ((i0 : Int) + 1) - 2).toNat + (2 * i + di) = 2 * (i0 + i) + di by omega]
  exact ⟨rfl, rfl⟩

/-- Columns 2 and 3 and row 2 of tile 2, with four by four cells -/
example : (run 6 "reg.tile2.nc".toList [2, 3] [(2 : ℚ)] fun t => ⟨9, 9, fun j i => 100 * t + 10 * j + i, fun _ _ => 0⟩).toOption.map
    (fun o => (o.tile, o.nx, o.ny, o.x 0 0, o.x 2 4)) = some (1, 2, 1, 122, 146) := by
  decide +kernel

/-- C88: nothing else is written. If the indices on the axes increase, then a result means that they are consecutive and that
the region lies inside the tile. -/
theorem C88_only (ntiles : Nat) (name : List Char) (xaxis yaxis : List K) (files : Nat → TileFile K) (out : Out K)
    (hx : (xaxis.map roundInt).Pairwise (· < ·)) (hy : (yaxis.map roundInt).Pairwise (· < ·))
    (h : run ntiles name xaxis yaxis files = .ok out) :
    ∃ i0 j0 : Nat, xaxis.map roundInt = (List.range xaxis.length).map (fun i : Nat => ((i0 + 1 + i : Nat) : Int))
      ∧ yaxis.map roundInt = (List.range yaxis.length).map (fun j : Nat => ((j0 + 1 + j : Nat) : Int))
      ∧ 2 * (i0 + xaxis.length) + 1 ≤ (files out.tile).nxp ∧ 2 * (j0 + yaxis.length) + 1 ≤ (files out.tile).nyp := by
  have key : ∀ (axis : List K) (e : Err) (a : Int), (axis.map roundInt).Pairwise (· < ·) → axisStart e axis = .ok a →
      axis.map roundInt = (List.range axis.length).map (fun i : Nat => a + (i : Int)) := by
    intro axis e a hp ha
    have hl : (axis.map roundInt).length = axis.length := List.length_map ..
    unfold axisStart at ha
    rw [← hl] at ha ⊢
    generalize axis.map roundInt = l at hp ha ⊢
    cases hh : l.head? with
    | none => rw [hh] at ha; cases ha
    | some b =>
      cases ht : l.getLast? with
      | none => rw [hh, ht] at ha; cases ha
      | some c =>
        rw [hh, ht] at ha
        dsimp only at ha
        split at ha
        · rename_i hbc
          injection ha with ha
          subst ha
          have hpos : 0 < l.length := by
            cases l with
            | nil => cases hh
            | cons _ _ => simp
          have h0 : l[0] = b := by
            have := List.head?_eq_getElem? (l := l)
            rw [hh, List.getElem?_eq_getElem hpos] at this
            exact (Option.some.inj this).symm
          have hlast : l[l.length - 1] = c := by
            have := List.getLast?_eq_getElem? (l := l)
            rw [ht, List.getElem?_eq_getElem (by omega)] at this
            exact (Option.some.inj this).symm
          have up : ∀ i j (hi : i ≤ j) (hj : j < l.length), l[i] + ((j : Int) - i) ≤ l[j] := by
            intro i j hi hj
            induction j, hi using Nat.le_induction with
            | base => simp
            | succ j hij ih =>
              have h1 := ih (by omega)
              have h2 := List.pairwise_iff_getElem.1 hp j (j + 1) (by omega) hj (by omega)
              push_cast
              omega
          apply List.ext_getElem (by simp)
          intro i h1 h2
          rw [List.getElem_map, List.getElem_range]
          have u1 := up 0 i (by omega) h1
          have u2 := up i (l.length - 1) (by omega) (by omega)
          rw [h0] at u1
          rw [hlast] at u2
          omega
        · cases ha
  unfold run at h
  cases ht : tileOf ntiles name with
  | none => rw [ht] at h; cases h
  | some t =>
    rw [ht] at h
    simp only [bind, Except.bind] at h
    split at h
    · cases h
    · cases hx1 : axisStart Err.notContiguousX xaxis with
      | error e => rw [hx1] at h; cases h
      | ok imin =>
        rw [hx1] at h
        dsimp only at h
        cases hy1 : axisStart Err.notContiguousY yaxis with
        | error e => rw [hy1] at h; cases h
        | ok jmin =>
          rw [hy1] at h
          dsimp only at h
          unfold readBlock at h
          by_cases hc : 0 ≤ 2 * jmin - 2 ∧ 0 ≤ 2 * imin - 2 ∧ 2 * jmin - 2 + ((2 * yaxis.length + 1 : Nat) : Int) ≤ (files t).nyp
              ∧ 2 * imin - 2 + ((2 * xaxis.length + 1 : Nat) : Int) ≤ (files t).nxp
          · simp only [if_pos hc, pure, Except.pure] at h
            injection h with h
            subst h
            dsimp only
            refine ⟨(imin - 1).toNat, (jmin - 1).toNat, ?_, ?_, by omega, by omega⟩
            · rw [key xaxis _ imin hx hx1]
              apply List.map_congr_left
              intro i _
              omega
            · rw [key yaxis _ jmin hy hy1]
              apply List.map_congr_left
              intro i _
              omega
          · simp only [if_neg hc] at h
            cases h

/-- C88, a defect: only the ends of an axis are looked at, so a file with columns 1, 5 and 3 is taken for one with columns
1, 2 and 3. -/
theorem C88_inner_wrong : (run 1 "r.tile1.nc".toList [(1 : ℚ), 5, 3] [1] fun _ => ⟨11, 11, fun _ i => i, fun _ _ => 0⟩).toOption.map
    (fun o => (o.nx, o.x 0 2)) = some (3, 2) := by
  decide +kernel

end Verif
