import Verif.Lemmas.RemapDest
import Mathlib.Algebra.Field.Rat
import Mathlib.Algebra.BigOperators.Group.List.Basic
import Mathlib.Algebra.BigOperators.Ring.List
import Mathlib.Tactic.FieldSimp
import Mathlib.Tactic.IntervalCases
/-
C91: the tiles of the destination grid in remap_land.
-/
namespace Verif

open Verif.RemapLand Verif.Spec.RemapLand

variable {K : Type} [Field K]

/-- C91, partial: if no destination cell gets more tiles than there is room for (`ntile`, the number of the source file), the
tiles are stored in a fixed order that does not depend on the type of the file: soil, glacier, lake. A file of a given type
has at place `n` of a cell the `n`-th tile of the cell if it is of the kind of the file, and nothing otherwise. So a tile has
the same place in all files. Missing for the full property: cells with more tiles, see `C91_room_wrong`. -/
theorem C91_tiles_partial (t : FileType) (ntile nxc : Nat) (cells : Nat → Cell K)
    (h1 : ∀ i < nxc, OneEach (cells i)) (hcap : ∀ i < nxc, (cellTiles (cells i)).length ≤ ntile) :
    ∃ s, dest t ntile nxc cells = .ok s
      ∧ (∀ i < nxc, s.count i = (cellTiles (cells i)).length)
      ∧ (∀ i < nxc, ∀ n < ntile, s.slots (ntile * i + n) = ((cellTiles (cells i))[n]?).filter (fun d => inFile t d.kind))
      ∧ s.nidx = ((List.range nxc).map fun i => ((cellTiles (cells i)).filter fun d => inFile t d.kind).length).sum := by
  obtain ⟨s, e, a1, a2, -, a4⟩ := destLoop_ok t ntile nxc cells h1 hcap nxc (le_refl _)
  exact ⟨s, e, fun i hi => by rw [a1, if_pos hi], a2, a4⟩

/-- C91: a cell that has a glacier (or lake) in the cold restart file, while the source cell has not exactly one, stops the
program. -/
theorem C91_rejected (t : FileType) (ntile nxc : Nat) (cells : Nat → Cell K) (i : Nat) (hi : i < nxc)
    (h1 : ¬ OneEach (cells i)) : ∃ e, dest t ntile nxc cells = .error e :=
  destLoop_error t _ ntile cells i h1 nxc hi

theorem frac_sum_range (l : List (DTile K)) (n : Nat) (h : l.length ≤ n) :
    ((List.range n).map fun k => match l[k]? with | none => 0 | some d => d.frac).sum = (l.map (·.frac)).sum := by
  induction l generalizing n with
  | nil =>
    apply List.sum_eq_zero
    intro x hx
    simp only [List.mem_map] at hx
    obtain ⟨k, -, hk⟩ := hx
    rw [← hk]
    rfl
  | cons d l ih =>
    cases n with
    | zero => simp at h
    | succ n =>
      rw [List.range_succ_eq_map, List.map_cons, List.sum_cons, List.map_map, List.map_cons, List.sum_cons,
        ← ih n (by simpa using h)]
      rfl

/-- C91, partial: the fractions of the tiles of each cell of the new land file add up to the fractions of the cell in the cold
restart file. -/
theorem C91_fractions_partial (ntile nxc : Nat) (cells : Nat → Cell K)
    (h1 : ∀ i < nxc, OneEach (cells i)) (hcap : ∀ i < nxc, (cellTiles (cells i)).length ≤ ntile)
    (hne : ∀ i < nxc, (cells i).soil.isSome → ((cells i).soilSrc.map (·.frac)).sum ≠ 0) :
    ∃ s, dest .land ntile nxc cells = .ok s ∧ ∀ i < nxc,
      ((List.range ntile).map fun n => match s.slots (ntile * i + n) with | none => 0 | some d => d.frac).sum
        = (cells i).soil.getD 0 + (cells i).glac.getD 0 + (cells i).lake.getD 0 := by
  obtain ⟨s, e, -, a2, -⟩ := C91_tiles_partial .land ntile nxc cells h1 hcap
  refine ⟨s, e, fun i hi => ?_⟩
  have : ((List.range ntile).map fun n => match s.slots (ntile * i + n) with | none => (0 : K) | some d => d.frac)
      = (List.range ntile).map fun n => match (cellTiles (cells i))[n]? with | none => 0 | some d => d.frac := by
    apply List.map_congr_left
    intro n hn
    rw [a2 i hi n (List.mem_range.1 hn)]
    have : (fun d : DTile K => inFile .land d.kind) = fun _ => true := rfl
    rw [this]
    cases (cellTiles (cells i))[n]? <;> rfl
  rw [this, frac_sum_range _ _ (hcap i hi)]
  have hne := hne i hi
  obtain ⟨hg, hl⟩ := h1 i hi
  clear this
  revert hne hg hl
  obtain ⟨so, gl, la, ss, gs, ls, f1, f2, f3⟩ := cells i
  intro hne hg hl
  unfold cellTiles
  rw [List.map_append, List.map_append, List.sum_append, List.sum_append]
  have one : ∀ (kind : Kind) (cold : Option K) (src : List (Slot K)) (face : Nat), (cold.isSome → src.length = 1) →
      ((oneTiles kind cold src face).map (·.frac)).sum = cold.getD 0 := by
    intro kind cold src face h
    cases cold with
    | none => rfl
    | some c =>
      obtain ⟨x, rfl⟩ := List.length_eq_one_iff.1 (h rfl)
      simp [oneTiles]
  rw [one _ _ _ _ hg, one _ _ _ _ hl]
  congr 2
  unfold soilTiles
  cases so with
  | none => rfl
  | some c =>
    have h0 := hne rfl
    dsimp only at h0 ⊢
    rw [List.map_map]
    have : ((fun d : DTile K => d.frac) ∘ fun x : Slot K =>
        (⟨.soil, x.frac * c / (ss.map (·.frac)).sum, x.tag, x.tag2, x.idx, f1⟩ : DTile K))
        = fun x : Slot K => x.frac * (c / (ss.map (·.frac)).sum) := by
      funext x
      simp only [Function.comp, mul_div_assoc]
    rw [this, List.sum_map_mul_right]
    simp only [Option.getD_some]
    field_simp

/-- Two soil tiles, a glacier and a lake; a soil tile -/
def c91Cells : Nat → Cell ℚ
  | 0 => ⟨some (1 / 2), some (1 / 4), some (1 / 8), [⟨1 / 4, 1, some 3, 0, 0⟩, ⟨1 / 8, 2, none, 5, 1⟩], [⟨1, 7, none, 2, 0⟩],
      [⟨1, 9, none, 3, 0⟩], 0, 1, 2⟩
  | _ => ⟨some 1, none, none, [⟨1 / 3, 4, none, 9, 0⟩], [], [], 0, 0, 0⟩

example : (∀ i < 2, OneEach (c91Cells i)) ∧ (∀ i < 2, (cellTiles (c91Cells i)).length ≤ 4)
    ∧ (∀ i < 2, (c91Cells i).soil.isSome → ((c91Cells i).soilSrc.map (·.frac)).sum ≠ 0) := by
  refine ⟨fun i hi => ?_, by decide, by decide +kernel⟩
  unfold OneEach
  interval_cases i <;> decide

example : (dest .lake 4 2 c91Cells).toOption.map (fun s => (List.range 8).map fun k => (s.slots k).map (·.tag))
    = some [none, none, none, some 9, none, none, none, none] := by decide +kernel

example : ¬ OneEach (⟨none, some 1, none, [], [], [], 0, 0, 0⟩ : Cell ℚ) := by
  unfold OneEach
  decide

/-- C91, a defect: the room for tiles is that of the source file, but soil, glacier and lake of a destination cell come from
different source cells. With room for two tiles, a cell with two soil tiles and a glacier loses the glacier: it is stored in
the next cell and replaced there. The program goes on, with a number of tiles that is too large by one. -/
theorem C91_room_wrong : ∃ (cells : Nat → Cell ℚ) (s : Dst ℚ), dest .land 2 2 cells = .ok s
    ∧ (∀ i < 2, OneEach (cells i)) ∧ (cellTiles (cells 0)).length = 3
    ∧ ((List.range 4).map fun k => (s.slots k).map (·.kind)) = [some .soil, some .soil, some .soil, none]
    ∧ s.nidx = 4 := by
  refine ⟨fun i => if i = 0 then ⟨some 1, some 1, none, [⟨1, 1, none, 0, 0⟩, ⟨1, 2, none, 1, 0⟩], [⟨1, 3, none, 0, 0⟩], [],
      0, 0, 0⟩ else ⟨some 1, none, none, [⟨1, 1, none, 2, 0⟩], [], [], 0, 0, 0⟩, _, rfl, ?_, rfl, ?_, rfl⟩
  · intro i hi
    unfold OneEach
    interval_cases i <;> decide
  · decide +kernel

/-- C91, a defect: for `fire` the positions are counted within each kind, as for `soil` or `lake`, but the tiles of all kinds
are written. So a soil tile and a lake of the same source file both have position 0 and get the same data. -/
theorem C91_fire_wrong : ∃ soil lake : Info ℚ,
    tileInfo 2 1 1 0 1 FileType.fire.allTile [⟨some 5, none, 0, 1⟩, ⟨none, none, 1, 1⟩] = .ok soil
    ∧ tileInfo 2 1 1 0 1 FileType.fire.allTile [⟨none, none, 0, 1⟩, ⟨some 7, none, 1, 1⟩] = .ok lake
    ∧ (soil.slots 0).map (·.idx) = some 0 ∧ (lake.slots 1).map (·.idx) = some 0
    ∧ inFile .fire .soil ∧ inFile .fire .lake :=
  ⟨_, _, rfl, rfl, rfl, rfl, rfl, rfl⟩

end Verif
