import Mathlib.Data.List.Nodup
import Verif.Model.DataFiles
/-
C157: names of data files.
-/
namespace Verif
open DataFiles

namespace Spec.DataFiles
/-- A name without `.nc` at its end. -/
def strip (file : Str) : Str := if ['.', 'n', 'c'] <:+ file then file.take (file.length - 3) else file
/-- The file of a tile: directory, slash, name, dot, tile if there are several, `.nc`. -/
def full (dir : Option Str) (several : Bool) (file tile : Str) : Str :=
  (match dir with | some d => d ++ ['/'] | none => []) ++ strip file ++ (if several then '.' :: tile else []) ++ ['.', 'n', 'c']
/-- Directory and name. -/
def stem (dir : Option Str) (s : Str) : Str := match dir with | some d => d ++ '/' :: s | none => s
end Spec.DataFiles
open Spec.DataFiles

private theorem suffix_iff (file : Str) (h : 3 ≤ file.length) : file.drop (file.length - 3) = nc ↔ ['.', 'n', 'c'] <:+ file := by
  rw [List.suffix_iff_eq_drop]
  exact ⟨fun q => q.symm, fun q => q.symm⟩

private theorem base_eq {file : Str} (h : 3 ≤ file.length) (hl : (strip file).length < 255) : base file = some (strip file) := by
  unfold base
  rw [if_neg (by omega)]
  unfold strip at hl ⊢
  by_cases c : ['.', 'n', 'c'] <:+ file
  · rw [if_pos c] at hl ⊢
    rw [List.length_take] at hl
    rw [if_pos ((suffix_iff file h).2 c), if_pos (by omega)]
  · rw [if_neg c] at hl ⊢
    rw [if_neg (fun q => c ((suffix_iff file h).1 q)), if_pos hl]

private theorem full_several (dir : Option Str) (file tile : Str) : full dir true file tile = stem dir (strip file) ++ '.' :: (tile ++ nc) := by
  cases dir <;> simp [full, stem, nc]

private theorem full_one (dir : Option Str) (file tile : Str) : full dir false file tile = stem dir (strip file) ++ nc := by
  cases dir <;> simp [full, stem, nc]

private theorem dir_ok {dir : Option Str} {s : Str} (h : (stem dir s).length < 255) : withDir dir s = some (some (stem dir s)) := by
  cases dir with
  | none => rfl
  | some d =>
    unfold stem at h
    simp only at h
    rw [List.length_append, List.length_cons] at h
    unfold withDir stem
    simp only
    rw [if_neg (by omega), if_pos (by omega)]

private theorem stem_len (dir : Option Str) (s : Str) : s.length ≤ (stem dir s).length := by
  cases dir with
  | none => exact Nat.le_refl _
  | some d => unfold stem; simp only; rw [List.length_append, List.length_cons]; omega

private theorem per_ok (s : Str) : ∀ ts : List Str, (∀ t ∈ ts, s.length + t.length ≤ 250) → perTile s ts = .ok (ts.map fun t => s ++ '.' :: (t ++ nc))
  | [], _ => rfl
  | t :: ts, h => by
    have := h t List.mem_cons_self
    rw [perTile, if_neg (by omega), per_ok s ts (fun x hx => h x (List.mem_cons_of_mem _ hx))]
    rfl

private theorem per_error (s : Str) : ∀ ts : List Str, (∃ t ∈ ts, 250 < s.length + t.length) → perTile s ts = .error
  | [], h => by obtain ⟨t, ht, _⟩ := h; cases ht
  | t :: ts, h => by
    rw [perTile]
    by_cases c : 255 - 5 < s.length + t.length
    · rw [if_pos c]
    · rw [if_neg c, per_error s ts]
      obtain ⟨x, hx, hl⟩ := h
      rcases List.mem_cons.1 hx with rfl | q
      · omega
      · exact ⟨x, q, hl⟩

/-- The file of each tile is `dir/name.tile.nc`, without `tile` if there is one tile only, whether `.nc` was given or not, if these names and their zero byte fit into 255 bytes. -/
theorem C157_names_partial (dir : Option Str) (tiles : List Str) (file : Str) (h3 : 3 ≤ file.length) (ht : tiles ≠ [])
    (hl : ∀ t ∈ tiles, (full dir (decide (1 < tiles.length)) file t).length < 255) :
    names true dir tiles file = .ok (tiles.map (full dir (decide (1 < tiles.length)) file)) := by
  obtain ⟨t0, m0⟩ := List.exists_mem_of_ne_nil tiles ht
  have hs : (stem dir (strip file)).length < 252 := by
    have := hl t0 m0
    by_cases c : 1 < tiles.length
    · rw [decide_eq_true c, full_several] at this
      simp only [List.length_append, List.length_cons, nc, List.length_nil] at this
      omega
    · rw [decide_eq_false c, full_one] at this
      simp only [List.length_append, List.length_cons, nc, List.length_nil] at this
      omega
  have h1 := stem_len dir (strip file)
  unfold names
  rw [base_eq h3 (by omega)]
  simp only
  rw [dir_ok (by omega)]
  simp only
  by_cases c : 1 < tiles.length
  · rw [if_pos c, if_pos trivial, per_ok]
    · rw [decide_eq_true c]
      congr 1
      exact List.map_congr_left fun t _ => (full_several dir file t).symm
    · intro t m
      have := hl t m
      rw [decide_eq_true c, full_several] at this
      simp only [List.length_append, List.length_cons, nc, List.length_nil] at this
      omega
  · rw [if_neg c, if_pos (by omega), decide_eq_false c]
    congr 1
    exact List.map_congr_left fun t _ => (full_one dir file t).symm

/-- Files of different tiles are different. -/
theorem C157_distinct (dir : Option Str) (tiles : List Str) (file : Str) (hn : tiles.Nodup) (h3 : 3 ≤ file.length) (ht : tiles ≠ [])
    (hl : ∀ t ∈ tiles, (full dir (decide (1 < tiles.length)) file t).length < 255) : ∃ l, names true dir tiles file = .ok l ∧ l.Nodup ∧ l.length = tiles.length := by
  refine ⟨_, C157_names_partial dir tiles file h3 ht hl, ?_, List.length_map _⟩
  by_cases c : 1 < tiles.length
  · rw [decide_eq_true c]
    refine List.Nodup.map ?_ hn
    intro a b hab
    rw [full_several, full_several] at hab
    have := List.append_cancel_left hab
    injection this with _ this
    exact List.append_cancel_right this
  · have : tiles.length = 1 := by
      have := List.length_pos_iff.2 ht
      omega
    obtain ⟨t, rfl⟩ := List.length_eq_one_iff.1 this
    exact List.nodup_singleton _

/-- Of several tiles a name that is too long ends the program with a message. -/
theorem C157_long (dir : Option Str) (tiles : List Str) (file : Str) (h3 : 3 ≤ file.length) (hs : 1 < tiles.length) (hd : (stem dir (strip file)).length < 255)
    (hl : ∃ t ∈ tiles, 255 ≤ (full dir true file t).length) : names true dir tiles file = .error := by
  have h1 := stem_len dir (strip file)
  unfold names
  rw [base_eq h3 (by omega)]
  simp only
  rw [dir_ok hd]
  simp only
  rw [if_pos hs, if_pos trivial, per_error]
  obtain ⟨t, m, q⟩ := hl
  refine ⟨t, m, ?_⟩
  rw [full_several] at q
  simp only [List.length_append, List.length_cons, nc, List.length_nil] at q
  omega

/-- Of one tile the array is written beyond its end: there is no test. -/
theorem C157_one_tile_wrong (mosaic : Bool) (tile file : Str) (h3 : 3 ≤ file.length) (h1 : 252 ≤ (strip file).length) (h2 : (strip file).length < 255) :
    names mosaic none [tile] file = .broken := by
  unfold names
  rw [base_eq h3 h2]
  show (if 1 < [tile].length then _ else _) = _
  rw [if_neg (by simp)]
  rw [if_neg (by omega)]

/-- With a directory the test forgets the slash. -/
theorem C157_slash_wrong (mosaic : Bool) (d : Str) (tiles : List Str) (file : Str) (h3 : 3 ≤ file.length) (h : d.length + (strip file).length = 254) :
    names mosaic (some d) tiles file = .broken := by
  unfold names
  rw [base_eq h3 (by omega)]
  simp only
  unfold withDir
  simp only
  rw [if_neg (by omega), if_neg (by omega)]

/-- A name of one or two characters: bytes before it are read. -/
theorem C157_short_wrong (mosaic : Bool) (dir : Option Str) (tiles : List Str) (file : Str) (h : file.length < 3) : names mosaic dir tiles file = .broken := by
  unfold names base
  rw [if_pos h]

/-- Without `--output_file` and with the same directory, the output has the names of the input if both grids have one tile, or tiles of the same names: `mpp_open` (mpp_io.c 153-175) then creates anew the file that is open for reading (that call is not modelled). -/
theorem C157_overwrite_wrong (dir : Option Str) (tilesIn tilesOut : List Str) (file : Str) (h : tilesIn = tilesOut ∨ (tilesIn.length = 1 ∧ tilesOut.length = 1)) :
    (inOut true dir dir tilesIn tilesOut file none).1 = (inOut true dir dir tilesIn tilesOut file none).2 := by
  unfold inOut
  rcases h with rfl | ⟨h1, h2⟩
  · rfl
  · match tilesIn, tilesOut, h1, h2 with
    | [a], [b], _, _ => rfl

def c157Tiles : List Str := [['t', '1'], ['t', '2']]

example : names true (some ['d']) c157Tiles ['a', '.', 'n', 'c'] = .ok [['d', '/', 'a', '.', 't', '1', '.', 'n', 'c'], ['d', '/', 'a', '.', 't', '2', '.', 'n', 'c']] := by
  rw [C157_names_partial (some ['d']) c157Tiles ['a', '.', 'n', 'c'] (by decide) (by decide) (by decide)]; decide

example : ∃ l, names true none c157Tiles ['o', 'u', 't'] = .ok l ∧ l.Nodup ∧ l.length = 2 := C157_distinct none c157Tiles ['o', 'u', 't'] (by decide) (by decide) (by decide) (by decide)

/-- A name of 250 characters for two tiles, and for one. -/
example : names true none c157Tiles (List.replicate 250 'a') = .error := by decide +kernel
example : names true none [['t', '1']] (List.replicate 253 'a') = .broken := by
  have e : strip (List.replicate 253 'a') = List.replicate 253 'a' := by decide +kernel
  exact C157_one_tile_wrong true _ _ (by rw [List.length_replicate]; decide) (by rw [e, List.length_replicate]; decide) (by rw [e, List.length_replicate]; decide)

/-- From one lon-lat grid to another. -/
example : (inOut true none none [['t', '1']] [['t', 'x']] ['a', '.', 'n', 'c'] none).2 = .ok [['a', '.', 'n', 'c']] ∧
    (inOut true none none [['t', '1']] [['t', 'x']] ['a', '.', 'n', 'c'] none).1 = (inOut true none none [['t', '1']] [['t', 'x']] ['a', '.', 'n', 'c'] none).2 :=
  ⟨by decide, C157_overwrite_wrong none _ _ _ (.inr ⟨rfl, rfl⟩)⟩

end Verif
