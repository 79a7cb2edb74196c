import Verif.Lemmas.Compress
import Mathlib.Tactic.IntervalCases
/-
C18: compression by gathering.

The statement about packing fails if an index is negative (`C18_pack_negative`), and for the integer
routine always (`C18_put_int_no_effect`); `C18_pack_after_unpack_partial` is for the real routine and
indices that are not negative.
-/
namespace Verif
open Compress Spec

/-- Unpacking succeeds; every grid point named by an index gets the value stored for it (the last one,
should the index be repeated) and its mask is set; every other grid point keeps its value and its
mask, or gets the ocean value if one is given. -/
theorem C18_unpack {α : Type} (dims : List CDim) (hw : WellFormed dims) (buffer : List α)
    (hb : buffer.length = (fileDims dims).prod) (ocean : Option α) (data : List α) (mask : List Bool)
    (hd : data.length = (gridDims dims).prod) (hm : mask.length = (gridDims dims).prod) :
    ∃ data' mask', getCompressed dims buffer ocean data mask = some (data', mask') ∧
      data'.length = data.length ∧ mask'.length = mask.length ∧
      ∀ g, InBox (gridDims dims) g →
        (∀ i, InBox (fileDims dims) i → pointOf dims i = some g →
          (∀ i', InBox (fileDims dims) i' → linF (fileDims dims) i < linF (fileDims dims) i' →
            pointOf dims i' ≠ some g) →
          data'[linF (gridDims dims) g]? = buffer[linF (fileDims dims) i]? ∧
          mask'[linF (gridDims dims) g]? = some true) ∧
        ((∀ i, InBox (fileDims dims) i → pointOf dims i ≠ some g) →
          (match ocean with
            | none => data'[linF (gridDims dims) g]? = data[linF (gridDims dims) g]?
            | some ov => data'[linF (gridDims dims) g]? = some ov) ∧
          mask'[linF (gridDims dims) g]? = mask[linF (gridDims dims) g]?) := by
  obtain ⟨r, hr, l1, l2, l3, hg⟩ := getLoop_spec dims hw buffer hb buffer (dims.map fun _ => 0)
    { data := data, mask := mask, hit := List.replicate data.length false }
    (fun _ => ⟨inBox_zero dims hw, by rw [linF_zero]; rfl⟩) hd hm (by simp [hd])
  have hne : ∀ i, InBox (fileDims dims) i → buffer ≠ [] := by
    intro i hi hnil
    have := linF_lt hi
    rw [hnil] at hb
    simp at hb
    omega
  have hz : ∀ i, linF (fileDims dims) (dims.map fun _ => 0) ≤ linF (fileDims dims) i := by
    intro i; rw [linF_zero]; exact Nat.zero_le _
  unfold getCompressed
  simp only [hr]
  cases ocean with
  | none =>
    refine ⟨r.data, r.mask, rfl, by rw [l1, hd], by rw [l2, hm], fun g hgb => ?_⟩
    obtain ⟨ga, gb⟩ := hg g hgb
    refine ⟨fun i hi hp hlast => ?_, fun hno => ?_⟩
    · obtain ⟨a, b, _⟩ := ga i (hne i hi) hi (hz i) hp hlast
      exact ⟨a, b⟩
    · obtain ⟨a, b, _⟩ := gb (fun i _ hi _ => hno i hi)
      exact ⟨a, b⟩
  | some ov =>
    obtain ⟨f1, f2⟩ := fillOcean_spec ov r.data r.hit (by rw [l1, l3])
    refine ⟨_, r.mask, rfl, by rw [f1, l1, hd], by rw [l2, hm], fun g hgb => ?_⟩
    obtain ⟨ga, gb⟩ := hg g hgb
    refine ⟨fun i hi hp hlast => ?_, fun hno => ?_⟩
    · obtain ⟨a, b, c⟩ := ga i (hne i hi) hi (hz i) hp hlast
      exact ⟨by rw [(f2 _).1 c, a], b⟩
    · obtain ⟨_, b, c⟩ := gb (fun i _ hi _ => hno i hi)
      refine ⟨(f2 _).2 ?_, b⟩
      rw [c]
      have := linF_lt hgb
      simp [hd, this]

/-- Packing what was unpacked, with the same indices, gives back the stored values. Missing from the full
statement: negative indices (see `C18_pack_negative`). -/
theorem C18_pack_after_unpack_partial {α : Type} (dims : List CDim) (hw : WellFormed dims)
    (hr : NoRepeats dims) (hn : NoNegative dims) (buffer : List α)
    (hb : buffer.length = (fileDims dims).prod) (ocean : Option α) (data : List α) (mask : List Bool)
    (hd : data.length = (gridDims dims).prod) (hm : mask.length = (gridDims dims).prod) :
    ∃ data' mask', getCompressed dims buffer ocean data mask = some (data', mask') ∧
      putCompressed dims data' = some buffer := by
  obtain ⟨data', mask', h, _, _, hg⟩ := C18_unpack dims hw buffer hb ocean data mask hd hm
  refine ⟨data', mask', h, ?_⟩
  have := putLoop_spec dims hw hn data' buffer hb (fun i g hi hp => by
    refine ((hg g (pointOf_inBox dims i g hw hi hp)).1 i hi hp ?_).1
    intro i' hi' hlt hp'
    have := pointOf_inj dims i i' g hw hr hi hi' hp hp'
    subst this
    exact lt_irrefl _ hlt) (varsize dims) (dims.map fun _ => 0)
    (fun _ => ⟨inBox_zero dims hw, by rw [linF_zero]; simp [varsize, fileDims]⟩)
  unfold putCompressed
  rw [this]
  simp [varsize, fileDims]

/-! ### Concrete cases -/

/-- Three land points of a grid of 6, times 2 levels. -/
def exCDims (ix : List Int) : List CDim := [CDim.mk 3 (some (ix, 6)), CDim.mk 2 none]

example : WellFormed (exCDims [4, 0, 3]) ∧ NoRepeats (exCDims [4, 0, 3]) ∧
    NoNegative (exCDims [4, 0, 3]) := by
  refine ⟨?_, ?_, ?_⟩
  · intro d hd
    simp only [exCDims, List.mem_cons, List.not_mem_nil, or_false] at hd
    rcases hd with rfl | rfl
    · refine ⟨by simp, fun ix n h => ?_⟩
      cases h
      exact ⟨rfl, by decide⟩
    · exact ⟨by simp, fun ix n h => by cases h⟩
  · intro d hd ix n h i j v hi hj h0
    simp only [exCDims, List.mem_cons, List.not_mem_nil, or_false] at hd
    rcases hd with rfl | rfl
    · cases h
      have hlt : ∀ {k : Nat}, ([4, 0, 3] : List Int)[k]? = some v → k < 3 := by
        intro k hk
        exact (List.getElem?_eq_some_iff.1 hk).1
      have hi' := hlt hi
      have hj' := hlt hj
      interval_cases i <;> interval_cases j <;> first | rfl | (simp at hi hj; omega)
    · cases h
  · intro d hd ix n h
    simp only [exCDims, List.mem_cons, List.not_mem_nil, or_false] at hd
    rcases hd with rfl | rfl
    · cases h; decide
    · cases h

example : getCompressed (exCDims [4, 0, 3]) [1, 2, 3, 4, 5, 6] none
    (List.replicate 12 0) (List.replicate 12 false) =
    some ([2, 0, 0, 3, 1, 0, 5, 0, 0, 6, 4, 0],
      [true, false, false, true, true, false, true, false, false, true, true, false]) := by decide
example : getCompressed (exCDims [4, -1, 3]) [1, 2, 3, 4, 5, 6] (some 9)
    (List.replicate 12 0) (List.replicate 12 false) =
    some ([9, 9, 9, 3, 1, 9, 9, 9, 9, 6, 4, 9],
      [false, false, false, true, true, false, false, false, false, true, true, false]) := by decide

/-- A negative index, which marks no point, makes the packing routine read outside the array. -/
theorem C18_pack_negative {α : Type} (src : List α) :
    putCompressed (exCDims [-1, 4, 3]) src = none := by
  rfl

/-- The integer packing routine never changes the file. -/
theorem C18_put_int_no_effect {α : Type} (dims : List CDim) (src old r : List α)
    (h : putCompressedInt dims src old = some r) : r = old := by
  unfold putCompressedInt at h
  obtain ⟨_, _, rfl⟩ := Option.map_eq_some_iff.1 h
  rfl

example : putCompressedInt (exCDims [4, 0, 3]) [0, 1, 2, 3, 4, 5, 6, 7, 8, 9, 10, 11] [7, 7, 7, 7, 7, 7]
    = some [7, 7, 7, 7, 7, 7] := by decide

end Verif
