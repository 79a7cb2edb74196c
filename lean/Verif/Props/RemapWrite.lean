import Verif.Lemmas.RemapWrite
import Verif.Props.RemapDest
/-
C92: the variables of the file written by remap_land.
-/
namespace Verif

open Verif.RemapLand Verif.Spec.RemapLand

variable {K : Type} [Field K]

/-- C92, partial: `tile_index` of the new file of a face lists the tiles in the order of `order`, the index of tile `n` of
point `p` being `n * npts + p`. This is the same for every number of processes and every distribution of the points. Missing
for the full property: cells with more tiles than there is room for, as in C91. -/
theorem C92_index_partial (t : FileType) (ntile npts : Nat) (cells : Nat → Cell K) (sizes : List Nat)
    (hsum : sizes.sum = npts) (h1 : ∀ i < npts, OneEach (cells i))
    (hcap : ∀ i < npts, (cellTiles (cells i)).length ≤ ntile) :
    written t ntile cells sizes (fun isc s => idxDst ntile npts isc s.slots)
      = .ok ((order t ntile npts cells).map fun np => some (np.1 * npts + np.2)) := by
  subst hsum
  apply written_ok t ntile cells sizes h1 hcap _ (fun n p => some (n * sizes.sum + p))
  · intro o m s hom hs i hi n hn
    unfold idxDst
    rw [hs i hi n hn, has_iff_filter]
    congr 2
    rw [Nat.mul_add_mod, Nat.mod_eq_of_lt hn, Nat.mul_add_div (by omega), Nat.div_eq_of_lt hn]
    omega
  · exact Or.inr fun _ _ _ _ _ => rfl

/-- C92, partial: every other variable has its values in the same order, so the `k`-th value belongs to the tile of the `k`-th
element of `tile_index`; `v` is the value of a tile. Missing for the full property: as for `C92_index_partial`, and values
equal to the fill value in a file of one kind, see `C92_fill_wrong`. -/
theorem C92_values_partial {α : Type} (t : FileType) (ntile npts : Nat) (cells : Nat → Cell K) (sizes : List Nat)
    (hsum : sizes.sum = npts) (h1 : ∀ i < npts, OneEach (cells i))
    (hcap : ∀ i < npts, (cellTiles (cells i)).length ≤ ntile) (v : DTile K → Option α)
    (hv : t = .land ∨ t = .cana ∨ t = .snow ∨ ∀ d, (v d).isSome) :
    written t ntile cells sizes (fun _ s k => (s.slots k).bind v)
      = .ok ((order t ntile npts cells).map fun np => ((cellTiles (cells np.2))[np.1]?).bind v) := by
  subst hsum
  apply written_ok t ntile cells sizes h1 hcap _ (fun n p => ((cellTiles (cells p))[n]?).bind v)
  · intro o m s hom hs i hi n hn
    rw [hs i hi n hn]
    unfold has
    cases (cellTiles (cells (o + i)))[n]? with
    | none => rfl
    | some d => cases h : inFile t d.kind <;> simp [h, Option.filter_some]
  · rcases hv with rfl | rfl | rfl | h
    · exact Or.inl rfl
    · exact Or.inl rfl
    · exact Or.inl rfl
    · refine Or.inr fun n p _ _ hh => ?_
      unfold has at hh
      cases hc : (cellTiles (cells p))[n]? with
      | none => rw [hc] at hh; cases hh
      | some d => exact h d

/-- C92: the elements of `tile_index` are strictly increasing, and a program that reads the file finds for each of them the
cell and the number of the tile. -/
theorem C92_increasing (t : FileType) (ntile nx ny : Nat) (cells : Nat → Cell K) :
    ((order t ntile (nx * ny) cells).map fun np => np.1 * (nx * ny) + np.2).Pairwise (· < ·)
    ∧ ∀ np ∈ order t ntile (nx * ny) cells, cellOf nx ny (np.1 * (nx * ny) + np.2) = np.2
      ∧ (np.1 * (nx * ny) + np.2) / (nx * ny) = np.1 := by
  have hmem : ∀ np ∈ order t ntile (nx * ny) cells, np.1 < ntile ∧ np.2 < nx * ny := by
    intro np h
    unfold order at h
    simp only [List.mem_flatMap, List.mem_range, List.mem_map, List.mem_filter] at h
    obtain ⟨n, hn, p, ⟨hp, -⟩, rfl⟩ := h
    exact ⟨hn, hp⟩
  refine ⟨?_, fun np h => ?_⟩
  · rw [List.pairwise_map]
    unfold order
    rw [List.pairwise_flatMap]
    constructor
    · intro n _
      rw [List.pairwise_map]
      refine List.Pairwise.imp ?_ (List.Pairwise.filter _ List.pairwise_lt_range)
      intro a b hab
      dsimp only
      omega
    · refine List.Pairwise.imp ?_ List.pairwise_lt_range
      intro n n' hn x hx y hy
      simp only [List.mem_map, List.mem_filter, List.mem_range] at hx hy
      obtain ⟨p, ⟨hp, -⟩, rfl⟩ := hx
      obtain ⟨p', ⟨hp', -⟩, rfl⟩ := hy
      dsimp only
      have : (n + 1) * (nx * ny) ≤ n' * (nx * ny) := Nat.mul_le_mul_right _ hn
      rw [Nat.succ_mul] at this
      omega
  · obtain ⟨-, hp⟩ := hmem np h
    have hnx : 0 < nx := Nat.pos_of_ne_zero fun h0 => by rw [h0, Nat.zero_mul] at hp; omega
    have hny : 0 < ny := Nat.pos_of_ne_zero fun h0 => by rw [h0, Nat.mul_zero] at hp; omega
    constructor
    · unfold cellOf
      have e1 : np.1 * (nx * ny) + np.2 = nx * (np.1 * ny) + np.2 := by rw [Nat.mul_left_comm]
      rw [e1, Nat.mul_add_div hnx, Nat.mul_add_mod, Nat.add_comm (np.1 * ny), Nat.add_mul_mod_self_right,
        Nat.mod_eq_of_lt ((Nat.div_lt_iff_lt_mul hnx).2 (by rwa [Nat.mul_comm])), Nat.mul_comm, Nat.div_add_mod]
    · rw [Nat.mul_comm, Nat.mul_add_div (Nat.mul_pos hnx hny), Nat.div_eq_of_lt hp, Nat.add_zero]

/-- Two processes, and one -/
example : (written .soil 4 c91Cells [1, 1] fun isc s => idxDst 4 2 isc s.slots).toOption
    = some [some 0, some 1, some 2] := by decide +kernel

example : (written .land 4 c91Cells [2] fun isc s => idxDst 4 2 isc s.slots).toOption
    = some [some 0, some 1, some 2, some 4, some 6] := by decide +kernel

example : (written .land 4 c91Cells [2] fun _ s k => (s.slots k).bind fun d => some d.tag).toOption
    = some [some 1, some 4, some 2, some 7, some 9] := by decide +kernel

/-- C92, a defect: in a file of one kind a value equal to the fill value is left out, and all values after it move to the tile
before. Here the first of three tiles has such a value; the second value of the new file belongs to the third tile. -/
theorem C92_fill_wrong : ∃ (cells : Nat → Cell ℚ) (v : DTile ℚ → Option Int),
    (∀ i < 2, OneEach (cells i)) ∧ (∀ i < 2, (cellTiles (cells i)).length ≤ 4)
    ∧ ((order .soil 4 2 cells).map fun np => ((cellTiles (cells np.2))[np.1]?).bind v) = [none, some 4, some 2]
    ∧ (written .soil 4 cells [2] fun _ s k => (s.slots k).bind v).toOption = some [some 4, some 2] :=
  ⟨c91Cells, fun d => if d.tag = 1 then none else some d.tag,
    fun i hi => by unfold OneEach; interval_cases i <;> decide, by decide, by decide +kernel, by decide +kernel⟩

end Verif
