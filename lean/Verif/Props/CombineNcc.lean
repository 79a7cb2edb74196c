import Verif.Lemmas.CombineNcc
/-
C19: combine-ncc keeps every valid point with its data, sorted by grid index.
-/
namespace Verif
open CombineNcc Spec

/-- C19. For every family of input files there is one list of points, consisting of the places with a
valid (not negative) index, each once, sorted by index (`IsOutput`), such that the output dimension has
its length and, for every variable with any dimensions of positive length, the program touches no
element outside its buffers and the output variable has at each point the value which the input has at
that place, for all combinations of the other indices. -/
theorem C19_combine {α : Type} (files : List (CFile α)) :
    ∃ pts, IsOutput files pts ∧ outLen files = pts.length ∧
      ∀ (v : Nat) (lens : List Nat) (c : Nat) (fill : List Nat → α), c < lens.length →
        0 < lens.getD c 0 →
        ∃ out, combineVar files v lens c fill = some out ∧
          ∀ idx, InBox (lens.set c pts.length) idx →
            ∃ p, pts[idx.getD c 0]? = some p ∧ valAt files v c idx p = some (out idx) := by
  refine ⟨outPts files, outPts_isOutput files, (outPts_length files).symm, ?_⟩
  intro v lens c fill hc hpos
  unfold combineVar
  by_cases h0 : outLen files = 0
  · rw [if_pos h0]
    refine ⟨fill, rfl, ?_⟩
    intro idx hidx
    exfalso
    rw [outPts_length, h0] at hidx
    have hl := hidx.length_eq
    have := (List.forall₂_iff_get.1 hidx).2 c (by rw [hl]; simpa using hc) (by simpa using hc)
    simp at this
  rw [if_neg h0]
  -- any point of the output serves to show that the program runs through
  have hrun : ∃ out, (List.range (lens.prod / lens.getD c 0)).foldlM
      (doSlice files (reorder (allIndex files)) (outLen files) v lens c) fill = some out := by
    have hlt : 0 < (outPts files).length := by rw [outPts_length]; omega
    obtain ⟨out, ho, _⟩ := slices_spec files v lens c (List.replicate lens.length 0)
      ((outPts files)[0]) (by
        have : (List.replicate lens.length 0).getD c 0 = 0 := by
          simp [List.getD_eq_getElem?_getD, List.getElem?_replicate, hc]
        rw [this, List.getElem?_eq_getElem hlt]) (by simpa using hc) (List.range _) fill
    exact ⟨out, ho⟩
  obtain ⟨out, ho⟩ := hrun
  refine ⟨out, ho, ?_⟩
  intro idx hidx
  have hl : idx.length = lens.length := by have := hidx.length_eq; simpa using this
  have hcl : c < idx.length := by omega
  have hlt : idx.getD c 0 < (outPts files).length := by
    have := (List.forall₂_iff_get.1 hidx).2 c hcl (by simpa using hc)
    simp only [List.get_eq_getElem, List.getElem_set_self] at this
    rw [List.getD_eq_getElem?_getD, List.getElem?_eq_getElem hcl]
    exact this
  refine ⟨_, List.getElem?_eq_getElem hlt, ?_⟩
  obtain ⟨out', ho', hv⟩ := slices_spec files v lens c idx _ (List.getElem?_eq_getElem hlt) hcl
    (List.range (lens.prod / lens.getD c 0)) fill
  rw [ho] at ho'
  cases ho'
  apply hv
  left
  obtain ⟨ii, h1, h2⟩ := startOf_surj _ lens c idx hc hpos hidx
  exact ⟨ii, List.mem_range.2 h1, h2⟩

/-- C19. The index variable of the output holds the valid indices of all input files, each as often as
it occurs, in ascending order. -/
theorem C19_index {α : Type} (files : List (CFile α)) (len : Nat) (hlen : 0 < len)
    (fill : List Nat → Int) :
    ∃ out, combineVar (files.map asIndex) 0 [len] 0 fill = some out ∧
      ((List.range (outLen files)).map fun k => out [k]).Perm
        ((allIndex files).filter fun v => decide (0 ≤ v)) ∧
      ((List.range (outLen files)).map fun k => out [k]).Pairwise (· ≤ ·) := by
  obtain ⟨pts, ⟨hperm, hpw⟩, hl, hall⟩ := C19_combine (files.map asIndex)
  obtain ⟨out, ho, hv⟩ := hall 0 [len] 0 fill (by simp) (by simpa using hlen)
  have hol : outLen (files.map asIndex) = outLen files := by
    unfold outLen; rw [List.map_map]; rfl
  have hai : allIndex (files.map asIndex) = allIndex files := by
    unfold allIndex; rw [List.flatMap_map]; rfl
  have hout : ((List.range (outLen files)).map fun k => out [k]) =
      pts.map (idxAt (files.map asIndex)) := by
    rw [← hol, hl]
    apply List.ext_getElem
    · simp
    · intro i h1 h2
      have hi : i < pts.length := by simpa using h2
      obtain ⟨p, hp, hpv⟩ := hv [i] (by
        simp only [List.set_cons_zero]
        exact List.Forall₂.cons hi List.Forall₂.nil)
      have hp' : pts[i] = p := by
        have : [i].getD 0 0 = i := rfl
        rw [this, List.getElem?_eq_getElem hi] at hp
        exact Option.some.inj hp
      simp only [List.getElem_map, List.getElem_range, hp']
      have hmem : p ∈ places (files.map asIndex) := by
        have : p ∈ pts := by rw [← hp']; exact List.getElem_mem hi
        exact (List.mem_filter.1 (hperm.mem_iff.1 this)).1
      unfold valAt at hpv
      unfold idxAt
      cases hf : (files.map asIndex)[p.1]? with
      | none => rw [hf] at hpv; cases hpv
      | some f =>
        rw [hf] at hpv
        simp only [Option.map_some, Option.some.injEq] at hpv
        rw [← hpv]
        obtain ⟨g, _, rfl⟩ : ∃ g, files[p.1]? = some g ∧ asIndex g = f := by
          rw [List.getElem?_map] at hf
          exact Option.map_eq_some_iff.1 hf
        simp [asIndex, List.getD_eq_getElem?_getD]
  refine ⟨out, ho, ?_, ?_⟩
  · rw [hout, ← hai, allIndex_eq, List.filter_map]
    exact hperm.map _
  · rw [hout, List.pairwise_map]
    refine hpw.imp ?_
    intro p q h
    rcases h with h | ⟨h, _⟩ <;> omega

/-! ### A concrete case -/

/-- Two files, each with an invalid index, and a variable of two levels. -/
def exNcc : List (CFile Nat) :=
  [⟨[7, -1, 3], fun _ idx => 10 * idx.getD 0 0 + idx.getD 1 0⟩,
   ⟨[-1, 5], fun _ idx => 100 + 10 * idx.getD 0 0 + idx.getD 1 0⟩]

example : outLen exNcc = 3 := by decide
example : reorder (allIndex exNcc) = [3, 5, 1, -1, -1] := by
  simp [reorder, allIndex, exNcc, MergeRank.rankAscending, MergeRank.mergerank, MergeRank.merge,
    MergeRank.mergeLoop, MergeRank.mergeTail, at1, List.range_succ, List.takeWhile]
example : IsOutput exNcc [(0, 2), (1, 1), (0, 0)] := by
  constructor
  · decide
  · simp [Before, idxAt, exNcc]

end Verif
