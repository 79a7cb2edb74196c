import Verif.Lemmas.RemapDest
import Mathlib.Algebra.BigOperators.Group.List.Basic
/-
Lemmas on the compressed output of remap_land.
-/
namespace Verif.RemapLand

open Verif.Spec.RemapLand

theorem flatMap_if {α β : Type} (l : List α) (p : α → Bool) (f : α → β) :
    (l.flatMap fun i => if p i then [f i] else []) = (l.filter p).map f := by
  induction l with
  | nil => rfl
  | cons a l ih =>
    rw [List.flatMap_cons, ih, List.filter_cons]
    by_cases h : p a
    · rw [if_pos h, if_pos h]; rfl
    · rw [if_neg h, if_neg h]; rfl

theorem sum_swap (a b : Nat) (f : Nat → Nat → Nat) :
    ((List.range a).map fun n => ((List.range b).map fun i => f n i).sum).sum
      = ((List.range b).map fun i => ((List.range a).map fun n => f n i).sum).sum := by
  induction b with
  | zero => simp
  | succ b ih =>
    have : ((List.range a).map fun n => ((List.range (b + 1)).map fun i => f n i).sum)
        = (List.range a).map fun n => ((List.range b).map fun i => f n i).sum + f n b := by
      apply List.map_congr_left
      intro n _
      rw [List.range_succ, List.map_append, List.sum_append]
      simp
    rw [this, List.sum_map_add, ih, List.range_succ, List.map_append, List.sum_append]
    simp

theorem filter_length_sum {α : Type} (l : List α) (p : α → Bool) :
    (l.filter p).length = (l.map fun x => if p x then 1 else 0).sum := by
  induction l with
  | nil => rfl
  | cons a l ih =>
    rw [List.filter_cons, List.map_cons, List.sum_cons, ← ih]
    by_cases h : p a
    · rw [if_pos h, if_pos h, List.length_cons]; omega
    · rw [if_neg h, if_neg h]; omega

theorem filter_places {α : Type} (l : List α) (p : α → Bool) (ntile : Nat) (h : l.length ≤ ntile) :
    ((List.range ntile).map fun n => if (l[n]?).any p then 1 else 0).sum = (l.filter p).length := by
  induction l generalizing ntile with
  | nil =>
    apply List.sum_eq_zero
    intro x hx
    simp only [List.mem_map] at hx
    obtain ⟨k, -, hk⟩ := hx
    rw [← hk]
    rfl
  | cons d l ih =>
    cases ntile with
    | zero => simp at h
    | succ n =>
      rw [List.range_succ_eq_map, List.map_cons, List.sum_cons, List.map_map, List.filter_cons]
      have := ih n (by simpa using h)
      rw [show ((fun n => if (((d :: l)[n]?).any p) = true then 1 else 0) ∘ Nat.succ)
        = fun n => if ((l[n]?).any p) = true then 1 else 0 from rfl, this]
      show (if p d then 1 else 0) + _ = _
      by_cases h : p d
      · rw [if_pos h, if_pos h, List.length_cons]; omega
      · rw [if_neg h, if_neg h]; omega

/-- What one process gathers, if the tiles in the file are given by `kept` -/
theorem segment_eq {α : Type} (ntile : Nat) (all : Bool) (pe : Pe α) (n : Nat) (kept : Nat → Bool)
    (h : ∀ i < pe.npts, kept i = (decide (n < pe.count i) && (all || (pe.data (ntile * i + n)).isSome))) :
    segment ntile all pe n = ((List.range pe.npts).filter kept).map fun i => pe.data (ntile * i + n) := by
  rw [← flatMap_if]
  unfold segment
  apply List.flatMap_congr
  intro i hi
  rw [h i (List.mem_range.1 hi)]
  by_cases h1 : n < pe.count i
  · rw [if_pos h1]
    cases hd : pe.data (ntile * i + n) with
    | none => cases all <;> simp [h1]
    | some v => simp [h1]
  · rw [if_neg h1]
    simp [h1]

theorem gather_layout {α : Type} (sizes : List Nat) (o : Nat) (kept : Nat → Bool) (f : Nat → α) :
    ((layout o sizes).flatMap fun om => ((List.range om.2).filter fun i => kept (om.1 + i)).map fun i => f (om.1 + i))
      = ((List.range' o sizes.sum).filter kept).map f := by
  induction sizes generalizing o with
  | nil => rfl
  | cons m ms ih =>
    rw [layout, List.flatMap_cons, ih, List.sum_cons, ← List.range'_append_1, List.filter_append, List.map_append]
    congr 1
    rw [List.range'_eq_map_range, List.filter_map, List.map_map]
    rfl

theorem mapM_ok {α β : Type} (f : α → Except Err β) (g : α → β) (l : List α) (h : ∀ x ∈ l, f x = .ok (g x)) :
    l.mapM f = .ok (l.map g) := by
  induction l with
  | nil => rfl
  | cons a l ih =>
    rw [List.mapM_cons, h a (by simp), ih fun x hx => h x (by simp [hx])]
    rfl

theorem mem_layout (sizes : List Nat) (o : Nat) (om : Nat × Nat) (h : om ∈ layout o sizes) :
    o ≤ om.1 ∧ om.1 + om.2 ≤ o + sizes.sum := by
  induction sizes generalizing o with
  | nil => cases h
  | cons m ms ih =>
    rw [List.sum_cons]
    rcases List.mem_cons.1 h with h | h
    · subst h
      dsimp only
      omega
    · have := ih _ h
      omega

variable {K : Type} [Field K]

/-- The file has tile `n` of a cell. -/
abbrev has (t : FileType) (c : Cell K) (n : Nat) : Bool := ((cellTiles c)[n]?).any fun d => inFile t d.kind

theorem has_iff_filter (t : FileType) (c : Cell K) (n : Nat) :
    (((cellTiles c)[n]?).filter fun d => inFile t d.kind).isSome = has t c n := by
  unfold has
  cases (cellTiles c)[n]? with
  | none => rfl
  | some d => cases h : inFile t d.kind <;> simp [h]

theorem allTile_has (t : FileType) (h : t.allTile = true) (k : Kind) : inFile t k = true := by
  cases t <;> first | rfl | exact absurd h (by decide)

/-- The general form: a variable which has a value exactly for the tiles in the file -/
theorem written_ok {α : Type} (t : FileType) (ntile : Nat) (cells : Nat → Cell K) (sizes : List Nat)
    (h1 : ∀ i < sizes.sum, OneEach (cells i)) (hcap : ∀ i < sizes.sum, (cellTiles (cells i)).length ≤ ntile)
    (field : Nat → Dst K → Nat → Option α) (val : Nat → Nat → Option α)
    (hfield : ∀ o m s, o + m ≤ sizes.sum → (∀ i < m, ∀ n < ntile, s.slots (ntile * i + n)
        = ((cellTiles (cells (o + i)))[n]?).filter (fun d => inFile t d.kind)) →
      ∀ i < m, ∀ n < ntile, field o s (ntile * i + n) = if has t (cells (o + i)) n then val n (o + i) else none)
    (hval : t.allTile = true ∨ ∀ n p, p < sizes.sum → n < ntile → has t (cells p) n → (val n p).isSome) :
    written t ntile cells sizes field = .ok ((order t ntile sizes.sum cells).map fun np => val np.1 np.2) := by
  have hrun : ∀ om : Nat × Nat, ∃ pe : Pe α, om ∈ layout 0 sizes →
      (do
        let s ← dest t ntile om.2 fun i => cells (om.1 + i)
        .ok ({ npts := om.2, nidx := s.nidx, count := s.count, data := field om.1 s } : Pe α)) = (.ok pe : Except Err (Pe α))
      ∧ pe.npts = om.2
      ∧ pe.nidx = ((List.range om.2).map fun i =>
          ((cellTiles (cells (om.1 + i))).filter fun d => inFile t d.kind).length).sum
      ∧ ∀ n < ntile, ∀ i < om.2, has t (cells (om.1 + i)) n
            = (decide (n < pe.count i) && (t.allTile || (pe.data (ntile * i + n)).isSome))
          ∧ (has t (cells (om.1 + i)) n → pe.data (ntile * i + n) = val n (om.1 + i)) := by
    intro om
    by_cases hom : om ∈ layout 0 sizes
    · have hb := mem_layout sizes 0 om hom
      obtain ⟨s, e, a1, a2, -, a4⟩ := destLoop_ok t ntile om.2 (fun i => cells (om.1 + i))
        (fun i hi => h1 _ (by omega)) (fun i hi => hcap _ (by omega)) om.2 (le_refl _)
      have hf := hfield om.1 om.2 s (by omega) a2
      refine ⟨{ npts := om.2, nidx := s.nidx, count := s.count, data := field om.1 s }, fun _ => ⟨?_, rfl, a4, ?_⟩⟩
      · unfold dest
        rw [e]
        rfl
      · intro n hn i hi
        have hci : s.count i = (cellTiles (cells (om.1 + i))).length := by rw [a1, if_pos hi]
        dsimp only
        rw [hf i hi n hn]
        refine ⟨?_, fun h => if_pos h⟩
        by_cases hh : has t (cells (om.1 + i)) n
        · rw [if_pos hh, hh]
          have hlen : n < (cellTiles (cells (om.1 + i))).length := by
            by_contra hge
            unfold has at hh
            rw [List.getElem?_eq_none (by omega)] at hh
            cases hh
          rcases hval with h | h
          · simp [hci, hlen, h]
          · simp [hci, hlen, h n (om.1 + i) (by omega) hn hh]
        · rw [if_neg hh]
          rw [Bool.not_eq_true] at hh
          rw [hh]
          by_cases hall : t.allTile = true
          · have hlen : ¬ n < (cellTiles (cells (om.1 + i))).length := by
              intro hlt
              unfold has at hh
              rw [List.getElem?_eq_getElem hlt, Option.any_some, allTile_has t hall] at hh
              cases hh
            simp [hci, hlen]
          · rw [Bool.not_eq_true] at hall
            simp [hall]
    · exact ⟨⟨0, 0, fun _ => 0, fun _ => none⟩, fun h => absurd h hom⟩
  choose pe hpe using hrun
  unfold written
  rw [mapM_ok _ pe _ fun om hom => (hpe om hom).1]
  show compress ntile t.allTile ((layout 0 sizes).map pe) = _
  have hseg : ∀ om ∈ layout 0 sizes, ∀ n < ntile, segment ntile t.allTile (pe om) n
      = ((List.range om.2).filter fun i => has t (cells (om.1 + i)) n).map fun i => val n (om.1 + i) := by
    intro om hom n hn
    obtain ⟨-, b1, b2, b3⟩ := hpe om hom
    rw [segment_eq ntile t.allTile (pe om) n (fun i => has t (cells (om.1 + i)) n)
      (fun i hi => (b3 n hn i (by omega)).1), b1]
    apply List.map_congr_left
    intro i hi
    rw [List.mem_filter, List.mem_range] at hi
    exact (b3 n hn i hi.1).2 hi.2
  unfold compress
  rw [if_neg]
  · congr 1
    unfold order
    rw [List.map_flatMap]
    apply List.flatMap_congr
    intro n hn
    rw [List.mem_range] at hn
    rw [List.flatMap_map, List.map_map]
    rw [show (layout 0 sizes).flatMap (fun om => segment ntile t.allTile (pe om) n)
      = (layout 0 sizes).flatMap fun om =>
          ((List.range om.2).filter fun i => has t (cells (om.1 + i)) n).map fun i => val n (om.1 + i) from
      List.flatMap_congr fun om hom => hseg om hom n hn]
    rw [gather_layout sizes 0 (fun p => has t (cells p) n) (fun p => val n p), List.range_eq_range']
    rfl
  · rw [Bool.not_eq_true, List.any_eq_false]
    intro p hp
    rw [List.mem_map] at hp
    obtain ⟨om, hom, rfl⟩ := hp
    obtain ⟨-, b1, b2, b3⟩ := hpe om hom
    have hb := mem_layout sizes 0 om hom
    have : ((List.range ntile).map fun n => (segment ntile t.allTile (pe om) n).length)
        = (List.range ntile).map fun n =>
          ((List.range om.2).map fun i => if has t (cells (om.1 + i)) n then 1 else 0).sum := by
      apply List.map_congr_left
      intro n hn
      rw [hseg om hom n (List.mem_range.1 hn), List.length_map, filter_length_sum]
    rw [this, sum_swap, b2]
    have : ((List.range om.2).map fun i => ((List.range ntile).map fun n =>
          if has t (cells (om.1 + i)) n then 1 else 0).sum)
        = (List.range om.2).map fun i => ((cellTiles (cells (om.1 + i))).filter fun d => inFile t d.kind).length := by
      apply List.map_congr_left
      intro i hi
      rw [List.mem_range] at hi
      exact filter_places _ _ ntile (hcap _ (by omega))
    rw [this]
    simp

end Verif.RemapLand
