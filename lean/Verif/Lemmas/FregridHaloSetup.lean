import Verif.Lemmas.FregridHalo
import Mathlib.Data.List.Induction
/-
Lemmas about the halo of fregrid: the lists of boundaries that `setup_boundary` makes from the contacts, and what they copy.
-/
namespace Verif.FregridHalo
open Verif.MosaicContact Verif.Spec Verif.Spec.FregridHalo

/-! ### Running over a list -/

theorem collect_ok {α β : Type} {f : α → Except Err β} (h : α → β) {L : List α} (H : ∀ x ∈ L, f x = .ok (h x)) : collect f L = .ok (L.map h) := by
  induction L with
  | nil => rfl
  | cons x L ih =>
    rw [collect, H x List.mem_cons_self, ih (fun y hy => H y (List.mem_cons_of_mem _ hy))]
    rfl

theorem collect_all {α β : Type} {f : α → Except Err β} {L : List α} {ys : List β} (h : collect f L = .ok ys) : ∀ x ∈ L, ∃ y, f x = .ok y := by
  induction L generalizing ys with
  | nil => simp
  | cons x L ih =>
    rw [collect] at h
    cases hx : f x with
    | error e => rw [hx] at h; simp at h
    | ok y =>
      rw [hx] at h
      simp only at h
      cases hL : collect f L with
      | error e => rw [hL] at h; simp at h
      | ok zs =>
        intro z hz
        rcases List.mem_cons.1 hz with rfl | hz
        · exact ⟨y, hx⟩
        · exact ih hL z hz

theorem filterMap_range {α β : Type} (L : List α) (φ : α → β) (f : Nat → Option β) (h : ∀ l < L.length, f l = (L[l]?).map φ) :
    (List.range L.length).filterMap f = L.map φ := by
  induction L using List.reverseRecOn with
  | nil => rfl
  | append_singleton L x ih =>
    have hl : (L ++ [x]).length = L.length + 1 := by simp
    rw [hl, List.range_succ, List.filterMap_append, ih, List.map_append]
    · congr 1
      rw [List.filterMap_cons, h L.length (by omega)]
      simp
    · intro l hlt
      rw [h l (by omega), List.getElem?_append_left hlt]

/-! ### Entries -/

/-- The first side of a contact -/
def endA (nx ny : Nat → Nat) (g : Glue) : End := endOf nx ny g.t1 g.e1

theorem ends_eq (nx ny : Nat → Nat) (gs : List Glue) : ends (gs.map (Glue.contact nx ny)) = (both gs).map (endA nx ny) := by
  unfold ends both
  rw [List.map_append, List.map_map, List.map_map, List.map_map]
  rfl

theorem both_length (gs : List Glue) : (both gs).length = 2 * gs.length := by
  unfold both
  rw [List.length_append, List.length_map]; omega

theorem flip_flip (g : Glue) : g.flip.flip = g := rfl

theorem both_other (gs : List Glue) {l : Nat} (h : l < 2 * gs.length) :
    (both gs)[(l + gs.length) % (2 * gs.length)]? = ((both gs)[l]?).map Glue.flip := by
  unfold both
  by_cases hl : l < gs.length
  · rw [Nat.mod_eq_of_lt (by omega), List.getElem?_append_right (by omega), List.getElem?_append_left hl, List.getElem?_map]
    congr 2
    omega
  · rw [show (l + gs.length) % (2 * gs.length) = l - gs.length by
      rw [show l + gs.length = (l - gs.length) + 2 * gs.length by omega, Nat.add_mod_right, Nat.mod_eq_of_lt (by omega)]]
    rw [List.getElem?_append_left (by omega), List.getElem?_append_right (by omega), List.getElem?_map, Option.map_map]
    rw [show Glue.flip ∘ Glue.flip = id from funext flip_flip, Option.map_id]
    rfl

theorem flip_mem {gs : List Glue} {g : Glue} (h : g ∈ both gs) : g.flip ∈ both gs := by
  unfold both at *
  rcases List.mem_append.1 h with h | h
  · exact List.mem_append_right _ (List.mem_map.2 ⟨g, h, rfl⟩)
  · obtain ⟨g', h', rfl⟩ := List.mem_map.1 h
    exact List.mem_append_left _ h'

theorem entries_eq (nx ny : Nat → Nat) (gs : List Glue) :
    (List.range (2 * (gs.map (Glue.contact nx ny)).length)).filterMap (entry (gs.map (Glue.contact nx ny))) =
      (both gs).map (fun g => (endA nx ny g, endA nx ny g.flip)) := by
  rw [List.length_map, ← both_length]
  apply filterMap_range
  intro l hl
  rw [both_length] at hl
  unfold entry
  rw [ends_eq, List.length_map, List.getElem?_map, List.getElem?_map, both_other gs hl]
  cases (both gs)[l]? with
  | none => rfl
  | some g => rfl

/-! ### One boundary -/

/-- The boundary that the program makes -/
def boundOf (nx ny : Nat → Nat) (shift : Nat) (g : Glue) : Bound :=
  ⟨toBox 1 shift (nx g.t1) (ny g.t1) g.e1.side (endA nx ny g), frBox 1 shift (nx g.t1) (ny g.t1) g.e2.side (endA nx ny g.flip),
    rotation g.e1.side g.e2.side, g.t2⟩

theorem count_eq (shift : Nat) (e : Edge) : (e.count shift : Int) = hi e - lo e + 1 + shift := by
  unfold Edge.count hi lo; omega

theorem size_to (nx ny : Nat → Nat) (shift : Nat) (g : Glue) : (boundOf nx ny shift g).to.size = g.e1.count shift := by
  rw [count_eq]
  unfold boundOf endA
  simp only
  cases hs : g.e1.side with
  | west => rw [endOf_west hs]; simp only [toBox, Box.size]; change (1 - 1 - 0 + 1 : Int) * (hi g.e1 + 1 + shift - (lo g.e1 + 1) + 1) = _; ring
  | east => rw [endOf_east hs]; simp only [toBox, Box.size]; change (_ : Int) * (hi g.e1 + 1 + shift - (lo g.e1 + 1) + 1) = _; ring
  | south => rw [endOf_south hs]; simp only [toBox, Box.size]; change (hi g.e1 + 1 + shift - (lo g.e1 + 1) + 1) * (1 - 1 - 0 + 1 : Int) = _; ring
  | north => rw [endOf_north hs]; simp only [toBox, Box.size]; change (hi g.e1 + 1 + shift - (lo g.e1 + 1) + 1) * (_ : Int) = _; ring

theorem size_fr (nx ny : Nat → Nat) (shift : Nat) (g : Glue) : (boundOf nx ny shift g).fr.size = g.e2.count shift := by
  rw [count_eq]
  unfold boundOf endA
  simp only [Glue.flip]
  cases hs : g.e2.side with
  | west => rw [endOf_west hs]; simp only [frBox, Box.size]; change (_ : Int) * (hi g.e2 + 1 + shift - (lo g.e2 + 1) + 1) = _; ring
  | east => rw [endOf_east hs]; simp only [frBox, Box.size]; change (_ : Int) * (hi g.e2 + 1 + shift - (lo g.e2 + 1) + 1) = _; ring
  | south => rw [endOf_south hs]; simp only [frBox, Box.size]; change (hi g.e2 + 1 + shift - (lo g.e2 + 1) + 1) * (_ : Int) = _; ring
  | north => rw [endOf_north hs]; simp only [frBox, Box.size]; change (hi g.e2 + 1 + shift - (lo g.e2 + 1) + 1) * (_ : Int) = _; ring

theorem bound_eq {nx ny : Nat → Nat} {shift : Nat} {g : Glue} (h1 : direction (endA nx ny g) = .ok g.e1.side)
    (h2 : direction (endA nx ny g.flip) = .ok g.e2.side) :
    bound 1 shift (nx g.t1) (ny g.t1) (endA nx ny g) (endA nx ny g.flip) =
      if g.e1.count shift = g.e2.count shift then .ok (boundOf nx ny shift g) else .error .mismatch := by
  unfold bound
  rw [h1, h2]
  simp only
  change (if (boundOf nx ny shift g).fr.size ≠ (boundOf nx ny shift g).to.size then Except.error Err.mismatch else .ok (boundOf nx ny shift g)) = _
  rw [size_to, size_fr]
  by_cases h : g.e1.count shift = g.e2.count shift
  · rw [if_neg (by simp [h]), if_pos h]
  · rw [if_pos (by omega), if_neg h]

theorem dir_supported {nx ny : Nat → Nat} {ntiles : Nat} {g : Glue} (h : Supported nx ny ntiles g) : direction (endA nx ny g) = .ok g.e1.side :=
  direction_endOf h.2.1 h.2.2.1 h.2.2.2.2.1

/-! ### All boundaries -/

/-- The lists of all tiles -/
def lists (nx ny : Nat → Nat) (shift : Nat) (gs : List Glue) (n : Nat) : List Bound :=
  ((both gs).filter (fun g => g.t1 = n)).map (boundOf nx ny shift)

theorem tileBounds_eq {nx ny : Nat → Nat} {shift : Nat} {gs : List Glue} (n : Nat) :
    tileBounds (gs.map (Glue.contact nx ny)) 1 shift (fun t => (nx t : Int)) (fun t => (ny t : Int)) n =
      collect (fun p => bound 1 shift (nx n) (ny n) p.1 p.2) (((both gs).filter (fun g => g.t1 = n)).map (fun g => (endA nx ny g, endA nx ny g.flip))) := by
  unfold tileBounds
  rw [entries_eq, List.filter_map]
  rfl

theorem collect_map {α β γ : Type} (f : β → Except Err γ) (g : α → β) (L : List α) : collect f (L.map g) = collect (fun x => f (g x)) L := by
  induction L with
  | nil => rfl
  | cons x L ih => rw [List.map_cons, collect, collect, ih]

theorem setup_ok {nx ny : Nat → Nat} {shift ntiles : Nat} {gs : List Glue} (hs : ∀ g ∈ both gs, Supported nx ny ntiles g)
    (hc : ∀ g ∈ gs, g.e1.count shift = g.e2.count shift) :
    setupBoundary (gs.map (Glue.contact nx ny)) 1 shift (fun t => (nx t : Int)) (fun t => (ny t : Int)) ntiles =
      .ok ((List.range ntiles).map (lists nx ny shift gs)) := by
  have hc' : ∀ g ∈ both gs, g.e1.count shift = g.e2.count shift := by
    intro g hg
    rcases List.mem_append.1 hg with h | h
    · exact hc g h
    · obtain ⟨g', h', rfl⟩ := List.mem_map.1 h
      exact (hc g' h').symm
  unfold setupBoundary
  rw [ends_eq, collect_map, collect_ok (fun g => g.e1.side) (fun g hg => dir_supported (hs g hg))]
  simp only
  apply collect_ok
  intro n _
  rw [tileBounds_eq, collect_map]
  apply collect_ok
  intro g hg'
  obtain ⟨hg, hn⟩ := List.mem_filter.1 hg'
  simp only [decide_eq_true_eq] at hn
  subst hn
  clear hg'
  simp only
  rw [bound_eq (dir_supported (hs g hg)) (dir_supported (hs g.flip (flip_mem hg))), if_pos (hc' g hg)]

theorem setup_counts {nx ny : Nat → Nat} {shift ntiles : Nat} {gs : List Glue} (hs : ∀ g ∈ both gs, Supported nx ny ntiles g) {bs : List (List Bound)}
    (h : setupBoundary (gs.map (Glue.contact nx ny)) 1 shift (fun t => (nx t : Int)) (fun t => (ny t : Int)) ntiles = .ok bs) :
    ∀ g ∈ gs, g.e1.count shift = g.e2.count shift := by
  unfold setupBoundary at h
  rw [ends_eq, collect_map, collect_ok (fun g => g.e1.side) (fun g hg => dir_supported (hs g hg))] at h
  simp only at h
  intro g hg
  have hg : g ∈ both gs := List.mem_append_left _ hg
  obtain ⟨ys, hys⟩ := collect_all h g.t1 (List.mem_range.2 (hs g hg).1)
  rw [tileBounds_eq, collect_map] at hys
  obtain ⟨b, hb⟩ := collect_all hys g (List.mem_filter.2 ⟨hg, by simp⟩)
  rw [bound_eq (dir_supported (hs g hg)) (dir_supported (hs g.flip (flip_mem hg)))] at hb
  by_contra hne
  rw [if_neg hne] at hb
  simp at hb

/-! ### The updates as a list -/

def steps : Nat → List (List Bound) → List (Nat × Bound)
  | _, [] => []
  | n, bs :: rest => bs.map (fun b => (n, b)) ++ steps (n + 1) rest

theorem updateTiles_eq {F : Type} (nz : Nat) (wx wy : Nat → Int) (n : Nat) (bss : List (List Bound)) (m : Mem F) :
    updateTiles nz wx wy n bss m = exec nz wx wy (steps n bss) m := by
  induction bss generalizing n m with
  | nil => rfl
  | cons bs rest ih =>
    rw [updateTiles, ih, steps]
    unfold exec
    rw [List.foldl_append]
    congr 1
    unfold updateHalo
    rw [List.foldl_map]

theorem mem_steps (n : Nat) (bss : List (List Bound)) (s : Nat × Bound) :
    s ∈ steps n bss ↔ ∃ i bs, bss[i]? = some bs ∧ s.1 = n + i ∧ s.2 ∈ bs := by
  induction bss generalizing n with
  | nil => simp [steps]
  | cons bs rest ih =>
    rw [steps, List.mem_append, ih]
    constructor
    · rintro (h | ⟨i, bs', h1, h2, h3⟩)
      · obtain ⟨b, hb, rfl⟩ := List.mem_map.1 h
        exact ⟨0, bs, rfl, rfl, hb⟩
      · exact ⟨i + 1, bs', by simpa using h1, by omega, h3⟩
    · rintro ⟨i, bs', h1, h2, h3⟩
      cases i with
      | zero =>
        simp only [List.getElem?_cons_zero, Option.some.injEq] at h1
        subst h1
        left
        exact List.mem_map.2 ⟨s.2, h3, by rw [← show s.1 = n by omega]⟩
      | succ i => exact Or.inr ⟨i, bs', by simpa using h1, by omega, h3⟩

theorem mem_steps_lists {nx ny : Nat → Nat} {shift ntiles : Nat} {gs : List Glue} (hs : ∀ g ∈ both gs, Supported nx ny ntiles g) (s : Nat × Bound) :
    s ∈ steps 0 ((List.range ntiles).map (lists nx ny shift gs)) ↔ ∃ g ∈ both gs, s = (g.t1, boundOf nx ny shift g) := by
  rw [mem_steps]
  constructor
  · rintro ⟨i, bs, h1, h2, h3⟩
    rw [List.getElem?_map, Option.map_eq_some_iff] at h1
    obtain ⟨a, ha, hb⟩ := h1
    obtain ⟨_, ha⟩ := List.getElem?_eq_some_iff.1 ha
    rw [List.getElem_range] at ha
    subst hb
    obtain ⟨g, hg, he⟩ := List.mem_map.1 h3
    obtain ⟨hg, hn⟩ := List.mem_filter.1 hg
    simp only [decide_eq_true_eq] at hn
    refine ⟨g, hg, Prod.ext ?_ he.symm⟩
    simp only; omega
  · rintro ⟨g, hg, rfl⟩
    refine ⟨g.t1, lists nx ny shift gs g.t1, ?_, by simp, ?_⟩
    · rw [List.getElem?_map, List.getElem?_range (hs g hg).1]
      rfl
    · exact List.mem_map.2 ⟨g, List.mem_filter.2 ⟨hg, by simp⟩, rfl⟩

end Verif.FregridHalo
