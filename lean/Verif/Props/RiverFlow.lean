import Verif.Lemmas.RiverFlow
/-
C54: flow directions of `river_regrid`.
-/
namespace Verif.River
open Verif.Spec CheckMask
variable {K : Type*} [Field K] [LinearOrder K] [IsStrictOrderedRing K]

omit [Field K] [LinearOrder K] [IsStrictOrderedRing K] in
/-- C54. After the update of the halo, whatever the data, each place where there is a cell of the mosaic (the cell
itself, or a place beside the tile) holds the value of this cell; on the cube the cell across the side. -/
theorem C54_halo (g : Grid) (hg : MeshOk g) (w : Place → K) (p c : Place) (h0 : p.1 < g.ntiles)
    (h1 : p.2.1 ≤ g.nx + 1) (h2 : p.2.2 ≤ g.ny + 1) (h : IsAt g p c) : updateHalo g w p = w c := by
  rw [updateHalo_eq, ((isAt_iff hg ⟨h0, h1, h2⟩).1 h).1]

/-- The western halo of tile 1 of a cube is the northern side of tile 5, from its end. -/
example : IsAt ⟨⟨false, false, true⟩, 6, 2, 2⟩ (0, 0, 1) (4, 2, 2) := by
  refine ⟨by decide, .inr ⟨rfl, by decide, .west, 1, by decide, by decide, rfl, by decide, ?_, ?_⟩⟩
  · exact ⟨2, 2, .inr rfl, .inr rfl, by decide⟩
  · exact ⟨1, 2, .inl rfl, .inr rfl, by decide⟩

/-- C54 fails for a tile that is cyclic in rows and not square: the loop over columns runs to `ny`, and the halo of the
columns beyond keeps its old value. -/
theorem C54_y_cyclic_wrong : ∃ (g : Grid) (w : Place → ℚ) (p c : Place),
    g.op = ⟨false, true, false⟩ ∧ g.ntiles = 1 ∧ p.1 < g.ntiles ∧ p.2.1 ≤ g.nx + 1 ∧ p.2.2 ≤ g.ny + 1 ∧ IsAt g p c ∧
      updateHalo g w p ≠ w c := by
  refine ⟨⟨⟨false, true, false⟩, 1, 2, 1⟩, fun p => if p = (0, 2, 1) then 1 else 0, (0, 2, 0), (0, 2, 1), rfl, rfl,
    by decide, by decide, by decide, ⟨by decide, .inl (by decide)⟩, by decide +kernel⟩

/-- The result has the directions of `calc_tocell`. -/
theorem riverRegrid_tocell {g : Grid} {m : Missing K} {landfrac area : Place → K} {srcs : Place → List K}
    {r : Rivers K} (h : riverRegrid g m landfrac area srcs = .ok r) :
    calcTocell g m landfrac (calcMaxSubA g m landfrac srcs) = .ok (r.tocell, r.dir) := by
  unfold riverRegrid at h
  simp only at h
  split at h
  · cases h
  · next tocell dir e =>
    rw [e]
    split at h
    · cases h
    · next r1 e1 =>
      have h1 : r1.tocell = tocell ∧ r1.dir = dir := by
        unfold calcRiverData at e1
        simp only at e1
        split at e1
        · cases e1
        · cases e1; exact ⟨rfl, rfl⟩
      split at h
      · cases h
      · next r2 e2 =>
        have h2 : r2.tocell = r1.tocell ∧ r2.dir = r1.dir := by
          unfold sortBasin at e2
          simp only at e2
          split at e2
          · cases e2
          · split at e2
            · cases e2
            · split at e2
              · cases e2
              · split at e2
                · cases e2
                · split at e2
                  · cases e2
                  · cases e2; exact ⟨rfl, rfl⟩
        split at h
        · cases h
        · cases h
          rw [h2.1, h2.2, h1.1, h1.2]

/-- C54. The flow of every cell is right: whenever the tool writes a network, the code of each cell is the missing
value for the ocean, 0 for the coast and for land cells without a larger neighbour, and otherwise the power of two of
the direction of the neighbour that water has to go to. `a` is the drained area found in the source. -/
theorem C54_directions (g : Grid) (hg : MeshOk g) (m : Missing K) (landfrac area : Place → K) (srcs : Place → List K)
    (hi : InputOk g m landfrac area srcs) (a : Place → K) (ha : ∀ c, IsCell g c → IsGuide m landfrac srcs c (a c))
    (r : Rivers K) (h : riverRegrid g m landfrac area srcs = .ok r) (c : Place) (hc : IsCell g c) :
    DirectionOk g m landfrac a r.tocell c := by
  obtain ⟨tocell, dir, e, hd, -⟩ := calcTocell_ok hg hi
  rw [riverRegrid_tocell h] at e
  cases e
  have heq : ∀ d, IsCell g d → a d = guide m landfrac srcs d := fun d hd => isGuide_eq hi hd (ha d hd)
  have hn : ∀ {k d}, Neighbour g c k d → IsCell g d := fun h => by
    obtain ⟨p, -, -, -, hp⟩ := h
    exact hp.1
  rcases hd c hc with h | h | ⟨h1, h2, h3⟩ | ⟨h1, k, d, hk, hd, h2, h3, h4⟩
  · exact .inl h
  · exact .inr (.inl h)
  · refine .inr (.inr (.inl ⟨h1, fun k d hk hd => ?_, h3⟩))
    rw [heq d (hn hd), heq c hc]
    exact h2 k d hk hd
  · refine .inr (.inr (.inr ⟨h1, k, d, hk, hd, ?_, h3, fun k' d' hk' hd' => ?_⟩))
    · rw [heq d (hn hd), heq c hc]; exact h2
    · rw [heq d (hn hd), heq c hc, heq d' (hn hd')]
      exact h4 k' d' hk' hd'

/-- C54. The check that the code is a power of two never ends the program. -/
theorem C54_no_error (g : Grid) (hg : MeshOk g) (m : Missing K) (landfrac area : Place → K) (srcs : Place → List K)
    (hi : InputOk g m landfrac area srcs) : calcTocell g m landfrac (calcMaxSubA g m landfrac srcs) ≠ .error .powDir := by
  obtain ⟨tocell, dir, e, -, -⟩ := calcTocell_ok hg hi
  rw [e]
  exact fun h => by cases h

/-- C54. Water never comes back: no cell flows to itself, in any number of steps. -/
theorem C54_acyclic (g : Grid) (hg : MeshOk g) (m : Missing K) (landfrac area : Place → K) (srcs : Place → List K)
    (hi : InputOk g m landfrac area srcs) (r : Rivers K) (h : riverRegrid g m landfrac area srcs = .ok r) (c : Place)
    (hc : IsCell g c) : ¬Relation.TransGen (FlowsTo g r.tocell) c c := by
  obtain ⟨tocell, dir, e, -, hn⟩ := calcTocell_ok hg hi
  rw [riverRegrid_tocell h] at e
  cases e
  have step : ∀ {c d}, IsCell g c → FlowsTo g r.tocell c d →
      IsCell g d ∧ guide m landfrac srcs c < guide m landfrac srcs d := fun hc h => hn.flows_up hg hi.tocell hc h
  have all : ∀ d, Relation.TransGen (FlowsTo g r.tocell) c d →
      IsCell g d ∧ guide m landfrac srcs c < guide m landfrac srcs d := by
    intro d hd
    induction hd with
    | single h => exact step hc h
    | tail _ h ih => exact ⟨(step ih.1 h).1, ih.2.trans (step ih.1 h).2⟩
  intro hcc
  exact lt_irrefl _ (all c hcc).2

end Verif.River
