import Verif.Lemmas.ScatterMain
/-
C08: each file written by mppncscatter holds exactly its part of every variable.
-/
namespace Verif
open Spec

/-- C08 (partial: see `C08_static_4d_not_copied` for the shapes left out). The dimensions marked `x`
(`y`) are cut into `nx` (`ny`; with an I/O layout `nxio`, `nyio`) consecutive non-empty intervals.
File number `yi*nx + xi` has the dimension lengths of tile `(xi, yi)`, and each of its variables
holds, at every local index, the input's value at the corresponding global index. Variables may have
up to 4 dimensions; a variable of 4 dimensions must have the record dimension or a dimension of
length 1 first. Missing for the full property: 4-dimensional variables without record dimension. -/
theorem C08_tile_contents_partial {α : Type} (f : NcFile α) (hf : f.WF) (kinds : List ScatterKind)
    (nx ny nxio nyio : Nat)
    (hk : kinds.length = f.dims.length) (hkr : ∀ r, f.recdim = some r → kinds[r]? = some .no)
    (hnx : 1 ≤ nx) (hny : 1 ≤ ny)
    (hx : ∀ (d len : Nat), f.dims[d]? = some len → kinds[d]? = some .x → nx ≤ len)
    (hy : ∀ (d len : Nat), f.dims[d]? = some len → kinds[d]? = some .y → ny ≤ len)
    (hio : nxio = 0 ∨ nyio = 0 ∨ (nx % nxio = 0 ∧ ny % nyio = 0))
    (h4 : ∀ v ∈ f.vars, v.dims.length ≤ 4)
    (NX NY : Nat) (hN : (NX, NY) = if nxio ≠ 0 ∧ nyio ≠ 0 then (nxio, nyio) else (nx, ny)) :
    ∃ part : Nat → List (Int × Int),
      (∀ (d len : Nat), f.dims[d]? = some len → kinds[d]? = some .x →
        OrderedPartition 0 (len - 1) (part d) ∧ (part d).length = NX) ∧
      (∀ (d len : Nat), f.dims[d]? = some len → kinds[d]? = some .y →
        OrderedPartition 0 (len - 1) (part d) ∧ (part d).length = NY) ∧
      ∀ junk old, ∃ files, mppncscatter f kinds nx ny nxio nyio junk old = some files ∧
        files.length = NY * NX ∧
        ∀ xi yi, xi < NX → yi < NY → ∃ (out : NcFile α) (iv : Nat → Int × Int),
          files[yi * NX + xi]? = some out ∧
          (∀ (d len : Nat), f.dims[d]? = some len → kinds[d]? = some .no →
            iv d = (0, (len : Int) - 1)) ∧
          (∀ (d len : Nat), f.dims[d]? = some len → kinds[d]? = some .x →
            (part d)[xi]? = some (iv d)) ∧
          (∀ (d len : Nat), f.dims[d]? = some len → kinds[d]? = some .y →
            (part d)[yi]? = some (iv d)) ∧
          out.dims.length = f.dims.length ∧
          (∀ (d len : Nat), f.dims[d]? = some len → ∃ n : Nat, out.dims[d]? = some n ∧
            (n : Int) = (iv d).2 - (iv d).1 + 1) ∧
          out.vars.length = f.vars.length ∧
          ∀ (n : Nat) (v : NcVar α), f.vars[n]? = some v → ∃ w : NcVar α,
            out.vars[n]? = some w ∧ w.dims = v.dims ∧
            ((v.dims.length ≤ 3 ∨ ∃ d, v.dims.head? = some d ∧
                (f.recdim = some d ∨ f.dims[d]? = some 1)) →
              ∀ g l, LocalIdx iv v.dims g l → w.val l = v.val g) := by
  obtain ⟨part, h1, h2, h3⟩ := mppncscatter_spec f hf kinds nx ny nxio nyio hk hkr hnx hny hx hy hio h4
  have hN' : numDivs nx ny nxio nyio = (NX, NY) := hN.symm
  rw [hN'] at h1 h2 h3
  refine ⟨part, h1, h2, ?_⟩
  intro junk old
  obtain ⟨files, e1, e2, e3⟩ := h3 junk old
  refine ⟨files, e1, e2, ?_⟩
  intro xi yi hxi hyi
  obtain ⟨out, iv, a1, a2, a3, a4, -, -, a5, a6, a7, a8⟩ := e3 xi yi hxi hyi
  refine ⟨out, iv, a1, a2, a3, a4, a5, a6, a7, ?_⟩
  intro n v hv
  obtain ⟨w, b1, b2, -, -, -, -, b3⟩ := a8 n v hv
  refine ⟨w, b1, b2, fun hg => b3 ?_⟩
  rcases hg with hg | hg
  · exact .inl hg
  · have := h4 v (List.mem_of_getElem? hv)
    by_cases h : v.dims.length ≤ 3
    · exact .inl h
    · exact .inr ⟨by omega, hg⟩

/-- A file with a record dimension (3 records), x (5 points) and y (4 points); a record variable
over (time, y, x), a static variable over (y, x), a scalar. -/
def exScatter : NcFile Nat :=
  { dims := [3, 5, 4], recdim := some 0, numFiles := none
    vars := [⟨[0, 2, 1], none, none, none, fun i => flat [3, 4, 5] i⟩,
             ⟨[2, 1], none, none, none, fun i => 100 + flat [4, 5] i⟩,
             ⟨[], none, none, none, fun _ => 7⟩] }

/-- The hypotheses of C08 are met and tile (1, 0) of a 2 x 2 layout holds x in 3..4, y in 0..1. -/
example : exScatter.WF ∧
    (mppncscatter exScatter [.no, .x, .y] 2 2 0 0 (fun _ _ _ _ => 999) (fun _ _ _ => 998)).map
      (fun fs => fs.map (fun o => (o.dims, o.vars.map (fun w => (w.val [1, 1, 1], w.val [1, 1], w.val []))))) =
    some [([3, 3, 2], [(26, 998, 998), (998, 106, 998), (998, 998, 7)]),
          ([3, 2, 2], [(29, 998, 998), (998, 109, 998), (998, 998, 7)]),
          ([3, 3, 2], [(36, 998, 998), (998, 116, 998), (998, 998, 7)]),
          ([3, 2, 2], [(39, 998, 998), (998, 119, 998), (998, 998, 7)])] := by
  refine ⟨⟨?_, ?_, ?_⟩, by decide⟩
  · intro r h; simp [exScatter] at h ⊢; omega
  · decide
  · intro v hv r h; simp [exScatter] at h; subst h; revert v; decide

/-- C08 fails for 4-dimensional variables without record dimension: `put_var` writes, for every
tile and every index whose first entry is not 0, what happened to be in the output buffer. -/
theorem C08_static_4d_not_copied {α : Type} (fd : List Nat) (sd : List ScatterDim) (xi yi : Nat)
    (junk : Nat → α) (old : List Nat → α) (v : NcVar α) (ts : List (Nat × Nat)) (shape : List Nat)
    (hd : v.dims.length = 4) (hl : lens fd v.dims = some shape)
    (ht : tiles sd xi yi v.dims = some ts) :
    ∃ w, scatterStatic fd sd xi yi junk old v = some w ∧
      ∀ l0 l, l0 ≠ 0 → InBox (ts.map Prod.snd) (l0 :: l) →
        w (l0 :: l) = junk (flat (ts.map Prod.snd) (l0 :: l)) := by
  unfold scatterStatic
  rw [hl, ht]
  simp only []
  rw [if_neg (by omega), if_neg (by omega)]
  refine ⟨_, rfl, ?_⟩
  intro l0 l h0 hb
  have hl2 := (mapM_option_eq_some.1 hl).length_eq
  have ht2 := (mapM_option_eq_some.1 ht).length_eq
  have e : l0 :: l = addIdx (List.replicate (ts.map Prod.snd).length 0) (l0 :: l) :=
    (addIdx_zero _ _ hb.length.symm).symm
  conv_lhs => rw [e]
  rw [putVara_in old _ hb (by simp)]
  rw [hd] at hl2 ht2
  match shape, ts, hl2, ht2 with
  | [d0, d1, d2, d3], [t0, t1, t2, t3], _, _ =>
    simp only [List.map_cons, List.map_nil, hyperslabcopy]
    unfold copyRows
    rw [copyRows_aux]
    rw [if_neg]
    rw [length_flatMap_map]
    simp only [List.length_range, flat, List.prod_cons, List.prod_nil, Nat.mul_one]
    have : t1.2 * t2.2 * t3.2 ≤ l0 * (t1.2 * (t2.2 * t3.2)) := by
      rw [← Nat.mul_assoc t1.2]
      exact Nat.le_mul_of_pos_left _ (by omega)
    omega

/-- The same, observed on the output of the program: one tile, a variable of shape 2 x 1 x 1 x 1
holding 10 and 11. The second value is lost. -/
theorem C08_static_4d_wrong :
    ∃ (f : NcFile Nat) (kinds : List ScatterKind), f.WF ∧ kinds.length = f.dims.length ∧
      f.recdim = none ∧ (∀ v ∈ f.vars, v.dims.length = 4 ∧ v.val [1, 0, 0, 0] = 11) ∧
      ∀ junk old, ∃ out, mppncscatter f kinds 1 1 0 0 junk old = some [out] ∧
        out.vars.map (fun w => w.val [1, 0, 0, 0]) = [junk 0 0 0 1] := by
  refine ⟨⟨[2, 1], none, none, [⟨[0, 1, 1, 1], none, none, none, fun i => 10 + i.headD 0⟩]⟩,
    [.no, .no], ⟨?_, ?_, ?_⟩, rfl, rfl, ?_, ?_⟩
  · intro r h; cases h
  · decide
  · intro v _ r h; cases h
  · intro v hv; simp at hv; subst hv; decide
  · intro junk old; exact ⟨_, rfl, rfl⟩

end Verif
