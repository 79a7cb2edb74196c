import Verif.Lemmas.Scatter
/-
The complete description of mppncscatter's output files.
-/
namespace Verif
open Spec

/-- Everything about the output of mppncscatter that the properties need. -/
theorem mppncscatter_spec {α : Type} (f : NcFile α) (hf : f.WF) (kinds : List ScatterKind)
    (nx ny nxio nyio : Nat)
    (hk : kinds.length = f.dims.length) (hkr : ∀ r, f.recdim = some r → kinds[r]? = some .no)
    (hnx : 1 ≤ nx) (hny : 1 ≤ ny)
    (hx : ∀ (d len : Nat), f.dims[d]? = some len → kinds[d]? = some .x → nx ≤ len)
    (hy : ∀ (d len : Nat), f.dims[d]? = some len → kinds[d]? = some .y → ny ≤ len)
    (hio : nxio = 0 ∨ nyio = 0 ∨ (nx % nxio = 0 ∧ ny % nyio = 0))
    (h4 : ∀ v ∈ f.vars, v.dims.length ≤ 4) :
    ∃ part : Nat → List (Int × Int),
      (∀ (d len : Nat), f.dims[d]? = some len → kinds[d]? = some .x →
        OrderedPartition 0 (len - 1) (part d) ∧ (part d).length = (numDivs nx ny nxio nyio).1) ∧
      (∀ (d len : Nat), f.dims[d]? = some len → kinds[d]? = some .y →
        OrderedPartition 0 (len - 1) (part d) ∧ (part d).length = (numDivs nx ny nxio nyio).2) ∧
      ∀ junk old, ∃ files, mppncscatter f kinds nx ny nxio nyio junk old = some files ∧
        files.length = (numDivs nx ny nxio nyio).2 * (numDivs nx ny nxio nyio).1 ∧
        ∀ xi yi, xi < (numDivs nx ny nxio nyio).1 → yi < (numDivs nx ny nxio nyio).2 →
          ∃ (out : NcFile α) (iv : Nat → Int × Int),
            files[yi * (numDivs nx ny nxio nyio).1 + xi]? = some out ∧
            (∀ (d len : Nat), f.dims[d]? = some len → kinds[d]? = some .no → iv d = (0, (len : Int) - 1)) ∧
            (∀ (d len : Nat), f.dims[d]? = some len → kinds[d]? = some .x → (part d)[xi]? = some (iv d)) ∧
            (∀ (d len : Nat), f.dims[d]? = some len → kinds[d]? = some .y → (part d)[yi]? = some (iv d)) ∧
            out.recdim = f.recdim ∧
            out.numFiles = some (f.numFiles.getD
              (((numDivs nx ny nxio nyio).1 : Int) * (numDivs nx ny nxio nyio).2)) ∧
            out.dims.length = f.dims.length ∧
            (∀ (d len : Nat), f.dims[d]? = some len → ∃ n : Nat, out.dims[d]? = some n ∧
              (n : Int) = (iv d).2 - (iv d).1 + 1) ∧
            out.vars.length = f.vars.length ∧
            ∀ (n : Nat) (v : NcVar α), f.vars[n]? = some v → ∃ w : NcVar α, out.vars[n]? = some w ∧
              w.dims = v.dims ∧ w.coord = v.coord ∧ w.missing = v.missing ∧
              (∀ (d len : Nat), v.dims = [d] → v.coord = some d → f.dims[d]? = some len →
                kinds[d]? ≠ some .no →
                w.decomp = some (1, (len : Int), (iv d).1 + 1, (iv d).2 + 1)) ∧
              ((∀ d, v.dims = [d] → v.coord = some d → kinds[d]? = some .no) →
                w.decomp = v.decomp) ∧
              (GoodShape f v → ∀ g l, LocalIdx iv v.dims g l → w.val l = v.val g) := by
  obtain ⟨sd, hsd, hspec⟩ := scatterDims_spec f.dims kinds nx ny nxio nyio hk hnx hny hx hy hio
  have hkk : ∀ (d len : Nat), f.dims[d]? = some len → ∃ k, kinds[d]? = some k := by
    intro d len hd
    have : d < f.dims.length := by
      by_contra h; rw [List.getElem?_eq_none (by omega)] at hd; cases hd
    exact ⟨_, List.getElem?_eq_getElem (by omega)⟩
  refine ⟨fun d => ((sd[d]?).map ScatterDim.ext).getD [], ?_, ?_, ?_⟩
  · intro d len hd hkd
    obtain ⟨s, hs, -, -, h, -⟩ := hspec d len _ hd hkd
    beta_reduce; rw [hs]; exact h rfl
  · intro d len hd hkd
    obtain ⟨s, hs, -, -, -, h⟩ := hspec d len _ hd hkd
    beta_reduce; rw [hs]; exact h rfl
  intro junk old
  generalize hN : numDivs nx ny nxio nyio = N at hspec ⊢
  obtain ⟨NX, NY⟩ := N
  simp only [] at hspec ⊢
  -- one tile
  have one : ∀ xi yi, xi < NX → yi < NY → ∃ (out : NcFile α) (iv : Nat → Int × Int),
      scatterFile f sd ((NX : Int) * NY) xi yi (junk (yi * NX + xi)) (old (yi * NX + xi)) = some out ∧
      (∀ (d len : Nat), f.dims[d]? = some len → kinds[d]? = some .no → iv d = (0, (len : Int) - 1)) ∧
      (∀ (d len : Nat), f.dims[d]? = some len → kinds[d]? = some .x →
        (((sd[d]?).map ScatterDim.ext).getD [])[xi]? = some (iv d)) ∧
      (∀ (d len : Nat), f.dims[d]? = some len → kinds[d]? = some .y →
        (((sd[d]?).map ScatterDim.ext).getD [])[yi]? = some (iv d)) ∧
      out.recdim = f.recdim ∧
      out.numFiles = some (f.numFiles.getD ((NX : Int) * NY)) ∧
      out.dims.length = f.dims.length ∧
      (∀ (d len : Nat), f.dims[d]? = some len → ∃ n : Nat, out.dims[d]? = some n ∧
        (n : Int) = (iv d).2 - (iv d).1 + 1) ∧
      out.vars.length = f.vars.length ∧
      ∀ (n : Nat) (v : NcVar α), f.vars[n]? = some v → ∃ w : NcVar α, out.vars[n]? = some w ∧
        w.dims = v.dims ∧ w.coord = v.coord ∧ w.missing = v.missing ∧
        (∀ (d len : Nat), v.dims = [d] → v.coord = some d → f.dims[d]? = some len →
          kinds[d]? ≠ some .no →
          w.decomp = some (1, (len : Int), (iv d).1 + 1, (iv d).2 + 1)) ∧
        ((∀ d, v.dims = [d] → v.coord = some d → kinds[d]? = some .no) →
          w.decomp = v.decomp) ∧
        (GoodShape f v → ∀ g l, LocalIdx iv v.dims g l → w.val l = v.val g) := by
    intro xi yi hxi hyi
    let iv : Nat → Int × Int := fun d => match sd[d]? with
      | none => (0, -1)
      | some s => match s.kind with
        | .no => (0, (s.len : Int) - 1)
        | .x => s.ext.getD xi (0, -1)
        | .y => s.ext.getD yi (0, -1)
    have ivno : ∀ (d len : Nat), f.dims[d]? = some len → kinds[d]? = some .no →
        iv d = (0, (len : Int) - 1) := by
      intro d len hd hkd
      obtain ⟨s, hs, h1, h2, -, -⟩ := hspec d len _ hd hkd
      simp only [iv, hs, h1, h2]
    have ivx : ∀ (d len : Nat), f.dims[d]? = some len → kinds[d]? = some .x →
        (((sd[d]?).map ScatterDim.ext).getD [])[xi]? = some (iv d) := by
      intro d len hd hkd
      obtain ⟨s, hs, h1, h2, h3, -⟩ := hspec d len _ hd hkd
      have hlt : xi < s.ext.length := by rw [(h3 rfl).2]; exact hxi
      simp only [iv, hs, h1, Option.map_some, Option.getD_some]
      rw [List.getD_eq_getElem?_getD, List.getElem?_eq_getElem hlt]; rfl
    have ivy : ∀ (d len : Nat), f.dims[d]? = some len → kinds[d]? = some .y →
        (((sd[d]?).map ScatterDim.ext).getD [])[yi]? = some (iv d) := by
      intro d len hd hkd
      obtain ⟨s, hs, h1, h2, -, h3⟩ := hspec d len _ hd hkd
      have hlt : yi < s.ext.length := by rw [(h3 rfl).2]; exact hyi
      simp only [iv, hs, h1, Option.map_some, Option.getD_some]
      rw [List.getD_eq_getElem?_getD, List.getElem?_eq_getElem hlt]; rfl
    have hok : ∀ d, d < f.dims.length → TileOk f.dims sd xi yi iv d := by
      intro d hlt
      have hd := List.getElem?_eq_getElem hlt
      obtain ⟨k, hkd⟩ := hkk d _ hd
      obtain ⟨s, hs, h1, h2, h3, h3'⟩ := hspec d _ k hd hkd
      cases k with
      | no =>
        have e := ivno d _ hd hkd
        refine ⟨⟨_, hd, ?_⟩, ?_⟩
        · rw [e]; simp
        · rw [hs, e]; simp [ScatterDim.tile, h1, h2]
      | x =>
        have e := ivx d _ hd hkd
        rw [hs] at e
        simp only [Option.map_some, Option.getD_some] at e
        obtain ⟨b1, b2, b3⟩ := (h3 rfl).1.bounds _ (List.mem_of_getElem? e)
        refine ⟨⟨_, hd, b1, by omega, by omega⟩, ?_⟩
        rw [hs]; simp only [ScatterDim.tile, h1, Option.bind_some, e, Option.map_some]
      | y =>
        have e := ivy d _ hd hkd
        rw [hs] at e
        simp only [Option.map_some, Option.getD_some] at e
        obtain ⟨b1, b2, b3⟩ := (h3' rfl).1.bounds _ (List.mem_of_getElem? e)
        refine ⟨⟨_, hd, b1, by omega, by omega⟩, ?_⟩
        rw [hs]; simp only [ScatterDim.tile, h1, Option.bind_some, e, Option.map_some]
    obtain ⟨ts, hts⟩ : ∃ ts, tiles sd xi yi (List.range f.dims.length) = some ts :=
      mapM_option_exists (fun d hd => ⟨_, (hok d (List.mem_range.1 hd)).tile⟩)
    have hts2 := hts
    unfold tiles at hts2
    rw [mapM_option_eq_some] at hts2
    have htsl : ts.length = f.dims.length := by
      have := hts2.length_eq; simpa using this.symm
    have hvs : ∀ p ∈ f.vars.zipIdx, ∃ w, scatterVar f sd xi yi (junk (yi * NX + xi) p.2)
        (old (yi * NX + xi) p.2) p.1 = some w := by
      rintro ⟨v, n⟩ hp
      have hv : v ∈ f.vars := List.mem_of_getElem? (List.mk_mem_zipIdx_iff_getElem?.1 hp)
      obtain ⟨w, h, -⟩ := scatterVar_spec f hf sd xi yi iv (junk (yi * NX + xi) n)
        (old (yi * NX + xi) n) v hv hok
        (fun r nrec hr hn => ivno r nrec hn (hkr r hr)) (h4 v hv)
      exact ⟨w, h⟩
    obtain ⟨vs, hvs'⟩ := mapM_option_exists hvs
    have hvs2 := mapM_option_eq_some.1 hvs'
    unfold scatterFile
    rw [hts, hvs']
    refine ⟨_, iv, rfl, ivno, ivx, ivy, rfl, rfl, ?_, ?_, ?_, ?_⟩
    · simp [htsl]
    · intro d len hd
      have hlt : d < f.dims.length := by
        by_contra h; rw [List.getElem?_eq_none (by omega)] at hd; cases hd
      obtain ⟨t, ht, hte⟩ := forall₂_getElem? hts2 d d (by simp [hlt])
      rw [(hok d hlt).tile] at hte
      simp only [Option.some.injEq] at hte
      obtain ⟨len', hd', b1, b2, b3⟩ := (hok d hlt).ex
      by_cases hr : f.recdim = some d
      · refine ⟨len, ?_, ?_⟩
        · simp only [List.getElem?_map, List.getElem?_zipIdx, ht, Option.map_some, Nat.zero_add,
            hr, if_true]
          rw [List.getD_eq_getElem?_getD, hd]; rfl
        · rw [ivno d len hd (hkr d hr)]; simp
      · refine ⟨t.2, ?_, ?_⟩
        · simp only [List.getElem?_map, List.getElem?_zipIdx, ht, Option.map_some, Nat.zero_add,
            hr, if_false]
        · rw [← hte]; simp only []; omega
    · have := hvs2.length_eq; simpa using this.symm
    · intro n v hv
      obtain ⟨w, hw, hwe⟩ := forall₂_getElem? hvs2 n (v, n)
        (by rw [List.getElem?_zipIdx, hv]; simp)
      obtain ⟨w', h, e1, e2, e3, e5, e6⟩ := scatterVar_spec f hf sd xi yi iv
        (junk (yi * NX + xi) n) (old (yi * NX + xi) n) v (List.mem_of_getElem? hv) hok
        (fun r nrec hr hn => ivno r nrec hn (hkr r hr)) (h4 v (List.mem_of_getElem? hv))
      rw [hwe] at h
      simp only [Option.some.injEq] at h; subst h
      refine ⟨w, hw, e1, e2, e3, ?_, ?_, e6⟩
      · intro d len hvd hvc hd hkd
        have hlt : d < f.dims.length := by
          by_contra h; rw [List.getElem?_eq_none (by omega)] at hd; cases hd
        obtain ⟨k, hkd'⟩ := hkk d _ hd
        obtain ⟨s, hs, h1, h2, -, -⟩ := hspec d _ k hd hkd'
        have hkn : s.kind ≠ .no := by rw [h1]; rintro rfl; exact hkd hkd'
        have ht := (hok d hlt).tile
        rw [hs] at ht
        simp only [Option.bind_some] at ht
        obtain ⟨len', hd', b1, b2, b3⟩ := (hok d hlt).ex
        rw [e5]
        unfold scatterAttr
        rw [hvd]
        simp only [hs]
        rw [if_pos ⟨hkn, hvc⟩, ht]
        simp only [Option.map_some, h2, Option.some.injEq, Prod.mk.injEq, true_and]
        constructor <;> omega
      · intro hno
        rw [e5]
        unfold scatterAttr
        split
        · rename_i d hvd
          split
          · rename_i s hs
            rw [if_neg]
            rintro ⟨hkn, hvc⟩
            have hkd := hno d hvd hvc
            have hlt := hf.dim_lt v (List.mem_of_getElem? hv) d (by rw [hvd]; simp)
            obtain ⟨s', hs', h1, -⟩ := hspec d _ _ (List.getElem?_eq_getElem hlt) hkd
            rw [hs] at hs'; cases hs'
            exact hkn h1
          · rfl
        · rfl
  unfold mppncscatter
  rw [hsd, hN]
  simp only []
  have hall : ∀ t ∈ (List.range NY).flatMap (fun yi => (List.range NX).map (fun xi => (xi, yi))),
      ∃ out, scatterFile f sd ((NX : Int) * NY) t.1 t.2 (junk (t.2 * NX + t.1))
        (old (t.2 * NX + t.1)) = some out := by
    rintro ⟨xi, yi⟩ ht
    simp only [List.mem_flatMap, List.mem_range, List.mem_map, Prod.mk.injEq] at ht
    obtain ⟨y, hy, x, hx, rfl, rfl⟩ := ht
    obtain ⟨out, _, h, _⟩ := one x y hx hy
    exact ⟨out, h⟩
  obtain ⟨files, hfiles⟩ := mapM_option_exists hall
  have hfiles2 := mapM_option_eq_some.1 hfiles
  refine ⟨files, hfiles, ?_, ?_⟩
  · have := hfiles2.length_eq
    rw [length_flatMap_map] at this
    simpa using this.symm
  · intro xi yi hxi hyi
    obtain ⟨out, iv, h, rest⟩ := one xi yi hxi hyi
    refine ⟨out, iv, ?_, rest⟩
    have hg := getElem?_flatMap_map (fun yi xi => (xi, yi)) (List.range NX) (List.range NY) yi xi
      (by simpa using hxi)
    simp only [List.length_range, List.getElem?_range hxi, List.getElem?_range hyi] at hg
    obtain ⟨o, ho, hoe⟩ := forall₂_getElem? hfiles2 (yi * NX + xi) (xi, yi) hg
    simp only [] at hoe
    rw [h] at hoe
    simp only [Option.some.injEq] at hoe
    rw [ho, hoe]

end Verif
