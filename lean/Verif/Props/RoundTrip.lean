import Verif.Props.Combine
import Verif.Lemmas.ScatterMain
/-
C09: mppncscatter followed by mppnccombine.
-/
namespace Verif
open Spec

/-- Is the kind x or y? -/
def isScat : Option ScatterKind → Bool
  | some .x => true
  | some .y => true
  | _ => false

/-- Existence of a local index. -/
theorem localIdx_exists (iv : Nat → Int × Int) (full : Nat → Nat) : ∀ (ds idx : List Nat),
    InBox (ds.map full) idx →
    (∀ (j d g : Nat), ds[j]? = some d → idx[j]? = some g → (iv d).1 ≤ g ∧ (g : Int) ≤ (iv d).2) →
    ∃ l, LocalIdx iv ds idx l := by
  intro ds
  induction ds with
  | nil =>
    intro idx hb _
    rw [List.map_nil, InBox.nil_iff] at hb; subst hb
    exact ⟨[], trivial⟩
  | cons d ds ih =>
    intro idx hb h
    rw [List.map_cons, InBox.cons_iff] at hb
    obtain ⟨g, gs, rfl, h1, h2⟩ := hb
    obtain ⟨l, hl⟩ := ih gs h2 (fun j d' g' hd hg => h (j + 1) d' g' hd hg)
    have h0 := h 0 d g rfl rfl
    exact ⟨((g : Int) - (iv d).1).toNat :: l, h0.1, h0.2, by omega, hl⟩

/-- C09 (partial). Splitting a file and joining the pieces in the order of their numbers gives back
every value of every variable, for every layout, I/O layout and blocking factor, whatever was in the
program's buffers and in the new files before. Assumed of the input file: it has at least one record;
no dimension is already marked as decomposed; no `NumFilesInSet`, or the right one; every scattered
dimension has a 1-dimensional coordinate variable (`C09_no_coordinate_variable`); no variable has two
x or two y dimensions (`C09_two_x_dims`); variables of 4 dimensions have the record dimension or a
dimension of length 1 first (`C08_static_4d_wrong`). Missing for the full property: files without
these restrictions, for which it is false. -/
theorem C09_scatter_combine_partial {α : Type} (f : NcFile α) (hf : f.WF) (kinds : List ScatterKind)
    (nx ny nxio nyio : Nat)
    (hk : kinds.length = f.dims.length) (hkr : ∀ r, f.recdim = some r → kinds[r]? = some .no)
    (hnx : 1 ≤ nx) (hny : 1 ≤ ny)
    (hx : ∀ (d len : Nat), f.dims[d]? = some len → kinds[d]? = some .x → nx ≤ len)
    (hy : ∀ (d len : Nat), f.dims[d]? = some len → kinds[d]? = some .y → ny ≤ len)
    (hio : nxio = 0 ∨ nyio = 0 ∨ (nx % nxio = 0 ∧ ny % nyio = 0))
    (h4 : ∀ v ∈ f.vars, v.dims.length ≤ 3 ∨ (v.dims.length = 4 ∧
      ∃ d, v.dims.head? = some d ∧ (f.recdim = some d ∨ f.dims[d]? = some 1)))
    (hrec : ∀ (r len : Nat), f.recdim = some r → f.dims[r]? = some len → 1 ≤ len)
    (hdecomp : ∀ v ∈ f.vars, v.decomp = none)
    (hcoord : ∀ v ∈ f.vars, ∀ d, v.coord = some d → v.dims = [d])
    (hhas : ∀ d : Nat, isScat kinds[d]? = true → ∃ v ∈ f.vars, v.coord = some d)
    (hone : ∀ v ∈ f.vars, ∀ (i j d e : Nat), v.dims[i]? = some d → v.dims[j]? = some e →
      isScat kinds[d]? = true → kinds[d]? = kinds[e]? → i = j)
    (hnum : f.numFiles = none ∨ f.numFiles =
      some (((numDivs nx ny nxio nyio).1 : Int) * (numDivs nx ny nxio nyio).2))
    (junk : Nat → Nat → Nat → Nat → α) (old : Nat → Nat → List Nat → α)
    (zero : α) (missing : Bool) (junk' : Int) (bf fuel : Nat)
    (hfuel : ∀ (r len : Nat), f.recdim = some r → f.dims[r]? = some len → len < fuel) (hfuel1 : 1 < fuel) :
    ∃ files st, mppncscatter f kinds nx ny nxio nyio junk old = some files ∧
      mppnccombine zero missing junk' bf fuel files = .ok st ∧ st.err = false ∧
      ∀ (n : Nat) (v : NcVar α), f.vars[n]? = some v → ∀ idx,
        (InBox (v.dims.map (fun d => f.dims[d]?.getD 0)) idx → (st.var n).out idx = some (v.val idx)) ∧
        (¬ InBox (v.dims.map (fun d => f.dims[d]?.getD 0)) idx → (st.var n).out idx = none) := by
  have h4' : ∀ v ∈ f.vars, v.dims.length ≤ 4 := by
    intro v hv
    rcases h4 v hv with h | h <;> omega
  obtain ⟨part, hpx, hpy, hall⟩ :=
    mppncscatter_spec f hf kinds nx ny nxio nyio hk hkr hnx hny hx hy hio h4'
  obtain ⟨files, hfiles, hlen, htile⟩ := hall junk old
  generalize hN : numDivs nx ny nxio nyio = N at hpx hpy hlen htile hnum
  obtain ⟨NX, NY⟩ := N
  simp only at hpx hpy hlen htile hnum
  have hNX : 1 ≤ NX ∧ 1 ≤ NY := by
    unfold numDivs at hN
    split at hN
    · next h => obtain ⟨rfl, rfl⟩ := Prod.mk.inj hN; omega
    · obtain ⟨rfl, rfl⟩ := Prod.mk.inj hN; omega
  -- the tile of file number k
  have hdiv : ∀ k, k < files.length → k % NX < NX ∧ k / NX < NY ∧ k / NX * NX + k % NX = k := by
    intro k hkl
    rw [hlen] at hkl
    refine ⟨Nat.mod_lt _ (by omega), (Nat.div_lt_iff_lt_mul (by omega)).2 hkl, ?_⟩
    rw [Nat.mul_comm]; exact Nat.div_add_mod k NX
  have htk : ∀ k, k < files.length → ∃ (out : NcFile α) (iv : Nat → Int × Int), files[k]? = some out ∧
      (∀ (d len : Nat), f.dims[d]? = some len → kinds[d]? = some .no → iv d = (0, (len : Int) - 1)) ∧
      (∀ (d len : Nat), f.dims[d]? = some len → kinds[d]? = some .x → (part d)[k % NX]? = some (iv d)) ∧
      (∀ (d len : Nat), f.dims[d]? = some len → kinds[d]? = some .y → (part d)[k / NX]? = some (iv d)) ∧
      out.recdim = f.recdim ∧ out.numFiles = some (f.numFiles.getD ((NX : Int) * NY)) ∧
      out.dims.length = f.dims.length ∧
      (∀ (d len : Nat), f.dims[d]? = some len → ∃ n : Nat, out.dims[d]? = some n ∧
        (n : Int) = (iv d).2 - (iv d).1 + 1) ∧
      out.vars.length = f.vars.length ∧
      ∀ (n : Nat) (v : NcVar α), f.vars[n]? = some v → ∃ w : NcVar α, out.vars[n]? = some w ∧
        w.dims = v.dims ∧ w.coord = v.coord ∧ w.missing = v.missing ∧
        (∀ (d len : Nat), v.dims = [d] → v.coord = some d → f.dims[d]? = some len →
          kinds[d]? ≠ some .no → w.decomp = some (1, (len : Int), (iv d).1 + 1, (iv d).2 + 1)) ∧
        ((∀ d, v.dims = [d] → v.coord = some d → kinds[d]? = some .no) → w.decomp = v.decomp) ∧
        (GoodShape f v → ∀ g l, LocalIdx iv v.dims g l → w.val l = v.val g) := by
    intro k hkl
    obtain ⟨a1, a2, a3⟩ := hdiv k hkl
    have := htile (k % NX) (k / NX) a1 a2
    rw [a3] at this
    exact this
  haveI : Nonempty (NcFile α) := ⟨f⟩
  choose! outs ivs hto using htk
  have hkd : ∀ d : Nat, d < f.dims.length → ∃ len kd, f.dims[d]? = some len ∧ kinds[d]? = some kd :=
    fun d hd => ⟨_, _, List.getElem?_eq_getElem hd, List.getElem?_eq_getElem (by omega)⟩
  -- bounds of the intervals
  have hbound : ∀ k, k < files.length → ∀ d len : Nat, f.dims[d]? = some len →
      0 ≤ (ivs k d).1 ∧ (ivs k d).1 ≤ (ivs k d).2 + 1 ∧ (ivs k d).2 < len := by
    intro k hkl d len hd
    obtain ⟨t1, t2, t3, t4, -⟩ := hto k hkl
    have hdl : d < f.dims.length := by
      by_contra hc; rw [List.getElem?_eq_none (by omega)] at hd; cases hd
    obtain ⟨-, kd, -, hkd⟩ := hkd d hdl
    cases kd with
    | no => rw [t2 d len hd hkd]; simp
    | x =>
      have := (hpx d len hd hkd).1.bounds _ (List.mem_of_getElem? (t3 d len hd hkd))
      omega
    | y =>
      have := (hpy d len hd hkd).1.bounds _ (List.mem_of_getElem? (t4 d len hd hkd))
      omega
  have hset : PieceSet files f.dims.length f.recdim (f.vars.map (fun v => (v.dims, v.coord)))
      (fun d => f.dims[d]?.getD 0) (fun d => isScat kinds[d]?) ivs := by
    have hfk : ∀ (k : Nat) (o : NcFile α), files[k]? = some o → k < files.length ∧ o = outs k := by
      intro k o ho
      have hkl : k < files.length := by
        by_contra hc; rw [List.getElem?_eq_none (by omega)] at ho; cases ho
      refine ⟨hkl, ?_⟩
      have := (hto k hkl).1
      rw [ho] at this; exact Option.some.inj this
    have hvars : ∀ k, k < files.length → ∀ w ∈ (outs k).vars, ∃ (n : Nat) (v : NcVar α),
        f.vars[n]? = some v ∧ (outs k).vars[n]? = some w := by
      intro k hkl w hw
      obtain ⟨n, hn, rfl⟩ := List.mem_iff_getElem.1 hw
      have := (hto k hkl).2.2.2.2.2.2.2.2.1
      exact ⟨n, _, List.getElem?_eq_getElem (by omega), List.getElem?_eq_getElem hn⟩
    refine ⟨?_, ?_, ?_, ?_, ?_, ?_, ?_, ?_, ?_⟩
    · intro hc
      rw [hc] at hlen
      have := Nat.mul_pos hNX.2 hNX.1
      simp at hlen; omega
    · intro o ho
      obtain ⟨k, hkl, rfl⟩ := List.mem_iff_getElem.1 ho
      obtain ⟨-, he⟩ := hfk k _ (List.getElem?_eq_getElem hkl)
      obtain ⟨-, -, -, -, t5, t6, t7, t8, t9, t10⟩ := hto k hkl
      rw [he]
      refine ⟨t5, t7, ?_, ?_⟩
      · apply List.ext_getElem?
        intro n
        rw [List.getElem?_map, List.getElem?_map]
        cases hv : f.vars[n]? with
        | none =>
          have : (outs k).vars[n]? = none := by
            rw [List.getElem?_eq_none_iff] at hv ⊢; omega
          rw [this]
        | some v =>
          obtain ⟨w, w1, w2, w3, -⟩ := t10 n v hv
          rw [w1]; simp [w2, w3]
      · rw [t6, hlen]
        have e : ((NY * NX : Nat) : Int) = (NX : Int) * NY := by push_cast; ring
        rw [e]
        rcases hnum with h | h <;> simp [h]
    · intro p hp
      obtain ⟨v, hv, rfl⟩ := List.mem_map.1 hp
      exact ⟨h4' v hv, hf.dim_lt v hv⟩
    · intro p hp r hr
      obtain ⟨v, hv, rfl⟩ := List.mem_map.1 hp
      exact hf.rec_first v hv r hr
    · intro p hp d hd
      obtain ⟨v, hv, rfl⟩ := List.mem_map.1 hp
      exact hcoord v hv d hd
    · intro r hr
      have hlt := hf.rec_lt r hr
      obtain ⟨len, kd, e1, e2⟩ := hkd r hlt
      refine ⟨hlt, ?_, ?_⟩
      · simp only [e1, Option.getD_some]; exact hrec r len hr e1
      · simp [hkr r hr, isScat]
    · intro k o ho d hd
      obtain ⟨hkl, rfl⟩ := hfk k o ho
      obtain ⟨len, kd, e1, e2⟩ := hkd d hd
      obtain ⟨b1, b2, b3⟩ := hbound k hkl d len e1
      obtain ⟨n, c1, c2⟩ := (hto k hkl).2.2.2.2.2.2.2.1 d len e1
      refine ⟨b1, b2, by simp only [e1, Option.getD_some]; exact b3, ?_⟩
      rw [c1]; congr 1; omega
    · intro k o ho d hd hdec
      obtain ⟨hkl, rfl⟩ := hfk k o ho
      obtain ⟨len, kd, e1, e2⟩ := hkd d hd
      have hno : kinds[d]? = some .no := by
        cases kd with
        | no => exact e2
        | x => simp [e2, isScat] at hdec
        | y => simp [e2, isScat] at hdec
      obtain ⟨-, t2, -, -, -, -, -, -, -, t10⟩ := hto k hkl
      refine ⟨by simp only [e1, Option.getD_some]; exact t2 d len e1 hno, ?_⟩
      intro w hw hc
      obtain ⟨n, v, g1, g2⟩ := hvars k hkl w hw
      obtain ⟨w', w1, w2, w3, -, -, w6, -⟩ := t10 n v g1
      rw [g2] at w1
      obtain rfl := Option.some.inj w1
      rw [w6, hdecomp v (List.mem_of_getElem? g1)]
      intro d' _ hc'
      rw [w3, hc'] at hc
      obtain rfl := Option.some.inj hc
      exact hno
    · intro k o ho d hd hdec
      obtain ⟨hkl, rfl⟩ := hfk k o ho
      obtain ⟨len, kd, e1, e2⟩ := hkd d hd
      obtain ⟨-, -, -, -, -, -, -, -, -, t10⟩ := hto k hkl
      constructor
      · obtain ⟨v, hv, hvc⟩ := hhas d hdec
        obtain ⟨n, hn, rfl⟩ := List.mem_iff_getElem.1 hv
        obtain ⟨w, w1, w2, w3, -⟩ := t10 n _ (List.getElem?_eq_getElem hn)
        exact ⟨w, List.mem_of_getElem? w1, by rw [w3, hvc]⟩
      · refine ⟨1, ?_⟩
        intro w hw hc
        obtain ⟨n, v, g1, g2⟩ := hvars k hkl w hw
        obtain ⟨w', w1, w2, w3, -, w5, -⟩ := t10 n v g1
        rw [g2] at w1
        obtain rfl := Option.some.inj w1
        rw [w3] at hc
        rw [w5 d len (hcoord v (List.mem_of_getElem? g1) d hc) hc e1
          (by intro h; simp [h, isScat] at hdec)]
        simp only [e1, Option.getD_some, Option.some.injEq, Prod.mk.injEq]
        refine ⟨trivial, by omega, by omega, by omega⟩
  have hfuel' : numRecs f.recdim (fun d => f.dims[d]?.getD 0) < fuel := by
    unfold numRecs
    cases hr : f.recdim with
    | none => exact hfuel1
    | some r =>
      obtain ⟨len, kd, e1, e2⟩ := hkd r (hf.rec_lt r hr)
      simp only [e1, Option.getD_some]
      exact hfuel r len hr e1
  obtain ⟨st, s1, s2, s3, s4⟩ := combine_out hset zero missing junk' bf fuel hfuel'
  refine ⟨files, st, hfiles, s1, s2, ?_⟩
  intro n v hv idx
  have hvm : v ∈ f.vars := List.mem_of_getElem? hv
  have hM : 0 < files.length := List.length_pos_of_ne_nil hset.ne
  obtain ⟨t1, t2, -, -, -, -, -, -, -, t10⟩ := hto 0 hM
  obtain ⟨w, w1, w2, -⟩ := t10 n v hv
  obtain ⟨p1, p2, p3, p4⟩ := s4 (outs 0) n w t1 w1 idx
  rw [w2] at p1 p2 p3 p4
  refine ⟨fun hb => ?_, p1⟩
  have hgood : GoodShape f v := h4 v hvm
  have hdimlt : ∀ (j d : Nat), v.dims[j]? = some d → d < f.dims.length :=
    fun j d h => hf.dim_lt v hvm d (List.mem_of_getElem? h)
  have hidx : ∀ (j d g len : Nat), v.dims[j]? = some d → idx[j]? = some g → f.dims[d]? = some len →
      g < len := by
    intro j d g len h1 h2 h3
    obtain ⟨hl, hb'⟩ := List.forall₂_iff_get.1 hb
    have hj : j < idx.length := by
      by_contra hc; rw [List.getElem?_eq_none (by omega)] at h2; cases h2
    have := hb' j hj (by omega)
    rw [List.getElem?_eq_getElem hj] at h2
    obtain rfl := Option.some.inj h2
    simp only [List.get_eq_getElem, List.getElem_map] at this
    have hj' : j < v.dims.length := by
      by_contra hc; rw [List.getElem?_eq_none (by omega)] at h1; cases h1
    rw [List.getElem?_eq_getElem hj'] at h1
    rw [Option.some.inj h1, h3] at this
    simpa using this
  -- an owner exists
  have hown : ∃ k l, k < files.length ∧ LocalIdx (ivs k) v.dims idx l := by
    have hX : ∃ xi, xi < NX ∧ ∀ (j d g len : Nat), v.dims[j]? = some d → idx[j]? = some g →
        f.dims[d]? = some len → kinds[d]? = some .x →
        ∃ x, (part d)[xi]? = some x ∧ x.1 ≤ g ∧ (g : Int) ≤ x.2 := by
      by_cases hex : ∃ j d g len : Nat, v.dims[j]? = some d ∧ idx[j]? = some g ∧
          f.dims[d]? = some len ∧ kinds[d]? = some .x
      · obtain ⟨j, d, g, len, e1, e2, e3, e4⟩ := hex
        obtain ⟨c1, c2⟩ := hpx d len e3 e4
        have := hidx j d g len e1 e2 e3
        obtain ⟨xi, x, d1, d2⟩ := c1.cover g (by omega) (by omega)
        have hxi : xi < (part d).length := by
          by_contra hc; rw [List.getElem?_eq_none (by omega)] at d1; cases d1
        refine ⟨xi, by omega, ?_⟩
        intro j' d' g' len' e1' e2' e3' e4'
        have hjj := hone v hvm j j' d d' e1 e1' (by simp [e4, isScat]) (by rw [e4, e4'])
        subst hjj
        rw [e1] at e1'; rw [e2] at e2'
        obtain rfl := Option.some.inj e1'
        obtain rfl := Option.some.inj e2'
        exact ⟨x, d1, d2⟩
      · refine ⟨0, by omega, ?_⟩
        intro j d g len e1 e2 e3 e4
        exact absurd ⟨j, d, g, len, e1, e2, e3, e4⟩ hex
    have hY : ∃ yi, yi < NY ∧ ∀ (j d g len : Nat), v.dims[j]? = some d → idx[j]? = some g →
        f.dims[d]? = some len → kinds[d]? = some .y →
        ∃ x, (part d)[yi]? = some x ∧ x.1 ≤ g ∧ (g : Int) ≤ x.2 := by
      by_cases hex : ∃ j d g len : Nat, v.dims[j]? = some d ∧ idx[j]? = some g ∧
          f.dims[d]? = some len ∧ kinds[d]? = some .y
      · obtain ⟨j, d, g, len, e1, e2, e3, e4⟩ := hex
        obtain ⟨c1, c2⟩ := hpy d len e3 e4
        have := hidx j d g len e1 e2 e3
        obtain ⟨xi, x, d1, d2⟩ := c1.cover g (by omega) (by omega)
        have hxi : xi < (part d).length := by
          by_contra hc; rw [List.getElem?_eq_none (by omega)] at d1; cases d1
        refine ⟨xi, by omega, ?_⟩
        intro j' d' g' len' e1' e2' e3' e4'
        have hjj := hone v hvm j j' d d' e1 e1' (by simp [e4, isScat]) (by rw [e4, e4'])
        subst hjj
        rw [e1] at e1'; rw [e2] at e2'
        obtain rfl := Option.some.inj e1'
        obtain rfl := Option.some.inj e2'
        exact ⟨x, d1, d2⟩
      · refine ⟨0, by omega, ?_⟩
        intro j d g len e1 e2 e3 e4
        exact absurd ⟨j, d, g, len, e1, e2, e3, e4⟩ hex
    obtain ⟨xi, hxi, hX⟩ := hX
    obtain ⟨yi, hyi, hY⟩ := hY
    have hkl : yi * NX + xi < files.length := by
      rw [hlen]
      have := Nat.mul_le_mul_right NX (show yi + 1 ≤ NY by omega)
      rw [Nat.add_mul] at this; omega
    have hm : (yi * NX + xi) % NX = xi := by
      rw [Nat.mul_comm, Nat.mul_add_mod, Nat.mod_eq_of_lt hxi]
    have hd : (yi * NX + xi) / NX = yi := by
      rw [Nat.mul_comm, Nat.mul_add_div (by omega), Nat.div_eq_of_lt hxi, Nat.add_zero]
    obtain ⟨-, u2, u3, u4, -⟩ := hto _ hkl
    rw [hm] at u3
    rw [hd] at u4
    obtain ⟨l, hl⟩ := localIdx_exists (ivs (yi * NX + xi)) _ v.dims idx hb (by
      intro j d g e1 e2
      obtain ⟨len, kd, e3, e4⟩ := hkd d (hdimlt j d e1)
      cases kd with
      | no =>
        have := hidx j d g len e1 e2 e3
        rw [u2 d len e3 e4]; simp; omega
      | x =>
        obtain ⟨x, x1, x2, x3⟩ := hX j d g len e1 e2 e3 e4
        rw [u3 d len e3 e4] at x1
        obtain rfl := Option.some.inj x1
        exact ⟨x2, x3⟩
      | y =>
        obtain ⟨x, x1, x2, x3⟩ := hY j d g len e1 e2 e3 e4
        rw [u4 d len e3 e4] at x1
        obtain rfl := Option.some.inj x1
        exact ⟨x2, x3⟩)
    exact ⟨_, l, hkl, hl⟩
  -- any owner has the right value
  have hval : ∀ k l, k < files.length → LocalIdx (ivs k) v.dims idx l → ∀ w : NcVar α,
      (outs k).vars[n]? = some w → w.val l = v.val idx := by
    intro k l hkl hl w hw
    obtain ⟨w', w1', -, -, -, -, -, w7⟩ := (hto k hkl).2.2.2.2.2.2.2.2.2 n v hv
    rw [hw] at w1'
    obtain rfl := Option.some.inj w1'
    exact w7 hgood idx l hl
  cases hd : v.dims.any (fun d => isScat kinds[d]?) with
  | false =>
    rw [p2 hb hd]
    have hl : LocalIdx (ivs 0) v.dims idx idx := by
      obtain ⟨l, hl⟩ := localIdx_exists (ivs 0) _ v.dims idx hb (by
        intro j d g e1 e2
        obtain ⟨len, kd, e3, e4⟩ := hkd d (hdimlt j d e1)
        have hns : isScat kinds[d]? = false := by
          rw [List.any_eq_false] at hd
          simpa using hd d (List.mem_of_getElem? e1)
        have hno : kinds[d]? = some .no := by
          cases kd with
          | no => exact e4
          | x => simp [e4, isScat] at hns
          | y => simp [e4, isScat] at hns
        have := hidx j d g len e1 e2 e3
        rw [t2 d len e3 hno]; simp; omega)
      have : l = idx := by
        have hz : ∀ d ∈ v.dims, (ivs 0 d).1 = 0 := by
          intro d hdm
          obtain ⟨len, kd, e3, e4⟩ := hkd d (hf.dim_lt v hvm d hdm)
          have hns : isScat kinds[d]? = false := by
            rw [List.any_eq_false] at hd
            simpa using hd d hdm
          have hno : kinds[d]? = some .no := by
            cases kd with
            | no => exact e4
            | x => simp [e4, isScat] at hns
            | y => simp [e4, isScat] at hns
          rw [t2 d len e3 hno]
        clear hb p1 p2 p3 p4 hidx hown hval
        generalize v.dims = ds at hl hz
        induction ds generalizing idx l with
        | nil => cases idx <;> cases l <;> simp [LocalIdx] at hl ⊢
        | cons d ds ih =>
          cases idx with
          | nil => simp [LocalIdx] at hl
          | cons g gs =>
            cases l with
            | nil => simp [LocalIdx] at hl
            | cons a l =>
              obtain ⟨-, -, h3, h4⟩ := hl
              rw [hz d (by simp)] at h3
              rw [ih gs l h4 (fun x hx => hz x (by simp [hx]))]
              congr 1; omega
      rwa [this] at hl
    rw [hval 0 idx hM hl w w1]
  | true =>
    rcases last_owner (fun k l => LocalIdx (ivs k) v.dims idx l) files.length with hno | ⟨k, l, h1, h2, h3⟩
    · obtain ⟨k, l, h1, h2⟩ := hown
      exact absurd h2 (hno k h1 l)
    · obtain ⟨q1, -, -, -, -, -, -, -, -, q10⟩ := hto k h1
      obtain ⟨w', w1', -⟩ := q10 n v hv
      rw [p4 hb hd k (outs k) w' l q1 w1' h2 h3, hval k l h1 h2 w' w1']

/-- The round trip as one function, for concrete cases. -/
def roundTrip (f : NcFile Nat) (kinds : List ScatterKind) (nx ny bf fuel : Nat) :
    Option (Bool × (Nat → List Nat → Option Nat)) :=
  match mppncscatter f kinds nx ny 0 0 (fun _ _ _ _ => 999) (fun _ _ _ => 998) with
  | none => none
  | some files =>
    match mppnccombine 0 false 0 bf fuel files with
    | .ok st => some (st.err, fun n => (st.var n).out)
    | .error _ => none

/-- C09 fails if a scattered dimension has no coordinate variable: the pieces carry no information
where they belong, the combined file only has the first piece, and no error is reported. -/
theorem C09_no_coordinate_variable :
    ∃ (f : NcFile Nat) (r : Bool × (Nat → List Nat → Option Nat)), f.WF ∧
      roundTrip f [.x] 2 1 1 2 = some r ∧ r.1 = false ∧ f.dims = [4] ∧
      r.2 0 [1] = some 1 ∧ r.2 0 [3] = none := by
  refine ⟨⟨[4], none, none, [⟨[0], none, none, none, fun i => i.headD 0⟩]⟩, _, ⟨?_, ?_, ?_⟩, rfl, rfl,
    rfl, rfl, rfl⟩ <;> simp

/-- C09 fails for a variable with two x dimensions: only the diagonal blocks are in some piece, the
others are filled with zero, and no error is reported. -/
theorem C09_two_x_dims :
    ∃ (f : NcFile Nat) (r : Bool × (Nat → List Nat → Option Nat)), f.WF ∧
      roundTrip f [.x, .x] 2 1 1 2 = some r ∧ r.1 = false ∧
      (∃ v, f.vars[2]? = some v ∧ v.dims = [0, 1] ∧ v.val [0, 3] = 3) ∧
      r.2 2 [1, 1] = some 5 ∧ r.2 2 [0, 3] = some 0 := by
  refine ⟨⟨[4, 4], none, none, [⟨[0], some 0, none, none, fun i => i.headD 0⟩,
    ⟨[1], some 1, none, none, fun i => i.headD 0⟩,
    ⟨[0, 1], none, none, none, fun i => flat [4, 4] i⟩]⟩, _, ⟨?_, ?_, ?_⟩, rfl, rfl,
    ⟨_, rfl, rfl, rfl⟩, rfl, rfl⟩ <;> simp

/-- A file that meets the hypotheses of C09: time (3 records), x (5 points), y (4 points), their
coordinate variables, a record variable over (time, y, x) and a scalar. -/
def exRound : NcFile Nat :=
  { dims := [3, 5, 4], recdim := some 0, numFiles := none
    vars := [⟨[1], some 1, none, none, fun i => 10 * i.headD 0⟩,
             ⟨[2], some 2, none, none, fun i => 20 * i.headD 0⟩,
             ⟨[0, 2, 1], none, none, none, fun i => flat [3, 4, 5] i⟩,
             ⟨[], none, none, none, fun _ => 7⟩] }

example (junk : Nat → Nat → Nat → Nat → Nat) (old : Nat → Nat → List Nat → Nat) (bf : Nat) :
    ∃ files st, mppncscatter exRound [.no, .x, .y] 2 3 0 0 junk old = some files ∧
      mppnccombine 0 false 0 bf 4 files = .ok st ∧ st.err = false ∧
      ∀ (n : Nat) (v : NcVar Nat), exRound.vars[n]? = some v → ∀ idx,
        (InBox (v.dims.map (fun d => exRound.dims[d]?.getD 0)) idx →
          (st.var n).out idx = some (v.val idx)) ∧
        (¬ InBox (v.dims.map (fun d => exRound.dims[d]?.getD 0)) idx → (st.var n).out idx = none) := by
  have hd : ∀ (d : Nat), isScat ([ScatterKind.no, .x, .y] : List ScatterKind)[d]? = true →
      d = 1 ∨ d = 2 := by
    intro d h
    match d, h with
    | 0, h => simp [isScat] at h
    | 1, _ => exact Or.inl rfl
    | 2, _ => exact Or.inr rfl
    | d + 3, h => simp [isScat] at h
  have hget : ∀ (d len : Nat), exRound.dims[d]? = some len →
      (d = 0 ∧ len = 3) ∨ (d = 1 ∧ len = 5) ∨ (d = 2 ∧ len = 4) := by
    intro d len h
    match d, h with
    | 0, h => simp [exRound] at h; omega
    | 1, h => simp [exRound] at h; omega
    | 2, h => simp [exRound] at h; omega
    | d + 3, h => simp [exRound] at h
  have key : ∀ (i j d e : Nat) (l : List Nat), l.Nodup → l[i]? = some d → l[j]? = some e → d = e →
      i = j := by
    intro i j d e l hn h1 h2 he
    subst he
    have hi : i < l.length := by
      by_contra hc; rw [List.getElem?_eq_none (by omega)] at h1; cases h1
    exact (List.getElem?_inj hi hn).1 (h1.trans h2.symm)
  apply C09_scatter_combine_partial
  · exact ⟨by simp [exRound], by simp [exRound], by simp [exRound]⟩
  · rfl
  · simp [exRound]
  · omega
  · omega
  · intro d len h1 h2
    rcases hget d len h1 with ⟨rfl, rfl⟩ | ⟨rfl, rfl⟩ | ⟨rfl, rfl⟩ <;> simp at h2 ⊢
  · intro d len h1 h2
    rcases hget d len h1 with ⟨rfl, rfl⟩ | ⟨rfl, rfl⟩ | ⟨rfl, rfl⟩ <;> simp at h2 ⊢
  · exact Or.inl rfl
  · simp [exRound]
  · intro r len h1 h2
    rcases hget r len h2 with ⟨rfl, rfl⟩ | ⟨rfl, rfl⟩ | ⟨rfl, rfl⟩ <;> omega
  · simp [exRound]
  · simp [exRound]
  · intro d h
    rcases hd d h with rfl | rfl <;> simp [exRound]
  · intro v hv i j d e h1 h2 h3 h4
    have hde : d = e := by
      rcases hd d h3 with rfl | rfl <;> rcases hd e (by rw [← h4]; exact h3) with rfl | rfl <;>
        simp at h4 ⊢
    have hn : v.dims.Nodup := by
      simp only [exRound, List.mem_cons, List.not_mem_nil, or_false] at hv
      rcases hv with rfl | rfl | rfl | rfl <;> simp
    exact key i j d e v.dims hn h1 h2 hde
  · exact Or.inl rfl
  · intro r len h1 h2
    rcases hget r len h2 with ⟨rfl, rfl⟩ | ⟨rfl, rfl⟩ | ⟨rfl, rfl⟩ <;> simp [exRound] at h1 ⊢
  · omega

end Verif
