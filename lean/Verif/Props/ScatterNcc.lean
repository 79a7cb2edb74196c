import Verif.Lemmas.ScatterNcc
import Verif.Spec.ScatterNcc
/-
C21: scatter-ncc distributes the points over the files; combine-ncc brings them together again.
-/
namespace Verif
open Compress CombineNcc ScatterNcc Spec

theorem inBlock_iff {L : Layout} (h : L.Ok) {n l : Nat} (hn : n < L.nfiles) :
    InBlock L n l ↔ L.block l = n := by
  have e1 : l % L.npts % L.nlon = l % L.nlon := by
    unfold Layout.npts; exact Nat.mod_mul_right_mod _ _ _
  have e2 : l % L.npts / L.nlon = l / L.nlon % L.nlat := by
    unfold Layout.npts; rw [Nat.mod_mul_right_div_self]
  have hi : l % L.nlon < L.nlon := Nat.mod_lt _ h.hx
  have hII : l % L.nlon / L.nlonL < L.npex := by
    apply Layout.div_lt_mul; rw [← h.nlon_eq]; exact hi
  have hb : ∀ x w q : Nat, 0 < w → ((q * w ≤ x ∧ x < (q + 1) * w) ↔ x / w = q) := by
    intro x w q hw
    constructor
    · rintro ⟨h1, h2⟩
      exact Nat.div_eq_of_lt_le h1 h2
    · rintro rfl
      exact ⟨Nat.div_mul_le_self _ _, by rw [Nat.mul_comm]; exact Nat.lt_mul_div_succ _ hw⟩
  unfold InBlock Layout.block
  simp only
  rw [e1, e2]
  have hw : 0 < L.nlon / L.npex := h.nlonL_pos
  have hh : 0 < L.nlat / L.npey := h.nlatL_pos
  rw [hb _ _ _ hw, hb _ _ _ hh]
  constructor
  · rintro ⟨h1, h2⟩
    have h1' : l % L.nlon / L.nlonL = n % L.npex := h1
    have h2' : l / L.nlon % L.nlat / L.nlatL = n / L.npex := h2
    rw [h1', h2', Nat.mul_comm, Nat.div_add_mod]
  · rintro rfl
    rw [Layout.mul_add_mod' hII, Layout.mul_add_div' hII]
    exact ⟨rfl, rfl⟩

/-- The layout of a run that goes through. -/
theorem scatter_ok {α : Type} {L : Layout} {f : CFile α} {zero : α} {fi : Int} {fv : α}
    {files : List (CFile α)} (hx : 0 < L.nlon) (hy : 0 < L.nlat)
    (h : scatter L f zero fi fv = some files) :
    L.Ok ∧ files = (List.range L.nfiles).map (scatterFile L f zero fi fv) := by
  unfold scatter at h
  by_cases h1 : L.npex = 0 ∨ L.npey = 0
  · rw [if_pos h1] at h; cases h
  rw [if_neg h1] at h
  by_cases h2 : L.nlon % L.npex ≠ 0 ∨ L.nlat % L.npey ≠ 0
  · rw [if_pos h2] at h; cases h
  rw [if_neg h2] at h
  refine ⟨⟨by omega, by omega, by omega, by omega, hx, hy⟩, (Option.some.inj h).symm⟩

/-- What a file contains, in terms of its points. -/
theorem scatterFile_spec {α : Type} {L : Layout} (h : L.Ok) {f : CFile α} (hg : GoodIndex L f.index)
    (zero : α) (fi : Int) (fv : α) {n : Nat} (hn : n < L.nfiles) :
    (scatterFile L f zero fi fv n).index =
      (if (ptsOf L f.index n).length = 0 then [fi] else (ptsOf L f.index n).map Int.ofNat) ∧
    ∀ (v : Nat) (tl : List Nat) (p l k : Nat), (ptsOf L f.index n)[p]? = some l →
      f.index[k]? = some (l : Int) →
      (scatterFile L f zero fi fv n).val v (p :: tl) = f.val v (k :: tl) := by
  constructor
  · obtain ⟨s, h1, h2⟩ := scatterSlice_spec h hg 0 f.index rfl
    obtain ⟨h3, h4⟩ := h2 n hn
    unfold scatterFile
    simp only [h1, h3]
    by_cases h0 : (ptsOf L f.index n).length = 0
    · rw [if_pos h0, if_pos h0]
    · rw [if_neg h0, if_neg h0]
      apply List.ext_getElem
      · simp [h3]
      · intro p hp1 hp2
        have hp : p < (ptsOf L f.index n).length := by omega
        have hmem := (ptsOf_mem h hn).1 (List.getElem_mem hp)
        obtain ⟨k, hk, he⟩ := List.getElem_of_mem hmem.2.2
        have := h4 p _ k (List.getElem?_eq_getElem hp) (by rw [List.getElem?_eq_getElem hk, he])
        rw [List.getElem?_eq_getElem hp1, List.getElem?_eq_getElem hk, he] at this
        simpa using this
  · intro v tl p l k hp hk
    obtain ⟨s, h1, h2⟩ := scatterSlice_spec h hg zero (sliceOf f v tl) (by simp [sliceOf])
    obtain ⟨_, h4⟩ := h2 n hn
    have := h4 p l k hp hk
    unfold scatterFile
    simp only [List.tail_cons, List.headD_cons, h1, Option.bind_some, this]
    have hk' := (List.getElem?_eq_some_iff.1 hk).1
    simp [sliceOf, hk']

/-- C21, first half. A run of scatter-ncc that goes through (the layout divides the grid) gives one file
per block of the layout. Every valid point of the input is in exactly one of them, the one whose block
contains it; a file has no other points, and no point twice; and each file has, for every variable and
every combination of the other indices, the input's value at each of its points. No access is outside
an array. -/
theorem C21_scatter {α : Type} (L : Layout) (f : CFile α) (zero : α) (fi : Int) (fv : α)
    (hx : 0 < L.nlon) (hy : 0 < L.nlat) (hg : GoodIndex L f.index) (hfi : fi < 0)
    (files : List (CFile α)) (h : scatter L f zero fi fv = some files) :
    files.length = L.npex * L.npey ∧
    (∀ (n : Nat) g, files[n]? = some g →
      (∀ l : Nat, (l : Int) ∈ g.index ↔ (l : Int) ∈ f.index ∧ InBlock L n l) ∧ g.index.Nodup ∧
      ∀ (v : Nat) (tl : List Nat) (p k : Nat) (x : Int), 0 ≤ x → g.index[p]? = some x →
        f.index[k]? = some x → g.val v (p :: tl) = f.val v (k :: tl)) ∧
    (∀ l : Nat, (l : Int) ∈ f.index → ∃ n, n < files.length ∧ InBlock L n l ∧
      ∀ m, m < files.length → InBlock L m l → m = n) ∧
    (∀ (v : Nat) (tl : List Nat), ∃ s, scatterSlice L f.index zero (sliceOf f v tl) = some s) := by
  obtain ⟨hok, rfl⟩ := scatter_ok hx hy h
  have hlen : ((List.range L.nfiles).map (scatterFile L f zero fi fv)).length = L.nfiles := by simp
  refine ⟨hlen, ?_, ?_, ?_⟩
  · intro n g hgn
    have hn : n < L.nfiles := by
      have := (List.getElem?_eq_some_iff.1 hgn).1
      omega
    have hge : g = scatterFile L f zero fi fv n := by
      simp [List.getElem?_map, List.getElem?_range hn] at hgn
      exact hgn.symm
    subst hge
    obtain ⟨h1, h2⟩ := scatterFile_spec hok hg zero fi fv hn
    have hmem : ∀ l : Nat, (l : Int) ∈ (scatterFile L f zero fi fv n).index ↔
        l ∈ ptsOf L f.index n := by
      intro l
      rw [h1]
      by_cases h0 : (ptsOf L f.index n).length = 0
      · rw [if_pos h0, List.eq_nil_of_length_eq_zero h0]
        simp; omega
      · rw [if_neg h0]; simp
    refine ⟨?_, ?_, ?_⟩
    · intro l
      rw [hmem, ptsOf_mem hok hn, inBlock_iff hok hn]
      constructor
      · rintro ⟨_, a, b⟩; exact ⟨b, a⟩
      · rintro ⟨a, b⟩
        refine ⟨?_, b, a⟩
        have := hg.lt _ a
        omega
    · rw [h1]
      by_cases h0 : (ptsOf L f.index n).length = 0
      · rw [if_pos h0]; simp
      · rw [if_neg h0]
        exact (ptsOf_nodup hok hn).map (fun a b h => by simpa using h)
    · intro v tl p k x hx0 hp hk
      rw [h1] at hp
      by_cases h0 : (ptsOf L f.index n).length = 0
      · rw [if_pos h0] at hp
        exfalso
        have := List.mem_of_getElem? hp
        simp at this; omega
      · rw [if_neg h0, List.getElem?_map] at hp
        obtain ⟨l, hl, he⟩ := Option.map_eq_some_iff.1 hp
        have he' : (l : Int) = x := he
        subst he'
        exact h2 v tl p l k hl hk
  · intro l hl
    have hb := L.block_lt hok l
    refine ⟨L.block l, by rw [hlen]; exact hb, (inBlock_iff hok hb).2 rfl, ?_⟩
    intro m hm hin
    rw [hlen] at hm
    exact ((inBlock_iff hok hm).1 hin).symm
  · intro v tl
    obtain ⟨s, hs, _⟩ := scatterSlice_spec hok hg zero (sliceOf f v tl) (by simp [sliceOf])
    exact ⟨s, hs⟩

/-- C21, second half. Scattering and then combining goes through and gives the valid points of the
original, in strictly ascending order, each with the original's values of every variable. -/
theorem C21_round_trip {α : Type} (L : Layout) (f : CFile α) (zero : α) (fi : Int) (fv : α)
    (hx : 0 < L.nlon) (hy : 0 < L.nlat) (hg : GoodIndex L f.index) (hfi : fi < 0)
    (files : List (CFile α)) (h : scatter L f zero fi fv = some files) :
    ∃ ixs : List Int,
      ixs.length = outLen files ∧
      (∀ x, x ∈ ixs ↔ x ∈ f.index ∧ 0 ≤ x) ∧ ixs.Pairwise (· < ·) ∧
      (∀ (len : Nat) (fill : List Nat → Int), 0 < len →
        ∃ out, combineVar (files.map asIndex) 0 [len] 0 fill = some out ∧
          (List.range (outLen files)).map (fun i => out [i]) = ixs) ∧
      ∀ (v : Nat) (len : Nat) (lens : List Nat) (fill : List Nat → α), 0 < len →
        ∃ out, combineVar files v (len :: lens) 0 fill = some out ∧
          ∀ (i k : Nat) (x : Int) (tl : List Nat), ixs[i]? = some x → f.index[k]? = some x →
            InBox lens tl → out (i :: tl) = f.val v (k :: tl) := by
  obtain ⟨_, hfile, huniq, _⟩ := C21_scatter L f zero fi fv hx hy hg hfi files h
  obtain ⟨pts, ⟨hperm, hpw⟩, hl, hall⟩ := C19_combine files
  -- places with valid indices, in terms of files
  have hplace : ∀ p, p ∈ pts ↔ ∃ (g : CFile α) (x : Nat), files[p.1]? = some g ∧ g.index[p.2]? = some (x : Int) := by
    intro p
    rw [hperm.mem_iff, List.mem_filter]
    have hpl : ∀ (fs : List (CFile α)) (n : Nat) (q : Place), q ∈ placesFrom n fs ↔
        n ≤ q.1 ∧ ∃ g, fs[q.1 - n]? = some g ∧ q.2 < g.index.length := by
      intro fs
      induction fs with
      | nil => intro n q; simp [placesFrom]
      | cons a fs ih =>
        intro n q
        rw [placesFrom, List.mem_append, ih]
        constructor
        · rintro (hq | ⟨h1, g, h2, h3⟩)
          · obtain ⟨k, hk, rfl⟩ := List.mem_map.1 hq
            exact ⟨Nat.le_refl _, a, by simp, List.mem_range.1 hk⟩
          · refine ⟨by omega, g, ?_, h3⟩
            rw [show q.1 - n = (q.1 - (n + 1)) + 1 by omega]
            simpa using h2
        · rintro ⟨h1, g, h2, h3⟩
          by_cases he : q.1 = n
          · left
            rw [he] at h2
            simp at h2
            subst h2
            exact List.mem_map.2 ⟨q.2, List.mem_range.2 h3, by rw [← he]⟩
          · right
            refine ⟨by omega, g, ?_, h3⟩
            rw [show q.1 - n = (q.1 - (n + 1)) + 1 by omega] at h2
            simpa using h2
    unfold places
    rw [hpl]
    constructor
    · rintro ⟨⟨_, g, h1, h2⟩, h3⟩
      rw [Nat.sub_zero] at h1
      simp only [idxAt, h1, Option.bind_some, List.getElem?_eq_getElem h2, Option.getD_some,
        decide_eq_true_eq] at h3
      refine ⟨g, g.index[p.2].toNat, h1, ?_⟩
      rw [List.getElem?_eq_getElem h2]
      congr 1
      omega
    · rintro ⟨g, x, h1, h2⟩
      refine ⟨⟨by omega, g, by simpa using h1, (List.getElem?_eq_some_iff.1 h2).1⟩, ?_⟩
      simp [idxAt, h1, h2]
  have hidx : ∀ p (g : CFile α) (x : Int), files[p.1]? = some g → g.index[p.2]? = some x →
      idxAt files p = x := by
    intro p g x h1 h2
    simp [idxAt, h1, h2]
  -- the same point cannot be at two places
  have hone : ∀ p q, p ∈ pts → q ∈ pts → idxAt files p = idxAt files q → p = q := by
    intro p q hp hq he
    obtain ⟨g, x, a1, a2⟩ := (hplace p).1 hp
    obtain ⟨g', y, b1, b2⟩ := (hplace q).1 hq
    rw [hidx p g x a1 a2, hidx q g' y b1 b2] at he
    rw [← he] at b2
    obtain ⟨m1, nd, _⟩ := hfile p.1 g a1
    obtain ⟨m2, _, _⟩ := hfile q.1 g' b1
    have i1 := (m1 x).1 (List.mem_of_getElem? a2)
    have i2 := (m2 x).1 (List.mem_of_getElem? b2)
    obtain ⟨n, _, _, hu⟩ := huniq x i1.1
    have e1 := hu p.1 (List.getElem?_eq_some_iff.1 a1).1 i1.2
    have e2 := hu q.1 (List.getElem?_eq_some_iff.1 b1).1 i2.2
    have e3 : p.1 = q.1 := by rw [e1, e2]
    rw [← e3, a1] at b1
    cases b1
    obtain ⟨c1, c2⟩ := List.getElem?_eq_some_iff.1 a2
    obtain ⟨d1, d2⟩ := List.getElem?_eq_some_iff.1 b2
    have e4 : p.2 = q.2 := (List.Nodup.getElem_inj_iff nd).1 (c2.trans d2.symm)
    exact Prod.ext e3 e4
  have hmem : ∀ x, x ∈ pts.map (idxAt files) ↔ x ∈ f.index ∧ 0 ≤ x := by
    intro x
    constructor
    · intro hx'
      obtain ⟨p, hp, rfl⟩ := List.mem_map.1 hx'
      obtain ⟨g, y, a1, a2⟩ := (hplace p).1 hp
      rw [hidx p g y a1 a2]
      exact ⟨(((hfile p.1 g a1).1 y).1 (List.mem_of_getElem? a2)).1, by omega⟩
    · rintro ⟨hm, h0⟩
      obtain ⟨y, rfl⟩ : ∃ y : Nat, x = y := ⟨x.toNat, by omega⟩
      obtain ⟨n, hn, hin, _⟩ := huniq y hm
      have hgn : files[n]? = some files[n] := List.getElem?_eq_getElem hn
      have hyin := ((hfile n _ hgn).1 y).2 ⟨hm, hin⟩
      obtain ⟨k, hk, he⟩ := List.getElem_of_mem hyin
      have hk' : files[n].index[k]? = some (y : Int) := by rw [List.getElem?_eq_getElem hk, he]
      exact List.mem_map.2 ⟨(n, k), (hplace (n, k)).2 ⟨_, y, hgn, hk'⟩, hidx (n, k) _ _ hgn hk'⟩
  have hasc : (pts.map (idxAt files)).Pairwise (· < ·) := by
    rw [List.pairwise_map]
    refine List.Pairwise.imp_of_mem ?_ hpw
    intro p q hp hq hb
    rcases hb with hb | ⟨hb, hlt⟩
    · exact hb
    · have := hone p q hp hq hb
      subst this
      omega
  refine ⟨pts.map (idxAt files), by rw [List.length_map, hl], hmem, hasc, ?_, ?_⟩
  · intro len fill hlen
    obtain ⟨out, ho, hp2, hs2⟩ := C19_index files len hlen fill
    refine ⟨out, ho, ?_⟩
    refine List.Perm.eq_of_pairwise (le := (· ≤ ·)) (fun a b _ _ h1 h2 => Int.le_antisymm h1 h2) hs2
      (hasc.imp (by intros; omega)) (hp2.trans ?_)
    have := hperm.map (idxAt files)
    refine List.Perm.trans (List.Perm.of_eq ?_) this.symm
    rw [allIndex_eq, List.filter_map]
    rfl
  · intro v len lens fill hlen
    obtain ⟨out, ho, hv⟩ := hall v (len :: lens) 0 fill (by simp) (by simpa using hlen)
    refine ⟨out, ho, ?_⟩
    intro i k x tl hi hk htl
    have hi' : i < pts.length := by
      have := (List.getElem?_eq_some_iff.1 hi).1
      simpa using this
    obtain ⟨p, hp, hpv⟩ := hv (i :: tl) (by
      simp only [List.set_cons_zero]
      exact List.Forall₂.cons hi' htl)
    simp only [List.getD_cons_zero] at hp
    have hpm : p ∈ pts := List.mem_of_getElem? hp
    obtain ⟨g, y, a1, a2⟩ := (hplace p).1 hpm
    rw [List.getElem?_map, hp] at hi
    have hxy : idxAt files p = x := by simpa using hi
    rw [hidx p g y a1 a2] at hxy
    subst hxy
    simp only [valAt, a1, Option.map_some, List.set_cons_zero, Option.some.injEq] at hpv
    rw [← hpv]
    exact (hfile p.1 g a1).2.2 v tl p.2 k y (by omega) a2 hk

/-- The length given to the compressed dimension of each file, which is found by a separate count, is
the number of indices later written to it (1 if there are none). -/
theorem C21_dim_len {α : Type} (L : Layout) (f : CFile α) (zero : α) (fi : Int) (fv : α)
    (hx : 0 < L.nlon) (hy : 0 < L.nlat) (hg : GoodIndex L f.index)
    (files : List (CFile α)) (h : scatter L f zero fi fv = some files) (n : Nat) (g : CFile α)
    (hgn : files[n]? = some g) : dimLen L f.index n = some g.index.length := by
  obtain ⟨hok, rfl⟩ := scatter_ok hx hy h
  have hn : n < L.nfiles := by
    have := (List.getElem?_eq_some_iff.1 hgn).1
    simpa using this
  have hge : g = scatterFile L f zero fi fv n := by
    simp [List.getElem?_map, List.getElem?_range hn] at hgn
    exact hgn.symm
  subst hge
  obtain ⟨h1, _⟩ := scatterFile_spec hok hg zero fi fv hn
  obtain ⟨data, mask, u1, _, u3, u4⟩ := unpack_spec hg 0 f.index rfl
  have hmask : ∀ l, l < L.vsize → mask[l]? = some (decide ((l : Int) ∈ f.index)) := by
    intro l hl
    by_cases hm : (l : Int) ∈ f.index
    · obtain ⟨k, hk, he⟩ := List.getElem_of_mem hm
      rw [((u4 l hl).1 k (by rw [List.getElem?_eq_getElem hk, he])).1]
      simp [hm]
    · rw [(u4 l hl).2 (by
        intro k hk
        exact hm (List.mem_of_getElem? hk))]
      simp [hm]
  have hcount : ∀ m, m ≤ L.vsize → ∃ c : Nat → Nat, (List.range m).foldlM (fun (c : Nat → Nat) l =>
      match mask[l]? with
      | none => none
      | some false => some c
      | some true => if L.block l < L.nfiles then
          some fun m => if m = L.block l then c m + 1 else c m else none) (fun _ => 0) = some c ∧
      c n = ((List.range m).filter fun l : Nat =>
        decide ((l : Int) ∈ f.index) && decide (L.block l = n)).length := by
    intro m
    induction m with
    | zero => intro _; exact ⟨_, rfl, rfl⟩
    | succ m ih =>
      intro hle
      obtain ⟨c, c1, c2⟩ := ih (by omega)
      rw [List.range_succ, List.foldlM_append, c1]
      simp only [List.foldlM_cons, List.foldlM_nil, Option.bind_eq_bind, Option.bind_some,
        hmask m (by omega)]
      by_cases hm : (m : Int) ∈ f.index
      · simp only [hm, decide_true, if_pos (L.block_lt hok m)]
        refine ⟨_, rfl, ?_⟩
        simp only [List.filter_append, List.length_append]
        by_cases hb : n = L.block m
        · rw [if_pos hb, c2]; simp [hb, hm]
        · have hb' : ¬ L.block m = n := fun e => hb e.symm
          simp [hb, hb', ← c2]
      · simp only [hm, decide_false]
        refine ⟨_, rfl, ?_⟩
        simp [List.filter_append, hm, c2]
  obtain ⟨c, c1, c2⟩ := hcount L.vsize (Nat.le_refl _)
  have hperm : ((List.range L.vsize).filter fun l : Nat =>
      decide ((l : Int) ∈ f.index) && decide (L.block l = n)).Perm (ptsOf L f.index n) := by
    rw [List.perm_ext_iff_of_nodup (List.nodup_range.filter _) (ptsOf_nodup hok hn)]
    intro l
    rw [ptsOf_mem hok hn]
    simp only [List.mem_filter, List.mem_range, Bool.and_eq_true, decide_eq_true_eq]
    constructor
    · rintro ⟨a, b, d⟩; exact ⟨a, d, b⟩
    · rintro ⟨a, b, d⟩; exact ⟨a, d, b⟩
  unfold dimLen
  simp only [u1, Option.bind_eq_bind, Option.bind_some]
  erw [c1]
  simp only [Option.bind_some, c2, hperm.length_eq, h1]
  by_cases h0 : (ptsOf L f.index n).length = 0
  · rw [if_pos h0, h0]; rfl
  · rw [if_neg h0, List.length_map]
    show some (max _ 1) = _
    congr 1
    omega

/-! ### A concrete case: 4 x 2 grid, two entries per cell, 2 x 1 files -/

def exLayout : Layout := ⟨4, 2, 2, 2, 1⟩
def exLand : CFile Nat := ⟨[9, -1, 2, 5], fun _ idx => 100 * idx.getD 1 0 + idx.getD 0 0⟩

example : GoodIndex exLayout exLand.index := by
  refine ⟨by simp [exLand], by decide, ?_⟩
  intro i j v hi hj h0
  have hlt : ∀ {k : Nat}, exLand.index[k]? = some v → k < 4 := by
    intro k hk
    exact (List.getElem?_eq_some_iff.1 hk).1
  have hi' := hlt hi
  have hj' := hlt hj
  simp only [exLand] at hi hj
  interval_cases i <;> interval_cases j <;> first | rfl | (simp at hi hj; omega)

example : ((scatter exLayout exLand 0 (-9) 0).map fun fs => fs.map fun g => (g.index, g.val 0 [0, 3])) =
    some [([5, 9], 303), ([2], 302)] := by decide

end Verif
