import Verif.Lemmas.CombineMain
import Verif.Spec.Pieces
import Verif.Spec.Tile
/-
From the description of a set of files (`Spec.PieceSet`) to the one used for the loops (`SetOk`).
-/
namespace Verif
open Spec

/-- The new entries for a dimension after a variable has been looked at. -/
def dimUpd {α : Type} (d : Nat) (i : DimInfo) (v : NcVar α) : DimInfo :=
  if v.coord = some d then i.set v.decomp else i

theorem dimInfos_foldl {α : Type} (d : Nat) : ∀ (vs : List (NcVar α)) (ds : List DimInfo),
    (vs.foldl dimStep ds)[d]? = ds[d]?.map (fun i => vs.foldl (dimUpd d) i) := by
  intro vs
  induction vs with
  | nil => intro ds; simp
  | cons v vs ih =>
    intro ds
    rw [List.foldl_cons, ih]
    simp only [List.foldl_cons]
    cases hc : v.coord with
    | none =>
      simp [dimStep, dimUpd, hc]
    | some d' =>
      simp only [dimStep, dimUpd, hc]
      rw [List.getElem?_modify]
      by_cases h : d' = d
      · subst h
        simp only [if_true]
        cases ds[d']? <;> rfl
      · simp [h]

theorem dimUpd_undec {α : Type} (d : Nat) (i : DimInfo) (h : i.full = i.size ∧ i.start = 1 ∧ i.fin = -1) :
    ∀ (vs : List (NcVar α)), (∀ v ∈ vs, v.coord = some d → v.decomp = none) →
      vs.foldl (dimUpd d) i = i := by
  intro vs
  induction vs with
  | nil => intro _; rfl
  | cons v vs ih =>
    intro hv
    rw [List.foldl_cons]
    have : dimUpd d i v = i := by
      unfold dimUpd
      split
      · next hc =>
        rw [hv v (by simp) hc]
        obtain ⟨n, a, b, c⟩ := i
        obtain ⟨h1, h2, h3⟩ := h
        simp only at h1 h2 h3
        subst h1 h2 h3
        rfl
      · rfl
    rw [this]
    exact ih (fun w hw => hv w (by simp [hw]))

theorem dimUpd_dec {α : Type} (d : Nat) (a b c e : Int) (n : Nat) :
    ∀ (vs : List (NcVar α)), (∀ v ∈ vs, v.coord = some d → v.decomp = some (a, b, c, e)) →
      ∀ i : DimInfo, i.size = n →
      ((∃ v ∈ vs, v.coord = some d) ∨ i = ⟨n, b - a + 1, c - (a - 1), e - (a - 1)⟩) →
      vs.foldl (dimUpd d) i = ⟨n, b - a + 1, c - (a - 1), e - (a - 1)⟩ := by
  intro vs
  induction vs with
  | nil =>
    intro _ i _ h
    rcases h with ⟨v, h, _⟩ | h
    · cases h
    · exact h
  | cons v vs ih =>
    intro hv i hn h
    rw [List.foldl_cons]
    by_cases hc : v.coord = some d
    · have e1 : dimUpd d i v = ⟨n, b - a + 1, c - (a - 1), e - (a - 1)⟩ := by
        unfold dimUpd
        rw [if_pos hc, hv v (by simp) hc]
        simp [DimInfo.set, hn]
      exact ih (fun w hw => hv w (by simp [hw])) _ (by rw [e1]) (Or.inr e1)
    · have e1 : dimUpd d i v = i := by unfold dimUpd; rw [if_neg hc]
      rw [e1]
      refine ih (fun w hw => hv w (by simp [hw])) i hn ?_
      rcases h with ⟨w, h1, h2⟩ | h
      · rcases List.mem_cons.1 h1 with rfl | h1
        · exact absurd h2 hc
        · exact Or.inl ⟨w, h1, h2⟩
      · exact Or.inr h

/-- The entries of a dimension. -/
def mkDim (R : Option Nat) (full : Nat → Nat) (dec : Nat → Bool) (iv : Nat → Int × Int) (d : Nat) :
    VDim :=
  { size := ((iv d).2 - (iv d).1 + 1).toNat, full := full d, start := (iv d).1 + 1
    fin := if dec d then (iv d).2 + 1 else -1, isRec := decide (R = some d) }

section
variable {α : Type} {files : List (NcFile α)} {nd : Nat} {R : Option Nat}
  {sh : List (List Nat × Option Nat)} {full : Nat → Nat} {dec : Nat → Bool}
  {iv : Nat → Nat → Int × Int}

theorem dimInfos_get (h : PieceSet files nd R sh full dec iv) {k : Nat} {f : NcFile α}
    (hk : files[k]? = some f) {d : Nat} (hd : d < nd) :
    (dimInfos f)[d]? = some (mkDim R full dec (iv k) d).toDimInfo := by
  unfold dimInfos
  rw [dimInfos_foldl]
  obtain ⟨s1, s2, s3, s4⟩ := h.size k f hk d hd
  rw [List.getElem?_map, s4]
  simp only [Option.map_some]
  congr 1
  cases hdec : dec d with
  | false =>
    obtain ⟨e, hv⟩ := h.undecomposed k f hk d hd hdec
    rw [dimUpd_undec d _ (by simp) f.vars hv]
    simp only [mkDim, e, hdec]
    congr 1
    · rw [e] at s2; simp at s2; omega
  | true =>
    obtain ⟨hex, a, hv⟩ := h.decomposed k f hk d hd hdec
    rw [dimUpd_dec d a _ _ _ _ f.vars hv _ rfl (Or.inl hex)]
    simp only [mkDim, hdec, if_true]
    congr 1 <;> omega

theorem vdims_get (h : PieceSet files nd R sh full dec iv) {k : Nat} {f : NcFile α}
    (hk : files[k]? = some f) {v : NcVar α} (hv : v ∈ f.vars) :
    vdims f v = some (v.dims.map (mkDim R full dec (iv k))) := by
  obtain ⟨h1, h2, h3, h4⟩ := h.shape f (List.mem_of_getElem? hk)
  have hd : ∀ d ∈ v.dims, d < nd := by
    have : (v.dims, v.coord) ∈ sh := by
      rw [← h3]; exact List.mem_map_of_mem hv
    exact (h.dim_lt _ this).2
  unfold vdims
  generalize v.dims = ds at hd
  induction ds with
  | nil => rfl
  | cons d ds ih =>
    rw [List.mapM_cons, dimInfos_get h hk (hd d (by simp)), ih (fun x hx => hd x (by simp [hx])), h1]
    rfl

/-- The dimensions, coordinate role and values of variable `n` in file `k`. -/
def vdsOf (R : Option Nat) (full : Nat → Nat) (dec : Nat → Bool) (iv : Nat → Nat → Int × Int)
    (sh : List (List Nat × Option Nat)) (n k : Nat) : List VDim :=
  (((sh[n]?).map Prod.fst).getD []).map (mkDim R full dec (iv k))

def valsOf (files : List (NcFile α)) (zero : α) (n k : Nat) : List Nat → α :=
  (((files[k]?).bind (fun f => f.vars[n]?)).map (fun v => v.val)).getD (fun _ => zero)

def missOf (missing : Bool) (files : List (NcFile α)) (n : Nat) : Option α :=
  if missing then ((files[0]?).bind (fun f => f.vars[n]?)).bind (fun v => v.missing) else none

theorem sh_get (h : PieceSet files nd R sh full dec iv) {k : Nat} {f : NcFile α}
    (hk : files[k]? = some f) {n : Nat} {v : NcVar α} (hv : f.vars[n]? = some v) :
    sh[n]? = some (v.dims, v.coord) := by
  obtain ⟨h1, h2, h3, h4⟩ := h.shape f (List.mem_of_getElem? hk)
  rw [← h3, List.getElem?_map, hv]; rfl

theorem pieceSet_setOk (h : PieceSet files nd R sh full dec iv) (missing : Bool) (zero : α) :
    SetOk missing files (numRecs R full) R sh.length (fun n => (sh[n]?).bind Prod.snd)
      (vdsOf R full dec iv sh) (valsOf files zero) (missOf missing files) := by
  refine ⟨h.ne, ?_, ?_, ?_, ?_⟩
  · unfold numRecs
    cases hR : R with
    | none => exact Nat.le_refl 1
    | some r => exact (h.records r hR).2.1
  · intro k f hk
    obtain ⟨h1, h2, h3, h4⟩ := h.shape f (List.mem_of_getElem? hk)
    refine ⟨h1, ?_, h4, by rw [← h3]; simp, ?_⟩
    · unfold recCount numRecs
      rw [h1]
      cases hR : R with
      | none => rfl
      | some r =>
        obtain ⟨a1, a2, a3⟩ := h.records r hR
        have := (h.undecomposed k f hk r a1 a3).1
        simp only
        rw [(h.size k f hk r a1).2.2.2, this]
        simp
    · intro n x hx
      have hs := sh_get h hk hx
      refine ⟨?_, by simp [hs], ?_⟩
      · rw [vdims_get h hk (List.mem_of_getElem? hx)]
        simp [vdsOf, hs]
      · simp [valsOf, hk, hx]
  · intro f hf n x hx
    simp [missOf, hf, hx]
  · intro n hn
    have hp : sh[n]? = some sh[n] := List.getElem?_eq_getElem hn
    generalize hpe : sh[n] = p at hp
    have hpm : p ∈ sh := List.mem_of_getElem? hp
    obtain ⟨hrank, hdlt⟩ := h.dim_lt p hpm
    have hvd : ∀ k, vdsOf R full dec iv sh n k = p.1.map (mkDim R full dec (iv k)) := by
      intro k; simp [vdsOf, hp]
    have hfile : ∀ k, k < files.length → ∃ f, files[k]? = some f :=
      fun k hk => ⟨_, List.getElem?_eq_getElem hk⟩
    have hM : 0 < files.length := List.length_pos_of_ne_nil h.ne
    have hdecl : ∀ k, k < files.length →
        isDec (p.1.map (mkDim R full dec (iv k))) = p.1.any dec := by
      intro k hk
      obtain ⟨f, hf⟩ := hfile k hk
      unfold isDec
      rw [List.any_map, Bool.eq_iff_iff, List.any_eq_true, List.any_eq_true]
      constructor
      · rintro ⟨d, hd, hx⟩
        refine ⟨d, hd, ?_⟩
        simp only [Function.comp, mkDim] at hx
        by_contra hc
        simp [hc] at hx
      · rintro ⟨d, hd, hx⟩
        refine ⟨d, hd, ?_⟩
        obtain ⟨s1, s2, s3, s4⟩ := h.size k f hf d (hdlt d hd)
        simp only [Function.comp, mkDim, hx, if_true]
        simp; omega
    refine ⟨?_, ?_, ?_, ?_, ?_⟩
    · intro k hk
      obtain ⟨f, hf⟩ := hfile k hk
      rw [hvd]
      refine ⟨by simpa using hrank, ?_, ?_, ?_, ?_⟩
      · intro x hx
        rw [← List.map_tail] at hx
        obtain ⟨d, hd, rfl⟩ := List.mem_map.1 hx
        simp only [mkDim, decide_eq_false_iff_not]
        intro hR
        exact h.rec_first p hpm d hR hd
      · intro x hx hr
        obtain ⟨d, hd, rfl⟩ := List.mem_map.1 hx
        simp only [mkDim, decide_eq_true_eq] at hr
        obtain ⟨a1, a2, a3⟩ := h.records d hr
        have := (h.undecomposed k f hf d a1 a3).1
        simp [mkDim, numRecs, hr, a3, this]
      · intro x hx hr
        obtain ⟨d, hd, rfl⟩ := List.mem_map.1 hx
        obtain ⟨s1, s2, s3, s4⟩ := h.size k f hf d (hdlt d hd)
        simp only [mkDim]
        omega
      · intro x hx hr hfin
        obtain ⟨d, hd, rfl⟩ := List.mem_map.1 hx
        obtain ⟨s1, s2, s3, s4⟩ := h.size k f hf d (hdlt d hd)
        have hdec : dec d = false := by
          by_contra hc
          have hc : dec d = true := by simpa using hc
          simp only [mkDim, hc, if_true] at hfin
          omega
        have := (h.undecomposed k f hf d (hdlt d hd) hdec).1
        simp [mkDim, this]
    · intro k hk
      rw [hvd, hvd, List.map_map, List.map_map]
      rfl
    · intro k hk
      rw [hvd, hvd, hdecl k hk, hdecl 0 hM]
    · intro d hd hR
      simp only [hp, Option.bind_some] at hd
      rw [hvd, h.coord_dims p hpm d hd]
      simp [hasRec, mkDim, hR]
    · intro d hd hR
      simp only [hp, Option.bind_some] at hd
      have hc := h.coord_dims p hpm d hd
      rw [hvd, hdecl 0 hM, hc]
      obtain ⟨a1, a2, a3⟩ := h.records d hR
      simp [hasRec, mkDim, hR, a3]

/-- Membership in a piece, without record dimension. -/
theorem localIdx_norec (ivk : Nat → Int × Int) : ∀ (ds g l : List Nat),
    (∀ d ∈ ds, R ≠ some d ∧ 0 ≤ (ivk d).1) →
    (LocalIdx ivk ds g l ↔
      inSlab ((ds.map (mkDim R full dec ivk)).map VDim.org) ((ds.map (mkDim R full dec ivk)).map VDim.cnt) g
        = true ∧ l = subIdx g ((ds.map (mkDim R full dec ivk)).map VDim.org)) := by
  intro ds
  induction ds with
  | nil =>
    intro g l _
    cases g <;> cases l <;> simp [LocalIdx, inSlab, subIdx]
  | cons d ds ih =>
    intro g l h
    obtain ⟨hR, hp⟩ := h d (by simp)
    have ih := fun g l => ih g l (fun x hx => h x (by simp [hx]))
    have e1 : (mkDim R full dec ivk d).org = (ivk d).1.toNat := by simp [VDim.org, mkDim, hR]
    have e2 : (mkDim R full dec ivk d).cnt = ((ivk d).2 - (ivk d).1 + 1).toNat := by
      simp [VDim.cnt, mkDim, hR]
    cases g with
    | nil => simp [LocalIdx, inSlab]
    | cons a g =>
      cases l with
      | nil => simp [LocalIdx, subIdx]
      | cons b l =>
        simp only [LocalIdx, List.map_cons, inSlab, e1, e2, ih, Bool.and_eq_true, decide_eq_true_eq]
        have : subIdx (a :: g) ((ivk d).1.toNat :: ((ds.map (mkDim R full dec ivk)).map VDim.org))
            = (a - (ivk d).1.toNat) :: subIdx g ((ds.map (mkDim R full dec ivk)).map VDim.org) := rfl
        rw [this]
        constructor
        · rintro ⟨h1, h2, h3, h4, rfl⟩
          refine ⟨⟨by omega, h4⟩, ?_⟩
          congr 1; omega
        · rintro ⟨⟨h1, h2⟩, h3⟩
          obtain ⟨rfl, rfl⟩ := List.cons.inj h3
          exact ⟨by omega, by omega, by omega, h2, rfl⟩

theorem subIdx_length : ∀ (a b : List Nat), (subIdx a b).length = min a.length b.length := by
  intro a b; simp [subIdx]

/-- Membership in a piece. -/
theorem localIdx_iff (h : PieceSet files nd R sh full dec iv) {k : Nat} (hk : k < files.length)
    {p : List Nat × Option Nat} (hp : p ∈ sh) {idx l : List Nat}
    (hb : InBox (p.1.map full) idx) :
    LocalIdx (iv k) p.1 idx l ↔
      inSlab ((p.1.map (mkDim R full dec (iv k))).map VDim.org)
        ((p.1.map (mkDim R full dec (iv k))).map VDim.cnt)
        (slabPart (p.1.map (mkDim R full dec (iv k))) idx) = true ∧
      l = addIdx ((p.1.map (mkDim R full dec (iv k))).map
          (VDim.rst (recPart (p.1.map (mkDim R full dec (iv k))) idx)))
        (subIdx (slabPart (p.1.map (mkDim R full dec (iv k))) idx)
          ((p.1.map (mkDim R full dec (iv k))).map VDim.org)) := by
  obtain ⟨f, hf⟩ : ∃ f, files[k]? = some f := ⟨_, List.getElem?_eq_getElem hk⟩
  obtain ⟨_, hdlt⟩ := h.dim_lt p hp
  have hrf := h.rec_first p hp
  generalize p.1 = ds at hb hdlt hrf
  have hnorec : ∀ (ds : List Nat), (∀ d ∈ ds, d < nd) → (∀ d ∈ ds, R ≠ some d) → ∀ (g l : List Nat),
      InBox (ds.map full) g →
      (LocalIdx (iv k) ds g l ↔
        inSlab ((ds.map (mkDim R full dec (iv k))).map VDim.org)
          ((ds.map (mkDim R full dec (iv k))).map VDim.cnt) g = true ∧
        l = addIdx (List.replicate ds.length 0) (subIdx g ((ds.map (mkDim R full dec (iv k))).map VDim.org))) := by
    intro ds hd hr g l hg
    rw [localIdx_norec (iv k) ds g l (fun d hx => ⟨hr d hx, (h.size k f hf d (hd d hx)).1⟩)]
    rw [addIdx_zero _ _ (by rw [subIdx_length, hg.length]; simp)]
  cases hds : ds with
  | nil =>
    have := hnorec [] (by simp) (by simp) idx l (by simpa [hds] using hb)
    simpa [recPart, slabPart, hasRec] using this
  | cons d ds' =>
    subst hds
    have hr' : ∀ x ∈ ds', R ≠ some x := fun x hx hR => hrf x hR hx
    have hd' : ∀ x ∈ ds', x < nd := fun x hx => hdlt x (by simp [hx])
    by_cases hR : R = some d
    · have hrec : hasRec ((d :: ds').map (mkDim R full dec (iv k))) = true := by
        simp [hasRec, mkDim, hR]
      obtain ⟨a1, a2, a3⟩ := h.records d hR
      have hiv := (h.undecomposed k f hf d a1 a3).1
      rw [List.map_cons, InBox.cons_iff] at hb
      obtain ⟨i, is, rfl, b1, b2⟩ := hb
      unfold recPart slabPart
      rw [hrec]
      simp only [if_true, List.headD_cons, List.tail_cons, List.map_cons]
      have hn := hnorec ds' hd' hr' is
      have hrst : (ds'.map (mkDim R full dec (iv k))).map (VDim.rst i) = List.replicate ds'.length 0 := by
        rw [map_rst_norec]
        · simp
        · intro x hx
          obtain ⟨y, hy, rfl⟩ := List.mem_map.1 hx
          simp [mkDim, hr' y hy]
      rw [hrst]
      have e1 : (mkDim R full dec (iv k) d).org = 0 := by simp [VDim.org, mkDim, hR]
      have e2 : (mkDim R full dec (iv k) d).cnt = 1 := by simp [VDim.cnt, mkDim, hR]
      have e3 : (mkDim R full dec (iv k) d).rst i = i := by simp [VDim.rst, mkDim, hR]
      rw [e1, e2, e3]
      cases l with
      | nil => simp [LocalIdx, addIdx, subIdx]
      | cons c l =>
        simp only [LocalIdx, hiv, hn l b2, inSlab]
        simp only [addIdx, subIdx, List.zipWith_cons_cons]
        constructor
        · rintro ⟨_, _, h3, h4, rfl⟩
          refine ⟨by simpa using h4, ?_⟩
          congr 1; omega
        · rintro ⟨h4, h5⟩
          obtain ⟨rfl, rfl⟩ := List.cons.inj h5
          exact ⟨by omega, by omega, by omega, by simpa using h4, rfl⟩
    · have hr'' : ∀ x ∈ d :: ds', R ≠ some x := by
        intro x hx
        rcases List.mem_cons.1 hx with rfl | hx
        · exact hR
        · exact hr' x hx
      have hnr : ∀ x ∈ (d :: ds').map (mkDim R full dec (iv k)), x.isRec = false := by
        intro x hx
        obtain ⟨y, hy, rfl⟩ := List.mem_map.1 hx
        simp [mkDim, hr'' y hy]
      have hrec := hasRec_eq_false.2 hnr
      have := hnorec (d :: ds') hdlt hr'' idx l hb
      rw [map_rst_norec _ _ hnr]
      unfold slabPart
      rw [hrec]
      simpa using this

end

end Verif
