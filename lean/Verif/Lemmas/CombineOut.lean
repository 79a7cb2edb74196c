import Verif.Lemmas.CombineSet
/-
The output of mppnccombine in terms of the pieces.
-/
namespace Verif
open Spec

section
variable {α : Type} {files : List (NcFile α)} {nd : Nat} {R : Option Nat}
  {sh : List (List Nat × Option Nat)} {full : Nat → Nat} {dec : Nat → Bool}
  {iv : Nat → Nat → Int × Int}

theorem gl_full (ds : List Nat) (ivk : Nat → Int × Int) :
    (ds.map (mkDim R full dec ivk)).map (VDim.gl (numRecs R full)) = ds.map full := by
  rw [List.map_map]
  apply List.map_congr_left
  intro d _
  simp only [Function.comp, VDim.gl, mkDim]
  by_cases h : R = some d
  · simp [h, numRecs]
  · simp [h]

theorem recPart_congr (ds : List Nat) (iva ivb : Nat → Int × Int) (idx : List Nat) :
    recPart (ds.map (mkDim R full dec iva)) idx = recPart (ds.map (mkDim R full dec ivb)) idx ∧
    slabPart (ds.map (mkDim R full dec iva)) idx = slabPart (ds.map (mkDim R full dec ivb)) idx := by
  have : hasRec (ds.map (mkDim R full dec iva)) = hasRec (ds.map (mkDim R full dec ivb)) := by
    unfold hasRec; rw [List.any_map, List.any_map]; rfl
  unfold recPart slabPart
  rw [this]
  exact ⟨rfl, rfl⟩

theorem isDec_eq (h : PieceSet files nd R sh full dec iv) {p : List Nat × Option Nat} (hp : p ∈ sh)
    {k : Nat} (hk : k < files.length) :
    isDec (p.1.map (mkDim R full dec (iv k))) = p.1.any dec := by
  obtain ⟨f, hf⟩ : ∃ f, files[k]? = some f := ⟨_, List.getElem?_eq_getElem hk⟩
  obtain ⟨_, hdlt⟩ := h.dim_lt p hp
  unfold isDec
  rw [List.any_map, Bool.eq_iff_iff, List.any_eq_true, List.any_eq_true]
  constructor
  · rintro ⟨d, hd, hx⟩
    refine ⟨d, hd, ?_⟩
    simp only [Function.comp, mkDim] at hx
    by_contra hc
    simp [hc] at hx
  · rintro ⟨d, hd, hx⟩
    refine ⟨d, hd, ?_⟩
    obtain ⟨s1, s2, s3, s4⟩ := h.size k f hf d (hdlt d hd)
    simp only [Function.comp, mkDim, hx, if_true]
    simp; omega

/-- The contents of the buffers after the first `m` files in terms of the pieces. -/
theorem content_spec (h : PieceSet files nd R sh full dec iv) (zero fill : α) {n : Nat}
    {p : List Nat × Option Nat} (hp : sh[n]? = some p) {idx : List Nat}
    (hb : InBox (p.1.map full) idx) :
    ∀ m, m ≤ files.length →
      ((∀ k, k < m → ∀ l, ¬ LocalIdx (iv k) p.1 idx l) →
        content (vdsOf R full dec iv sh n) (valsOf files zero n) fill
          (recPart (vdsOf R full dec iv sh n 0) idx) m (slabPart (vdsOf R full dec iv sh n 0) idx) = fill) ∧
      (∀ k l, k < m → LocalIdx (iv k) p.1 idx l →
        (∀ k', k < k' → k' < m → ∀ l', ¬ LocalIdx (iv k') p.1 idx l') →
        content (vdsOf R full dec iv sh n) (valsOf files zero n) fill
          (recPart (vdsOf R full dec iv sh n 0) idx) m (slabPart (vdsOf R full dec iv sh n 0) idx)
          = valsOf files zero n k l) := by
  have hpm : p ∈ sh := List.mem_of_getElem? hp
  have hvd : ∀ k, vdsOf R full dec iv sh n k = p.1.map (mkDim R full dec (iv k)) := by
    intro k; simp [vdsOf, hp]
  intro m
  induction m with
  | zero =>
    intro _
    exact ⟨fun _ => rfl, fun k l hk => by omega⟩
  | succ m ih =>
    intro hm
    obtain ⟨i1, i2⟩ := ih (by omega)
    have hiff := fun l => localIdx_iff (l := l) h (k := m) (by omega) hpm hb
    obtain ⟨r1, r2⟩ := recPart_congr (R := R) (full := full) (dec := dec) p.1 (iv 0) (iv m) idx
    constructor
    · intro hno
      rw [content, upd, if_neg, i1 (fun k hk => hno k (by omega))]
      intro hin
      apply hno m (by omega) _ ((hiff _).2 ⟨?_, rfl⟩)
      rw [← r2, ← hvd m, ← hvd 0]
      exact hin
    · intro k l hk hl hlast
      by_cases hkm : k = m
      · subst hkm
        obtain ⟨q1, q2⟩ := (hiff l).1 hl
        rw [content, upd, if_pos]
        · rw [q2, hvd, hvd, r1, r2]
        · rw [hvd, hvd, r2]; exact q1
      · rw [content, upd, if_neg, i2 k l (by omega) hl (fun k' h1 h2 => hlast k' h1 (by omega))]
        intro hin
        apply hlast m (by omega) (by omega) _ ((hiff _).2 ⟨?_, rfl⟩)
        rw [← r2, ← hvd m, ← hvd 0]
        exact hin

theorem combine_out (h : PieceSet files nd R sh full dec iv) (zero : α) (missing : Bool) (junk : Int)
    (bf fuel : Nat) (hfuel : numRecs R full < fuel) :
    ∃ st, mppnccombine zero missing junk bf fuel files = .ok st ∧ st.err = false ∧
      st.nrecs = numRecs R full ∧
      ∀ (f0 : NcFile α) (n : Nat) (v : NcVar α), files[0]? = some f0 → f0.vars[n]? = some v →
        ∀ idx,
          (¬ InBox (v.dims.map full) idx → (st.var n).out idx = none) ∧
          (InBox (v.dims.map full) idx → v.dims.any dec = false →
            (st.var n).out idx = some (v.val idx)) ∧
          (InBox (v.dims.map full) idx → v.dims.any dec = true →
            (∀ k, k < files.length → ∀ l, ¬ LocalIdx (iv k) v.dims idx l) →
            (st.var n).out idx = some (if missing then v.missing.getD zero else zero)) ∧
          (InBox (v.dims.map full) idx → v.dims.any dec = true →
            ∀ (k : Nat) (f : NcFile α) (w : NcVar α) l, files[k]? = some f → f.vars[n]? = some w →
              LocalIdx (iv k) v.dims idx l →
              (∀ k', k < k' → k' < files.length → ∀ l', ¬ LocalIdx (iv k') v.dims idx l') →
              (st.var n).out idx = some (w.val l)) := by
  have hM : 0 < files.length := List.length_pos_of_ne_nil h.ne
  obtain ⟨st, a1, a2, a3, a4⟩ := mppnccombine_spec (zero := zero) (pieceSet_setOk h missing zero) junk bf fuel
    hfuel
  refine ⟨st, a1, a2, a3, ?_⟩
  intro f0 n v hf0 hv idx
  have hp := sh_get h hf0 hv
  have hn : n < sh.length := by
    by_contra hc
    rw [List.getElem?_eq_none (by omega)] at hp; cases hp
  have hpm : (v.dims, v.coord) ∈ sh := List.mem_of_getElem? hp
  have hfin := a4 n hn idx
  have hvd : ∀ k, vdsOf R full dec iv sh n k = v.dims.map (mkDim R full dec (iv k)) := by
    intro k; simp [vdsOf, hp]
  have hmiss : (missOf missing files n).getD zero = if missing then v.missing.getD zero else zero := by
    cases missing <;> simp [missOf, hf0, hv]
  have hbox : InBox ((vdsOf R full dec iv sh n 0).map (VDim.gl (numRecs R full))) idx ↔
      InBox (v.dims.map full) idx := by rw [hvd, gl_full]
  have hdec : isDec (vdsOf R full dec iv sh n 0) = v.dims.any dec := by
    rw [hvd]; exact isDec_eq h hpm hM
  refine ⟨fun hb => ?_, fun hb hd => ?_, fun hb hd hno => ?_, fun hb hd k f w l hf hw hl hlast => ?_⟩
  · rw [hfin, if_neg (by rwa [hbox])]
  · rw [hfin, if_pos (hbox.2 hb), hdec, hd]
    simp [valsOf, hf0, hv]
  · rw [hfin, if_pos (hbox.2 hb), hdec, hd]
    simp only [if_true]
    rw [(content_spec h zero _ hp hb files.length (Nat.le_refl _)).1 hno, hmiss]
  · rw [hfin, if_pos (hbox.2 hb), hdec, hd]
    simp only [if_true]
    have hkl : k < files.length := by
      by_contra hc
      rw [List.getElem?_eq_none (by omega)] at hf; cases hf
    rw [(content_spec h zero _ hp hb files.length (Nat.le_refl _)).2 k l hkl hl hlast]
    simp [valsOf, hf, hw]

end

end Verif
