import Verif.Spec.ScatterNcc
import Verif.Props.Compress
import Verif.Props.CombineNcc
import Mathlib.Tactic.Ring
import Mathlib.Tactic.Linarith
/-
Helper lemmas for scatter-ncc.
-/
namespace Verif.ScatterNcc
open Compress CombineNcc Spec

/-- The layout divides the grid, and nothing is empty. -/
structure Layout.Ok (L : Layout) : Prop where
  px : 0 < L.npex
  py : 0 < L.npey
  dx : L.nlon % L.npex = 0
  dy : L.nlat % L.npey = 0
  hx : 0 < L.nlon
  hy : 0 < L.nlat

namespace Layout
variable {L : Layout}

theorem Ok.nlon_eq (h : L.Ok) : L.nlon = L.npex * L.nlonL := by
  have := Nat.div_add_mod L.nlon L.npex
  rw [h.dx] at this
  unfold nlonL; omega
theorem Ok.nlat_eq (h : L.Ok) : L.nlat = L.npey * L.nlatL := by
  have := Nat.div_add_mod L.nlat L.npey
  rw [h.dy] at this
  unfold nlatL; omega
theorem Ok.nlonL_pos (h : L.Ok) : 0 < L.nlonL := by
  rcases Nat.eq_zero_or_pos L.nlonL with h0 | h0
  · have := h.nlon_eq; rw [h0] at this; have := h.hx; simp_all
  · exact h0
theorem Ok.nlatL_pos (h : L.Ok) : 0 < L.nlatL := by
  rcases Nat.eq_zero_or_pos L.nlatL with h0 | h0
  · have := h.nlat_eq; rw [h0] at this; have := h.hy; simp_all
  · exact h0
theorem Ok.npts_pos (h : L.Ok) : 0 < L.npts := Nat.mul_pos h.hx h.hy
theorem Ok.nptsL_pos (h : L.Ok) : 0 < L.nptsL := Nat.mul_pos h.nlonL_pos h.nlatL_pos

theorem Ok.vsizeL_eq (h : L.Ok) : L.vsizeL = L.nt * L.nptsL := by
  unfold vsizeL vsize npts
  have e : L.nlon * L.nlat * L.nt = L.nfiles * (L.nt * L.nptsL) := by
    rw [h.nlon_eq, h.nlat_eq]
    unfold nfiles nptsL
    have e1 : L.npex * L.nlonL / L.npex = L.nlonL := Nat.mul_div_cancel_left _ h.px
    ring
  rw [e, Nat.mul_div_cancel_left]
  exact Nat.mul_pos h.px h.py

/-- Inverse of `block`, `loc`. -/
def glob (L : Layout) (n k : Nat) : Nat :=
  k / L.nptsL * L.npts + ((n / L.npex * L.nlatL + k % L.nptsL / L.nlonL) * L.nlon +
    (n % L.npex * L.nlonL + k % L.nptsL % L.nlonL))

theorem mul_add_lt {a b x y : Nat} (hx : x < a) (hy : y < b) : x * b + y < a * b := by
  calc x * b + y < x * b + b := by omega
    _ = (x + 1) * b := by ring
    _ ≤ a * b := Nat.mul_le_mul_right _ hx

theorem mul_add_div' {b x y : Nat} (hy : y < b) : (x * b + y) / b = x := by
  rw [Nat.add_comm, Nat.add_mul_div_right _ _ (by omega), Nat.div_eq_of_lt hy, Nat.zero_add]
theorem mul_add_mod' {b x y : Nat} (hy : y < b) : (x * b + y) % b = y := by
  rw [Nat.add_comm, Nat.add_mul_mod_self_right, Nat.mod_eq_of_lt hy]

theorem div_lt_mul {x a b : Nat} (h : x < a * b) : x / b < a := by
  rcases Nat.eq_zero_or_pos b with hb | hb
  · subst hb; simp at h
  · exact (Nat.div_lt_iff_lt_mul hb).2 h

theorem block_lt (h : L.Ok) (l : Nat) : L.block l < L.nfiles := by
  unfold block nfiles
  have hij : l % L.npts < L.npts := Nat.mod_lt _ h.npts_pos
  have hi : l % L.npts % L.nlon < L.nlon := Nat.mod_lt _ h.hx
  have hj : l % L.npts / L.nlon < L.nlat := by
    apply div_lt_mul; rw [Nat.mul_comm]; exact hij
  rw [Nat.mul_comm L.npex]
  apply mul_add_lt
  · apply div_lt_mul; rw [← h.nlat_eq]; exact hj
  · apply div_lt_mul; rw [← h.nlon_eq]; exact hi

theorem loc_lt (h : L.Ok) {l : Nat} (hl : l < L.vsize) : L.loc l < L.vsizeL := by
  rw [h.vsizeL_eq]
  unfold loc
  have ht : l / L.npts < L.nt := by
    apply div_lt_mul; rw [Nat.mul_comm]; exact hl
  have h2 : l % L.npts / L.nlon % L.nlatL * L.nlonL + l % L.npts % L.nlon % L.nlonL < L.nlatL * L.nlonL :=
    mul_add_lt (Nat.mod_lt _ h.nlatL_pos) (Nat.mod_lt _ h.nlonL_pos)
  have := mul_add_lt (b := L.nptsL) ht (y := l % L.npts / L.nlon % L.nlatL * L.nlonL +
    l % L.npts % L.nlon % L.nlonL) (by unfold nptsL; rw [Nat.mul_comm L.nlonL]; exact h2)
  simp only
  omega

theorem glob_block_loc (h : L.Ok) (l : Nat) : L.glob (L.block l) (L.loc l) = l := by
  have hi : l % L.npts % L.nlon < L.nlon := Nat.mod_lt _ h.hx
  have h1 : l % L.npts % L.nlon / L.nlonL < L.npex := by
    apply div_lt_mul; rw [← h.nlon_eq]; exact hi
  have h2 : l % L.npts / L.nlon % L.nlatL * L.nlonL + l % L.npts % L.nlon % L.nlonL < L.nptsL := by
    unfold nptsL; rw [Nat.mul_comm L.nlonL]
    exact mul_add_lt (Nat.mod_lt _ h.nlatL_pos) (Nat.mod_lt _ h.nlonL_pos)
  have h3 : l % L.npts % L.nlon % L.nlonL < L.nlonL := Nat.mod_lt _ h.nlonL_pos
  unfold glob block loc
  simp only
  rw [mul_add_div' h1, mul_add_mod' h1, Nat.add_assoc, mul_add_div' h2, mul_add_mod' h2,
    mul_add_div' h3, mul_add_mod' h3]
  have e1 : l % L.npts / L.nlon / L.nlatL * L.nlatL + l % L.npts / L.nlon % L.nlatL =
      l % L.npts / L.nlon := by rw [Nat.mul_comm]; exact Nat.div_add_mod _ _
  have e2 : l % L.npts % L.nlon / L.nlonL * L.nlonL + l % L.npts % L.nlon % L.nlonL =
      l % L.npts % L.nlon := by rw [Nat.mul_comm]; exact Nat.div_add_mod _ _
  have e3 : l % L.npts / L.nlon * L.nlon + l % L.npts % L.nlon = l % L.npts := by
    rw [Nat.mul_comm]; exact Nat.div_add_mod _ _
  have e4 : l / L.npts * L.npts + l % L.npts = l := by
    rw [Nat.mul_comm]; exact Nat.div_add_mod _ _
  rw [e1, e2, e3, e4]

theorem glob_facts (h : L.Ok) {n k : Nat} (hn : n < L.nfiles) (hk : k < L.vsizeL) :
    L.glob n k < L.vsize ∧ L.block (L.glob n k) = n ∧ L.loc (L.glob n k) = k := by
  rw [h.vsizeL_eq] at hk
  unfold nfiles at hn
  have hr : k % L.nptsL < L.nptsL := Nat.mod_lt _ h.nptsL_pos
  have ht : k / L.nptsL < L.nt := div_lt_mul hk
  have hil : k % L.nptsL % L.nlonL < L.nlonL := Nat.mod_lt _ h.nlonL_pos
  have hjl : k % L.nptsL / L.nlonL < L.nlatL := by
    apply div_lt_mul; rw [Nat.mul_comm]; exact hr
  have hii : n % L.npex < L.npex := Nat.mod_lt _ h.px
  have hjj : n / L.npex < L.npey := by apply div_lt_mul; rw [Nat.mul_comm]; exact hn
  have hI : n % L.npex * L.nlonL + k % L.nptsL % L.nlonL < L.nlon := by
    rw [h.nlon_eq]; exact mul_add_lt hii hil
  have hJ : n / L.npex * L.nlatL + k % L.nptsL / L.nlonL < L.nlat := by
    rw [h.nlat_eq]; exact mul_add_lt hjj hjl
  have hIJ : (n / L.npex * L.nlatL + k % L.nptsL / L.nlonL) * L.nlon +
      (n % L.npex * L.nlonL + k % L.nptsL % L.nlonL) < L.npts := by
    unfold npts; rw [Nat.mul_comm L.nlon]; exact mul_add_lt hJ hI
  refine ⟨?_, ?_, ?_⟩
  · unfold glob vsize
    rw [Nat.mul_comm L.npts]
    exact mul_add_lt ht hIJ
  · unfold block glob
    simp only
    rw [mul_add_mod' hIJ, mul_add_mod' hI, mul_add_div' hI, mul_add_div' hjl, mul_add_div' hil,
      Nat.mul_comm, Nat.div_add_mod]
  · unfold loc glob
    simp only
    rw [mul_add_mod' hIJ, mul_add_div' hIJ, mul_add_mod' hI, mul_add_div' hI, mul_add_mod' hjl,
      mul_add_mod' hil, Nat.add_assoc]
    have e1 : k % L.nptsL / L.nlonL * L.nlonL + k % L.nptsL % L.nlonL = k % L.nptsL := by
      rw [Nat.mul_comm]; exact Nat.div_add_mod _ _
    rw [e1, Nat.mul_comm, Nat.div_add_mod]

end Layout

/-! ### Unpacking -/

theorem unpack_spec {α : Type} {L : Layout} {ix : List Int} (hg : GoodIndex L ix) (zero : α)
    (vals : List α) (hv : vals.length = ix.length) :
    ∃ data mask, unpack L ix zero vals = some (data, mask) ∧ data.length = L.vsize ∧
      mask.length = L.vsize ∧ ∀ l, l < L.vsize →
        (∀ k : Nat, ix[k]? = some (l : Int) → mask[l]? = some true ∧ data[l]? = vals[k]?) ∧
        ((∀ k : Nat, ix[k]? ≠ some (l : Int)) → mask[l]? = some false) := by
  have hwf : WellFormed [CDim.mk ix.length (some (ix, L.vsize))] := by
    intro d hd
    simp only [List.mem_singleton] at hd
    subst hd
    refine ⟨List.length_pos_iff.2 hg.ne, ?_⟩
    intro ix' n h
    cases h
    exact ⟨rfl, hg.lt⟩
  obtain ⟨data, mask, h1, h2, h3, h4⟩ := C18_unpack [CDim.mk ix.length (some (ix, L.vsize))] hwf vals
    (by simp [fileDims, hv]) none (List.replicate L.vsize zero) (List.replicate L.vsize false)
    (by simp [gridDims, CDim.gsize]) (by simp [gridDims, CDim.gsize])
  refine ⟨data, mask, h1, by simpa using h2, by simpa using h3, ?_⟩
  intro l hl
  obtain ⟨ha, hb⟩ := h4 [l] (by
    simp only [gridDims, CDim.gsize, List.map_cons, List.map_nil]
    exact List.Forall₂.cons hl List.Forall₂.nil)
  have hpt : ∀ k g : Nat, pointOf [CDim.mk ix.length (some (ix, L.vsize))] [k] = some [g] ↔
      ix[k]? = some (g : Int) := by
    intro k g
    simp only [pointOf]
    cases hk : ix[k]? with
    | none => simp
    | some v =>
      by_cases h0 : 0 ≤ v
      · simp [h0]; omega
      · simp [h0]; omega
  have hfd : fileDims [CDim.mk ix.length (some (ix, L.vsize))] = [ix.length] := rfl
  have hgd : gridDims [CDim.mk ix.length (some (ix, L.vsize))] = [L.vsize] := rfl
  rw [hfd, hgd] at ha hb
  have hlin : ∀ (d x : Nat), linF [d] [x] = x := by intro d x; simp [linF]
  constructor
  · intro k hk
    have hklt : k < ix.length := (List.getElem?_eq_some_iff.1 hk).1
    have := ha [k] (List.Forall₂.cons hklt List.Forall₂.nil) ((hpt k l).2 hk) (by
      intro i' hi' hlt hp
      obtain ⟨k', _, rfl, _, hnil⟩ := InBox.cons_iff.1 hi'
      rw [InBox.nil_iff] at hnil
      subst hnil
      have := hg.nodup k k' l hk ((hpt k' l).1 hp) (by omega)
      rw [hlin, hlin] at hlt
      omega)
    rw [hlin, hlin] at this
    exact ⟨this.2, this.1⟩
  · intro hno
    have := (hb (by
      intro i hi hp
      obtain ⟨k, _, rfl, _, hnil⟩ := InBox.cons_iff.1 hi
      rw [InBox.nil_iff] at hnil
      subst hnil
      exact hno k ((hpt k l).1 hp))).2
    rw [hlin] at this
    rw [this]
    simp [hl]

/-! ### Distribution -/

/-- Value and mask of an element as an option. -/
def src {α : Type} (data : List α) (mask : List Bool) (l : Nat) : Option α :=
  if mask[l]? = some true then data[l]? else none

theorem dist_spec {α : Type} {L : Layout} (h : L.Ok) (data : List α) (mask : List Bool)
    (hd : data.length = L.vsize) (hm : mask.length = L.vsize) : ∀ m, m ≤ L.vsize →
    ∃ a2, (List.range m).foldlM (distStep L data mask) (fun _ _ => none) = some a2 ∧
      ∀ n k, n < L.nfiles → k < L.vsizeL →
        a2 n k = if L.glob n k < m then src data mask (L.glob n k) else none := by
  intro m
  induction m with
  | zero => intro _; exact ⟨_, rfl, by intro n k _ _; simp⟩
  | succ m ih =>
    intro hle
    obtain ⟨a2, h1, h2⟩ := ih (by omega)
    rw [List.range_succ, List.foldlM_append, h1]
    simp only [List.foldlM_cons, List.foldlM_nil, Option.bind_eq_bind, Option.bind_some]
    have hmm : m < mask.length := by omega
    have hdm : m < data.length := by omega
    unfold distStep
    rw [List.getElem?_eq_getElem hmm, List.getElem?_eq_getElem hdm]
    cases hb : mask[m] with
    | false =>
      refine ⟨a2, rfl, ?_⟩
      intro n k hn hk
      rw [h2 n k hn hk]
      by_cases he : L.glob n k = m
      · have : src data mask m = none := by
          unfold src; rw [List.getElem?_eq_getElem hmm, hb]; simp
        rw [he, this]; simp
      · by_cases hlt : L.glob n k < m
        · rw [if_pos hlt, if_pos (by omega)]
        · rw [if_neg hlt, if_neg (by omega)]
    | true =>
      simp only
      rw [if_pos ⟨L.block_lt h m, L.loc_lt h (by omega)⟩]
      refine ⟨_, rfl, ?_⟩
      intro n k hn hk
      obtain ⟨_, g2, g3⟩ := L.glob_facts h hn hk
      by_cases he : L.glob n k = m
      · have : src data mask m = some data[m] := by
          unfold src
          rw [List.getElem?_eq_getElem hmm, hb, List.getElem?_eq_getElem hdm]; simp
        rw [if_pos (by rw [← he, g2, g3]; exact ⟨rfl, rfl⟩), he, this]; simp
      · have hne : ¬ (n = L.block m ∧ k = L.loc m) := by
          rintro ⟨rfl, rfl⟩
          exact he (L.glob_block_loc h m)
        rw [if_neg hne, h2 n k hn hk]
        by_cases hlt : L.glob n k < m
        · rw [if_pos hlt, if_pos (by omega)]
        · rw [if_neg hlt, if_neg (by omega)]

/-- Positions of the points of file `n`. -/
def ptsOf (L : Layout) (ix : List Int) (n : Nat) : List Nat :=
  ((List.range L.vsizeL).map (L.glob n)).filter fun l : Nat => decide ((l : Int) ∈ ix)

/-- The values of a slice written to file `n` are those at the valid points of its block, in the order of
the points, which does not depend on the variable. -/
theorem scatterSlice_spec {α : Type} {L : Layout} (h : L.Ok) {ix : List Int} (hg : GoodIndex L ix)
    (zero : α) (vals : List α) (hv : vals.length = ix.length) :
    ∃ s, scatterSlice L ix zero vals = some s ∧ ∀ n, n < L.nfiles →
      (s n).length = (ptsOf L ix n).length ∧
      ∀ (p l k : Nat), (ptsOf L ix n)[p]? = some l → ix[k]? = some (l : Int) → (s n)[p]? = vals[k]? := by
  obtain ⟨data, mask, h1, h2, h3, h4⟩ := unpack_spec hg zero vals hv
  obtain ⟨a2, h5, h6⟩ := dist_spec h data mask h2 h3 L.vsize (Nat.le_refl _)
  refine ⟨fun n => (List.range L.vsizeL).filterMap fun k => a2 n k, ?_, ?_⟩
  · unfold scatterSlice
    simp only [h1, Option.bind_eq_bind, Option.bind_some, h5]
    rfl
  intro n hn
  -- the values as images of the points
  let val : Nat → Option α := fun l => src data mask l
  have hval : ∀ l, l < L.vsize → (l : Int) ∈ ix → ∃ k : Nat, ix[k]? = some (l : Int) ∧
      src data mask l = vals[k]? ∧ ∃ v, vals[k]? = some v := by
    intro l hl hm
    obtain ⟨k, hk, he⟩ := List.getElem_of_mem hm
    have hk' : ix[k]? = some (l : Int) := by rw [List.getElem?_eq_getElem hk, he]
    obtain ⟨a, b⟩ := (h4 l hl).1 k hk'
    refine ⟨k, hk', ?_, ?_⟩
    · unfold src; rw [if_pos a, b]
    · exact ⟨_, List.getElem?_eq_getElem (by omega)⟩
  have hnot : ∀ l, l < L.vsize → (l : Int) ∉ ix → src data mask l = none := by
    intro l hl hm
    have := (h4 l hl).2 (by
      intro k hk
      obtain ⟨hk1, hk2⟩ := List.getElem?_eq_some_iff.1 hk
      exact hm (hk2 ▸ List.getElem_mem hk1))
    unfold src; rw [this]; simp
  have heq : ∀ ks : List Nat, (∀ k ∈ ks, k < L.vsizeL) →
      (ks.filterMap fun k => a2 n k).length =
        ((ks.map (L.glob n)).filter fun l : Nat => decide ((l : Int) ∈ ix)).length ∧
      ∀ (p l k : Nat), ((ks.map (L.glob n)).filter fun l : Nat => decide ((l : Int) ∈ ix))[p]? = some l →
        ix[k]? = some (l : Int) → (ks.filterMap fun k => a2 n k)[p]? = vals[k]? := by
    intro ks
    induction ks with
    | nil => intro _; exact ⟨rfl, by intro p l k h; simp at h⟩
    | cons k0 ks ih =>
      intro hks
      obtain ⟨ih1, ih2⟩ := ih (fun k hk => hks k (by simp [hk]))
      have hk0 := hks k0 (by simp)
      obtain ⟨g1, _, _⟩ := L.glob_facts h hn hk0
      have ha := h6 n k0 hn hk0
      rw [if_pos g1] at ha
      by_cases hm : (L.glob n k0 : Int) ∈ ix
      · obtain ⟨k1, e1, e2, v, e3⟩ := hval _ g1 hm
        rw [e2, e3] at ha
        rw [List.filterMap_cons_some ha, List.map_cons, List.filter_cons_of_pos (by simpa using hm)]
        refine ⟨by simp [ih1], ?_⟩
        intro p l k hp hk
        cases p with
        | zero =>
          simp only [List.getElem?_cons_zero, Option.some.injEq] at hp ⊢
          subst hp
          have := hg.nodup k k1 _ hk e1 (by omega)
          rw [this, e3]
        | succ p =>
          simp only [List.getElem?_cons_succ] at hp ⊢
          exact ih2 p l k hp hk
      · rw [hnot _ g1 hm] at ha
        rw [List.filterMap_cons_none ha, List.map_cons, List.filter_cons_of_neg (by simpa using hm)]
        exact ⟨ih1, ih2⟩
  exact heq _ (fun k hk => List.mem_range.1 hk)

theorem ptsOf_mem {L : Layout} (h : L.Ok) {ix : List Int} {n l : Nat} (hn : n < L.nfiles) :
    l ∈ ptsOf L ix n ↔ l < L.vsize ∧ L.block l = n ∧ (l : Int) ∈ ix := by
  unfold ptsOf
  simp only [List.mem_filter, List.mem_map, List.mem_range, decide_eq_true_eq]
  constructor
  · rintro ⟨⟨k, hk, rfl⟩, hm⟩
    obtain ⟨g1, g2, _⟩ := L.glob_facts h hn hk
    exact ⟨g1, g2, hm⟩
  · rintro ⟨hl, hb, hm⟩
    refine ⟨⟨L.loc l, L.loc_lt h hl, ?_⟩, hm⟩
    rw [← hb]; exact L.glob_block_loc h l

theorem ptsOf_nodup {L : Layout} (h : L.Ok) {ix : List Int} {n : Nat} (hn : n < L.nfiles) :
    (ptsOf L ix n).Nodup := by
  unfold ptsOf
  apply List.Nodup.filter
  apply List.Nodup.map_on _ List.nodup_range
  intro a ha b hb hab
  obtain ⟨_, _, g3⟩ := L.glob_facts h hn (List.mem_range.1 ha)
  obtain ⟨_, _, g3'⟩ := L.glob_facts h hn (List.mem_range.1 hb)
  rw [← g3, ← g3', hab]

end Verif.ScatterNcc
