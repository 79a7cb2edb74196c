import Verif.Model.Combine
import Verif.Lemmas.NcArray
import Verif.Lemmas.GlobalField
import Mathlib.Tactic.Set
/-
Helper lemmas for mppnccombine (C09-C12, C15).
-/
namespace Verif

/-- All index vectors of a box in row-major order. -/
def nest {β : Type} : List Nat → (List Nat → β) → List β
  | [], g => [g []]
  | c :: cs, g => (List.range c).flatMap (fun i => nest cs (fun is => g (i :: is)))

theorem range_prod_map {β : Type} : ∀ (cnt : List Nat) (g : List Nat → β),
    (List.range cnt.prod).map (fun n => g (unflat cnt n)) = nest cnt g := by
  intro cnt
  induction cnt with
  | nil => intro g; simp [nest, unflat]
  | cons c cs ih =>
    intro g
    rw [List.prod_cons, range_mul_map]
    simp only [nest]
    apply flatMap_congr_mem
    intro i _
    rw [← ih]
    apply List.map_congr_left
    intro y hy
    rw [List.mem_range] at hy
    simp only [unflat]
    rw [Nat.mul_comm, Nat.mul_add_div (by omega), Nat.div_eq_of_lt hy, Nat.mul_add_mod,
      Nat.mod_eq_of_lt hy, Nat.add_zero]

theorem flatMap_single {γ δ : Type} (f : γ → δ) (l : List γ) : l.flatMap (fun x => [f x]) = l.map f := by
  induction l with
  | nil => rfl
  | cons a l ih => simp [ih]

/-- Number of points of a dimension that one record of the file has. -/
def VDim.cnt (d : VDim) : Nat := if d.isRec then 1 else d.size
/-- Length of a dimension in the buffer for one record of the whole domain. -/
def VDim.fl (d : VDim) : Nat := if d.isRec then 1 else d.full.toNat
/-- First point of the file's part in that buffer. -/
def VDim.org (d : VDim) : Nat := if d.isRec then 0 else (d.start - 1).toNat

structure GoodVd (NR : Nat) (vd : List VDim) : Prop where
  rank : vd.length ≤ 4
  recFirst : ∀ d ∈ vd.tail, d.isRec = false
  recSize : ∀ d ∈ vd, d.isRec = true → d.size = NR ∧ d.fin = -1
  ext : ∀ d ∈ vd, d.isRec = false → 1 ≤ d.start ∧ d.start - 1 + d.size ≤ d.full
  undec : ∀ d ∈ vd, d.isRec = false → d.fin = -1 → d.start = 1 ∧ d.full = d.size

theorem copyOffsets_eq (NR : Nat) (vd : List VDim) (r : Nat) (hg : GoodVd NR vd)
    (hd : isDec vd = true) :
    copyOffsets vd r = (List.range (vd.map VDim.cnt).prod).map (fun n =>
      ((flat (vd.map VDim.fl) (addIdx (vd.map VDim.org) (unflat (vd.map VDim.cnt) n)) : Nat) : Int)) := by
  rw [range_prod_map (vd.map VDim.cnt)
    (fun l => ((flat (vd.map VDim.fl) (addIdx (vd.map VDim.org) l) : Nat) : Int))]
  have key : ∀ d ∈ vd, d.isRec = false →
      ((d.full.toNat : Nat) : Int) = d.full ∧ ((d.start.toNat - 1 : Nat) : Int) = d.start - 1 := by
    intro d hd' hr
    have := hg.ext d hd' hr
    omega
  match vd, hg.rank, hd with
  | [], _, hd => simp [isDec] at hd
  | [a], _, hd =>
    have ha : a.isRec = false := by
      by_contra h
      have := (hg.recSize a (by simp) (by simpa using h)).2
      simp [isDec, this] at hd
    obtain ⟨a1, a2⟩ := key a (by simp) ha
    simp [copyOffsets, nest, flatMap_single, List.flatMap_map, Function.comp_def, hasRec, ha, VDim.cnt, VDim.fl, VDim.org, flat, addIdx, a2]
    intro i _; omega
  | [a, b], _, hd =>
    have hb : b.isRec = false := hg.recFirst b (by simp)
    obtain ⟨b1, b2⟩ := key b (by simp) hb
    cases ha : a.isRec with
    | true =>
      simp [copyOffsets, nest, flatMap_single, List.flatMap_map, Function.comp_def, hasRec, ha, hb, VDim.cnt, VDim.fl, VDim.org, flat,
        addIdx, b2]
      intro i _; omega
    | false =>
      obtain ⟨a1, a2⟩ := key a (by simp) ha
      simp [copyOffsets, nest, flatMap_single, List.flatMap_map, Function.comp_def, hasRec, ha, hb, VDim.cnt, VDim.fl, VDim.org, flat,
        addIdx, a2, b1, b2]
      apply flatMap_congr_mem
      intro j _
      apply List.map_congr_left
      intro i _
      ring
  | [a, b, c], _, hd =>
    have hb : b.isRec = false := hg.recFirst b (by simp)
    have hc : c.isRec = false := hg.recFirst c (by simp)
    obtain ⟨b1, b2⟩ := key b (by simp) hb
    obtain ⟨c1, c2⟩ := key c (by simp) hc
    cases ha : a.isRec with
    | true =>
      simp [copyOffsets, nest, flatMap_single, List.flatMap_map, Function.comp_def, hasRec, ha, hb, hc, VDim.cnt, VDim.fl, VDim.org, flat,
        addIdx, b1, b2, c1, c2]
      apply flatMap_congr_mem
      intro j _
      apply List.map_congr_left
      intro i _
      ring
    | false =>
      obtain ⟨a1, a2⟩ := key a (by simp) ha
      simp [copyOffsets, nest, flatMap_single, List.flatMap_map, Function.comp_def, hasRec, ha, hb, hc, VDim.cnt, VDim.fl, VDim.org, flat,
        addIdx, a2, b1, b2, c1, c2]
      apply flatMap_congr_mem
      intro k _
      apply flatMap_congr_mem
      intro j _
      apply List.map_congr_left
      intro i _
      ring
  | [a, b, c, d], _, hd =>
    have hb : b.isRec = false := hg.recFirst b (by simp)
    have hc : c.isRec = false := hg.recFirst c (by simp)
    have hd' : d.isRec = false := hg.recFirst d (by simp)
    obtain ⟨b1, b2⟩ := key b (by simp) hb
    obtain ⟨c1, c2⟩ := key c (by simp) hc
    obtain ⟨d1, d2⟩ := key d (by simp) hd'
    cases ha : a.isRec with
    | true =>
      simp [copyOffsets, nest, flatMap_single, List.flatMap_map, Function.comp_def, hasRec, ha, hb, hc, hd', VDim.cnt, VDim.fl, VDim.org,
        flat, addIdx, b1, b2, c1, c2, d1, d2]
      apply flatMap_congr_mem
      intro k _
      apply flatMap_congr_mem
      intro j _
      apply List.map_congr_left
      intro i _
      ring
    | false =>
      obtain ⟨a1, a2⟩ := key a (by simp) ha
      simp [copyOffsets, nest, flatMap_single, List.flatMap_map, Function.comp_def, hasRec, ha, hb, hc, hd', VDim.cnt, VDim.fl, VDim.org,
        flat, addIdx, a2, b1, b2, c1, c2, d1, d2]
      apply flatMap_congr_mem
      intro l _
      apply flatMap_congr_mem
      intro k _
      apply flatMap_congr_mem
      intro j _
      apply List.map_congr_left
      intro i _
      ring

theorem writeCells_range {α : Type} (values : Nat → α) (N : Nat) (φ : Nat → Int) (size : Int)
    (hin : ∀ n, n < N → 0 ≤ φ n ∧ φ n < size)
    (hinj : ∀ n m, n < N → m < N → φ n = φ m → n = m) :
    ∀ (k s : Nat) (b : Buf α), s + k = N → b.size = size →
      ∃ b', writeCells values N ((List.range' s k).map φ) s b = .ok b' ∧ b'.size = size ∧
        (∀ n, s ≤ n → n < N → b'.cell (φ n) = values n) ∧
        (∀ a, (∀ n, s ≤ n → n < N → φ n ≠ a) → b'.cell a = b.cell a) := by
  intro k
  induction k with
  | zero =>
    intro s b hs hb
    exact ⟨b, rfl, hb, fun n h1 h2 => by omega, fun _ _ => rfl⟩
  | succ k ih =>
    intro s b hs hb
    have := hin s (by omega)
    simp only [List.range'_succ, List.map_cons, writeCells]
    rw [if_pos (by rw [hb]; omega)]
    obtain ⟨b', h1, h2, h3, h4⟩ := ih (s + 1)
      { b with cell := fun a => if a = φ s then values s else b.cell a } (by omega) hb
    refine ⟨b', h1, h2, ?_, ?_⟩
    · intro n hn hN
      by_cases h : n = s
      · subst h
        rw [h4 (φ n) (fun m hm hmN he => by have := hinj m n hmN hN he; omega)]
        simp
      · exact h3 n (by omega) hN
    · intro a ha
      rw [h4 a (fun n hn hN => ha n (by omega) hN)]
      simp only []
      rw [if_neg (fun h => ha s (by omega) (by omega) h.symm)]

/-- Start of record `r` in a variable. -/
def VDim.rst (r : Nat) (d : VDim) : Nat := if d.isRec then r else 0

/-- A buffer holds `c`. -/
def BufIs {α : Type} (F : List Nat) (c : List Nat → α) (b : Buf α) : Prop :=
  b.size = (F.prod : Int) ∧ ∀ g, InBox F g → b.cell (flat F g : Nat) = c g

/-- The new contents after a file has been copied into the buffer. -/
def upd {α : Type} (vd : List VDim) (val : List Nat → α) (r : Nat) (c : List Nat → α) : List Nat → α :=
  fun g => if inSlab (vd.map VDim.org) (vd.map VDim.cnt) g = true
    then val (addIdx (vd.map (VDim.rst r)) (subIdx g (vd.map VDim.org))) else c g

theorem GoodVd.tail {NR : Nat} {d : VDim} {vd : List VDim} (h : GoodVd NR (d :: vd)) :
    GoodVd NR vd where
  rank := by have := h.rank; simp at this; omega
  recFirst := fun x hx => h.recFirst x (List.mem_of_mem_tail hx)
  recSize := fun x hx => h.recSize x (by simp [hx])
  ext := fun x hx => h.ext x (by simp [hx])
  undec := fun x hx => h.undec x (by simp [hx])

theorem GoodVd.slab {NR : Nat} : ∀ {vd : List VDim}, GoodVd NR vd →
    List.Forall₂ (fun (p : Nat × Nat) (d : Nat) => p.1 + p.2 ≤ d)
      ((vd.map VDim.org).zip (vd.map VDim.cnt)) (vd.map VDim.fl) := by
  intro vd
  induction vd with
  | nil => intro _; exact .nil
  | cons d vd ih =>
    intro h
    refine .cons ?_ (ih h.tail)
    cases hr : d.isRec with
    | true => simp [VDim.org, VDim.cnt, VDim.fl, hr]
    | false =>
      have := h.ext d (by simp) hr
      simp only [VDim.org, VDim.cnt, VDim.fl, hr]
      simp
      omega

theorem GoodVd.size {NR : Nat} : ∀ {vd : List VDim}, GoodVd NR vd →
    (vd.map (fun d => if d.isRec then (1 : Int) else d.full)).prod = ((vd.map VDim.fl).prod : Nat) := by
  intro vd
  induction vd with
  | nil => intro _; rfl
  | cons d vd ih =>
    intro h
    simp only [List.map_cons, List.prod_cons, Nat.cast_mul]
    rw [ih h.tail]
    congr 1
    cases hr : d.isRec with
    | true => simp [VDim.fl, hr]
    | false =>
      have := h.ext d (by simp) hr
      simp only [VDim.fl, hr]
      simp
      omega

theorem procVar_dec {α : Type} (zero : α) (miss : Option α) (append : Bool) (bf r f NR : Nat)
    (recdim coord : Option Nat) (vd : List VDim) (val : List Nat → α) (st : VSt α)
    (hg : GoodVd NR vd) (hd : isDec vd = true) (hr : r < NR) (hbf : 0 < bf)
    (hs : skipVar r f append (hasRec vd) (isDec vd) recdim coord = false)
    (c : List Nat → α)
    (hbuf : match st.buf (r % bf) with
      | some b => BufIs (vd.map VDim.fl) c b
      | none => c = fun _ => miss.getD zero) :
    ∃ b, procVar zero miss append bf r f recdim coord vd val st =
        .ok (some { st with buf := fun s => if s = r % bf then some b else st.buf s }) ∧
      BufIs (vd.map VDim.fl) (upd vd val r c) b := by
  have hany : vd.any (fun d => d.isRec && decide (d.size ≤ r)) = false := by
    rw [List.any_eq_false]
    intro d hd'
    cases hdr : d.isRec with
    | true =>
      have := (hg.recSize d hd' hdr).1
      simp; omega
    | false => simp
  obtain ⟨b0, hb0, hb0'⟩ : ∃ b0, ((st.buf (r % bf)).getD
        { size := (vd.map (fun d => if d.isRec then (1 : Int) else d.full)).prod
          cell := fun _ => miss.getD zero }) = b0 ∧ BufIs (vd.map VDim.fl) c b0 := by
    cases h : st.buf (r % bf) with
    | some b => rw [h] at hbuf; exact ⟨b, rfl, hbuf⟩
    | none =>
      rw [h] at hbuf
      refine ⟨_, rfl, hg.size, ?_⟩
      intro g _
      rw [hbuf]
      rfl
  set F := vd.map VDim.fl with hF
  set C := vd.map VDim.cnt with hC
  set O := vd.map VDim.org with hO
  have hlen : O.length = C.length := by simp [hO, hC]
  have hbox : ∀ n, n < C.prod → InBox F (addIdx O (unflat C n)) := fun n hn =>
    inBox_addIdx hlen hg.slab (inBox_unflat hn)
  obtain ⟨b, h1, h2, h3, h4⟩ := writeCells_range
    (getVara val (vd.map (fun d => if d.isRec then r else 0)) C) C.prod
    (fun n => ((flat F (addIdx O (unflat C n)) : Nat) : Int)) (F.prod : Int)
    (fun n hn => ⟨by simp, by have := flat_lt (hbox n hn); exact_mod_cast this⟩)
    (fun n m hn hm h => by
      have h := flat_inj (hbox n hn) (hbox m hm) (by exact_mod_cast h)
      have h' := congrArg (fun x => subIdx x O) h
      rw [subIdx_addIdx (by rw [hlen, (inBox_unflat hn).length]),
        subIdx_addIdx (by rw [hlen, (inBox_unflat hm).length])] at h'
      rw [← flat_unflat hn, ← flat_unflat hm, h'])
    C.prod 0 b0 (by simp) hb0'.1
  refine ⟨b, ?_, h2, ?_⟩
  · unfold procVar
    rw [hs, hany]
    simp only [Bool.false_eq_true, if_false]
    rw [hd]
    simp only [Bool.true_eq_false, if_false]
    rw [if_neg (by omega), hb0, copyOffsets_eq NR vd r hg hd]
    have hCe : (vd.map (fun d => if d.isRec then 1 else d.size)) = C := rfl
    rw [hCe]
    rw [← List.range_eq_range'] at h1
    rw [h1]
  · intro g hgF
    unfold upd
    split
    · next hin =>
      obtain ⟨x, hx, _, rfl⟩ := inSlab_iff.1 hin
      have := h3 (flat C x) (by omega) (flat_lt hx)
      rw [unflat_flat hx] at this
      rw [this]
      unfold getVara
      rw [unflat_flat hx, subIdx_addIdx (by rw [hlen, hx.length])]
      rfl
    · next hin =>
      rw [h4, hb0'.2 g hgF]
      intro n _ hn he
      apply hin
      rw [← flat_inj (hbox n hn) hgF (by exact_mod_cast he)]
      exact inSlab_iff.2 ⟨_, inBox_unflat hn, hlen, rfl⟩

/-- Lengths of the dimensions in the output file. -/
def VDim.gl (NR : Nat) (d : VDim) : Nat := if d.isRec then NR else d.full.toNat

/-- Record number of an index. -/
def recPart (vd : List VDim) (idx : List Nat) : Nat := if hasRec vd then idx.headD 0 else 0
/-- Position within the record. -/
def slabPart (vd : List VDim) (idx : List Nat) : List Nat := if hasRec vd then 0 :: idx.tail else idx

theorem hasRec_tail {NR : Nat} {vd : List VDim} (h : GoodVd NR vd) :
    ∀ d ∈ vd.tail, d.isRec = false := h.recFirst

theorem map_norec {β : Type} (f g : VDim → β) (vd : List VDim) (h : ∀ d ∈ vd, d.isRec = false)
    (hfg : ∀ d : VDim, d.isRec = false → f d = g d) : vd.map f = vd.map g :=
  List.map_congr_left (fun d hd => hfg d (h d hd))

theorem hasRec_eq_false {vd : List VDim} : hasRec vd = false ↔ ∀ d ∈ vd, d.isRec = false := by
  simp [hasRec, List.any_eq_false]

theorem map_rst_norec (r : Nat) (vd : List VDim) (h : ∀ d ∈ vd, d.isRec = false) :
    vd.map (VDim.rst r) = List.replicate vd.length 0 := by
  rw [map_norec (VDim.rst r) (fun _ => 0) vd h (fun d hd => by simp [VDim.rst, hd])]
  simp

theorem inSlab_zero {F idx : List Nat} :
    inSlab (List.replicate F.length 0) F idx = true ↔ InBox F idx := by
  rw [inSlab_iff]
  constructor
  · rintro ⟨x, hx, _, rfl⟩
    rw [addIdx_zero _ _ hx.length.symm]; exact hx
  · intro h
    exact ⟨idx, h, by simp, (addIdx_zero _ _ h.length.symm).symm⟩

theorem subIdx_zero {F idx : List Nat} (h : InBox F idx) :
    subIdx idx (List.replicate F.length 0) = idx := by
  conv => lhs; rw [← addIdx_zero idx F.length h.length.symm]
  rw [subIdx_addIdx (by simp [h.length])]

/-- The block of record `r` in the output. -/
theorem slab_spec {NR r : Nat} {vd : List VDim} (hg : GoodVd NR vd) (hr : r < NR)
    (hr0 : hasRec vd = false → r = 0) (idx : List Nat) :
    (inSlab (vd.map (VDim.rst r)) (vd.map VDim.fl) idx = true ↔
      InBox (vd.map (VDim.gl NR)) idx ∧ recPart vd idx = r) ∧
    (InBox (vd.map (VDim.gl NR)) idx → recPart vd idx = r →
      subIdx idx (vd.map (VDim.rst r)) = slabPart vd idx ∧ InBox (vd.map VDim.fl) (slabPart vd idx) ∧
      addIdx (vd.map (VDim.rst r)) (slabPart vd idx) = idx) := by
  cases hh : hasRec vd with
  | false =>
    have hn := hasRec_eq_false.1 hh
    have hrz := hr0 hh
    rw [map_rst_norec r vd hn,
      map_norec (VDim.gl NR) VDim.fl vd hn (fun d hd => by simp [VDim.gl, VDim.fl, hd])]
    have hl : vd.length = (vd.map VDim.fl).length := by simp
    rw [hl]
    simp only [recPart, slabPart, hh]
    refine ⟨by rw [inSlab_zero]; simp [hrz], fun h _ => ⟨by simpa using subIdx_zero h, by simpa using h, ?_⟩⟩
    simpa using addIdx_zero idx _ h.length.symm
  | true =>
    match vd, hg, hh with
    | [], _, hh => simp [hasRec] at hh
    | d :: ds, hg, hh =>
      have hn : ∀ x ∈ ds, x.isRec = false := hg.recFirst
      have hdr : d.isRec = true := by
        by_contra hc
        have : hasRec (d :: ds) = false := by
          rw [hasRec_eq_false]
          intro x hx
          rcases List.mem_cons.1 hx with rfl | hx
          · simpa using hc
          · exact hn x hx
        rw [this] at hh; simp at hh
      simp only [List.map_cons, recPart, slabPart, hh, if_true]
      rw [map_rst_norec r ds hn,
        map_norec (VDim.gl NR) VDim.fl ds hn (fun d hd => by simp [VDim.gl, VDim.fl, hd])]
      have e1 : d.rst r = r := by simp [VDim.rst, hdr]
      have e2 : d.fl = 1 := by simp [VDim.fl, hdr]
      have e3 : d.gl NR = NR := by simp [VDim.gl, hdr]
      have hl : ds.length = (ds.map VDim.fl).length := by simp
      rw [e1, e2, e3, hl, InBox.cons_iff]
      constructor
      · cases idx with
        | nil => simp [inSlab]
        | cons i is =>
          simp only [inSlab, Bool.and_eq_true, decide_eq_true_eq, inSlab_zero, List.headD_cons]
          constructor
          · rintro ⟨h1, h2⟩; exact ⟨⟨i, is, rfl, by omega, h2⟩, by omega⟩
          · rintro ⟨⟨i', is', he, h1, h2⟩, h3⟩
            obtain ⟨rfl, rfl⟩ := List.cons.inj he
            exact ⟨by omega, h2⟩
      · rintro ⟨i, is, rfl, h1, h2⟩ h3
        simp only [List.headD_cons] at h3
        subst h3
        refine ⟨?_, InBox.cons_iff.2 ⟨0, is, rfl, by omega, h2⟩, ?_⟩
        · have := subIdx_zero h2
          simpa [subIdx] using this
        · have := addIdx_zero is _ h2.length.symm
          simpa [addIdx] using this

/-- The write of a variable that is not decomposed. -/
theorem procVar_nodec {α : Type} (zero : α) (miss : Option α) (append : Bool) (bf r f NR : Nat)
    (recdim coord : Option Nat) (vd : List VDim) (val : List Nat → α) (st : VSt α)
    (hg : GoodVd NR vd) (hd : isDec vd = false) (hr : r < NR) (hr0 : hasRec vd = false → r = 0)
    (hs : skipVar r f append (hasRec vd) (isDec vd) recdim coord = false) :
    ∃ out', procVar zero miss append bf r f recdim coord vd val st =
        .ok (some { st with out := out' }) ∧
      ∀ idx, out' idx = if InBox (vd.map (VDim.gl NR)) idx ∧ recPart vd idx = r then some (val idx)
        else st.out idx := by
  have hany : vd.any (fun d => d.isRec && decide (d.size ≤ r)) = false := by
    rw [List.any_eq_false]
    intro d hd'
    cases hdr : d.isRec with
    | true =>
      have := (hg.recSize d hd' hdr).1
      simp; omega
    | false => simp
  unfold procVar
  rw [hs, hany]
  simp only [Bool.false_eq_true, if_false]
  rw [hd]
  simp only [if_true]
  refine ⟨_, rfl, ?_⟩
  intro idx
  have hfin : ∀ d ∈ vd, d.fin = -1 := by
    intro d hd'
    by_contra hc
    rw [isDec, List.any_eq_false] at hd
    exact hd d hd' (by simpa using hc)
  have e1 : vd.map (fun d => if d.isRec then 1 else d.size) = vd.map VDim.fl := by
    apply List.map_congr_left
    intro d hd'
    cases hdr : d.isRec with
    | true => simp [VDim.fl, hdr]
    | false =>
      have := hg.undec d hd' hdr (hfin d hd')
      simp [VDim.fl, hdr, this.2]
  have e2 : vd.map (fun d => if d.isRec then r else (d.start - 1).toNat) = vd.map (VDim.rst r) := by
    apply List.map_congr_left
    intro d hd'
    cases hdr : d.isRec with
    | true => simp [VDim.rst, hdr]
    | false =>
      have := hg.undec d hd' hdr (hfin d hd')
      simp [VDim.rst, hdr, this.1]
  have e3 : vd.map (fun d => if d.isRec then r else 0) = vd.map (VDim.rst r) := rfl
  rw [e1, e2, e3]
  obtain ⟨s1, s2⟩ := slab_spec hg hr hr0 idx
  by_cases h : InBox (vd.map (VDim.gl NR)) idx ∧ recPart vd idx = r
  · rw [if_pos h]
    unfold putVara
    rw [if_pos (s1.2 h)]
    obtain ⟨t1, t2, t3⟩ := s2 h.1 h.2
    rw [t1]
    unfold getVara
    beta_reduce
    rw [unflat_flat t2, t3]
  · rw [if_neg h, putVara_out]
    rwa [s1]

theorem flushVar_spec {α : Type} (o : OutVar α) (bf r NR : Nat) (st : VSt α) (b : Buf α)
    (c : List Nat → α) (hg : GoodVd NR o.vd) (hd : isDec o.vd = true) (hr : r < NR) (hbf : 0 < bf)
    (hr0 : hasRec o.vd = false → r = 0) (hb : st.buf (r % bf) = some b)
    (hb' : BufIs (o.vd.map VDim.fl) c b) :
    ∃ out', flushVar o bf r st = .ok { st with out := out' } ∧
      ∀ idx, out' idx = if InBox (o.vd.map (VDim.gl NR)) idx ∧ recPart o.vd idx = r
        then some (c (slabPart o.vd idx)) else st.out idx := by
  unfold flushVar
  rw [hd, hb]
  simp only [Bool.true_eq_false, if_false]
  rw [if_neg (by rintro ⟨h1, h2⟩; have := hr0 h1; omega), if_neg (by omega)]
  have e1 : o.vd.map (fun d => if d.isRec then 1 else d.full.toNat) = o.vd.map VDim.fl := rfl
  rw [e1, if_neg (by rw [hb'.1]; omega)]
  refine ⟨_, rfl, ?_⟩
  intro idx
  have e3 : o.vd.map (fun d => if d.isRec then r else 0) = o.vd.map (VDim.rst r) := rfl
  rw [e3]
  obtain ⟨s1, s2⟩ := slab_spec hg hr hr0 idx
  by_cases h : InBox (o.vd.map (VDim.gl NR)) idx ∧ recPart o.vd idx = r
  · rw [if_pos h]
    unfold putVara
    rw [if_pos (s1.2 h)]
    obtain ⟨t1, t2, t3⟩ := s2 h.1 h.2
    rw [t1]
    beta_reduce
    rw [hb'.2 _ t2]
  · rw [if_neg h, putVara_out]
    rwa [s1]

end Verif
