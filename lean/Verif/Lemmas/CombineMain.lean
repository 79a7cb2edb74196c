import Verif.Lemmas.Combine
import Mathlib.Tactic.Convert
/-
The loops of mppnccombine over variables, records, files and blocks (C09-C12, C15).
-/
namespace Verif

structure VarOk (NR M : Nat) (R coord : Option Nat) (vds : Nat → List VDim) : Prop where
  good : ∀ k, k < M → GoodVd NR (vds k)
  same : ∀ k, k < M → (vds k).map (fun d => (d.isRec, d.full)) = (vds 0).map (fun d => (d.isRec, d.full))
  dec : ∀ k, k < M → isDec (vds k) = isDec (vds 0)
  coordOther : ∀ d, coord = some d → R ≠ some d → hasRec (vds 0) = false
  coordRec : ∀ d, coord = some d → R = some d → isDec (vds 0) = false ∧ hasRec (vds 0) = true

theorem map_of_same {β : Type} (f : VDim → β) (g : Bool × Int → β)
    (h : ∀ d : VDim, f d = g (d.isRec, d.full)) {a b : List VDim}
    (hs : a.map (fun d => (d.isRec, d.full)) = b.map (fun d => (d.isRec, d.full))) :
    a.map f = b.map f := by
  have e : ∀ l : List VDim, l.map f = (l.map (fun d => (d.isRec, d.full))).map g := by
    intro l; rw [List.map_map]; exact List.map_congr_left (fun d _ => h d)
  rw [e, e, hs]

namespace VarOk
variable {NR M : Nat} {R coord : Option Nat} {vds : Nat → List VDim}

theorem fl_eq (h : VarOk NR M R coord vds) {k : Nat} (hk : k < M) :
    (vds k).map VDim.fl = (vds 0).map VDim.fl :=
  map_of_same VDim.fl (fun p => if p.1 then 1 else p.2.toNat) (fun _ => rfl) (h.same k hk)

theorem gl_eq (h : VarOk NR M R coord vds) {k : Nat} (hk : k < M) :
    (vds k).map (VDim.gl NR) = (vds 0).map (VDim.gl NR) :=
  map_of_same (VDim.gl NR) (fun p => if p.1 then NR else p.2.toNat) (fun _ => rfl) (h.same k hk)

theorem rst_eq (h : VarOk NR M R coord vds) {k : Nat} (hk : k < M) (r : Nat) :
    (vds k).map (VDim.rst r) = (vds 0).map (VDim.rst r) :=
  map_of_same (VDim.rst r) (fun p => if p.1 then r else 0) (fun _ => rfl) (h.same k hk)

theorem hasRec_eq (h : VarOk NR M R coord vds) {k : Nat} (hk : k < M) :
    hasRec (vds k) = hasRec (vds 0) := by
  have e : ∀ l : List VDim, hasRec l = (l.map (fun d => d.isRec)).any id := by
    intro l; simp [hasRec, List.any_map]
  rw [e, e, map_of_same (fun d => d.isRec) (fun p => p.1) (fun _ => rfl) (h.same k hk)]

end VarOk

/-- Contents of the buffer for record `r` after the first `m` files. -/
def content {α : Type} (vds : Nat → List VDim) (vals : Nat → List Nat → α) (fill : α) (r : Nat) :
    Nat → List Nat → α
  | 0 => fun _ => fill
  | m + 1 => upd (vds m) (vals m) r (content vds vals fill r m)

/-- Has the variable something to store for record `rs`? -/
def Active (vd : List VDim) (rs : Nat) : Prop := hasRec vd = true ∨ rs = 0

/-- State of a variable while file `k` is processed, before record `r` of the block that starts at
record `lo`. -/
def VInv {α : Type} (NR M bf : Nat) (vds : Nat → List VDim) (vals : Nat → List Nat → α) (fill : α)
    (lo k r : Nat) (s : VSt α) : Prop :=
  (isDec (vds 0) = true →
    (∀ rs, lo ≤ rs → rs < lo + bf → Active (vds 0) rs → rs < NR → (rs < r ∨ 0 < k) →
      ∃ b, s.buf (rs % bf) = some b ∧
        BufIs ((vds 0).map VDim.fl) (content vds vals fill rs (if rs < r then k + 1 else k)) b) ∧
    (∀ rs, lo ≤ rs → rs < lo + bf → ¬ (Active (vds 0) rs ∧ rs < NR ∧ (rs < r ∨ 0 < k)) →
      s.buf (rs % bf) = none) ∧
    ∀ idx, s.out idx = if InBox ((vds 0).map (VDim.gl NR)) idx ∧ recPart (vds 0) idx < lo
      then some (content vds vals fill (recPart (vds 0) idx) M (slabPart (vds 0) idx)) else none) ∧
  (isDec (vds 0) = false →
    ∀ idx, s.out idx = if InBox ((vds 0).map (VDim.gl NR)) idx ∧
        recPart (vds 0) idx < (if k = 0 then r else lo + bf)
      then some (vals 0 idx) else none)

theorem mod_inj_block {bf lo r rs : Nat} (h1 : lo ≤ rs) (h2 : rs < lo + bf) (h3 : lo ≤ r)
    (h4 : r < lo + bf) (h : rs % bf = r % bf) : rs = r := by
  have e1 := Nat.div_add_mod rs bf
  have e2 := Nat.div_add_mod r bf
  rw [h] at e1
  rcases Nat.lt_trichotomy (rs / bf) (r / bf) with hq | hq | hq
  · have := Nat.mul_le_mul_left bf (Nat.succ_le_of_lt hq)
    rw [Nat.mul_succ] at this; omega
  · rw [hq] at e1; omega
  · have := Nat.mul_le_mul_left bf (Nat.succ_le_of_lt hq)
    rw [Nat.mul_succ] at this; omega

theorem procVar_step {α : Type} (zero : α) (miss : Option α) (append : Bool) {bf r k NR M lo : Nat}
    {R coord : Option Nat} {vds : Nat → List VDim} {vals : Nat → List Nat → α} {s : VSt α}
    (hv : VarOk NR M R coord vds) (hk : k < M) (hlo : lo ≤ r) (hr : r < lo + bf) (hrN : r < NR)
    (happ : r = 0 → append = decide (0 < k))
    (h : VInv NR M bf vds vals (miss.getD zero) lo k r s) :
    ∃ s', procVar zero miss append bf r k R coord (vds k) (vals k) s = .ok (some s') ∧
      VInv NR M bf vds vals (miss.getD zero) lo k (r + 1) s' := by
  have hbf : 0 < bf := by omega
  obtain ⟨hD, hN⟩ := h
  cases hdec : isDec (vds 0) with
  | true =>
    obtain ⟨hB, hB', hO⟩ := hD hdec
    have hdk : isDec (vds k) = true := by rw [hv.dec k hk, hdec]
    by_cases hact : Active (vds 0) r
    · -- the record is copied
      have hs : skipVar r k append (hasRec (vds k)) (isDec (vds k)) R coord = false := by
        rw [hdk, hv.hasRec_eq hk]
        unfold skipVar
        rcases Nat.eq_zero_or_pos r with h0 | h0
        · simp [h0]
        · rw [if_pos h0]
          have hh : hasRec (vds 0) = true := by
            rcases hact with h | h
            · exact h
            · omega
          cases hc : coord with
          | none => simp [hh]
          | some d =>
            exfalso
            by_cases hR : R = some d
            · have := (hv.coordRec d hc hR).1; rw [hdec] at this; cases this
            · have := hv.coordOther d hc hR; rw [hh] at this; cases this
      obtain ⟨b, hb1, hb2⟩ := procVar_dec zero miss append bf r k NR R coord (vds k) (vals k) s
        (hv.good k hk) hdk hrN hbf hs (content vds vals (miss.getD zero) r k) (by
          rw [hv.fl_eq hk]
          rcases Nat.eq_zero_or_pos k with h0 | h0
          · rw [hB' r hlo hr (by omega)]
            subst h0; rfl
          · obtain ⟨b, hb1, hb2⟩ := hB r hlo hr hact hrN (Or.inr h0)
            rw [hb1]
            simpa using hb2)
      refine ⟨_, hb1, fun _ => ⟨?_, ?_, hO⟩, fun h => by rw [hdec] at h; cases h⟩
      · intro rs h1 h2 h3 h4 h5
        by_cases he : rs = r
        · subst he
          refine ⟨b, by simp, ?_⟩
          rw [if_pos (by omega)]
          rw [hv.fl_eq hk] at hb2
          exact hb2
        · have hne : rs % bf ≠ r % bf := fun h => he (mod_inj_block h1 h2 hlo hr h)
          obtain ⟨b', c1, c2⟩ := hB rs h1 h2 h3 h4 (by omega)
          refine ⟨b', by simp [hne, c1], ?_⟩
          have : (if rs < r + 1 then k + 1 else k) = (if rs < r then k + 1 else k) := by
            split <;> split <;> omega
          rw [this]; exact c2
      · intro rs h1 h2 h3
        have he : rs ≠ r := by
          rintro rfl; exact h3 ⟨hact, hrN, Or.inl (by omega)⟩
        have hne : rs % bf ≠ r % bf := fun h => he (mod_inj_block h1 h2 hlo hr h)
        simp only [hne, if_false]
        apply hB' rs h1 h2
        rintro ⟨a1, a2, a3⟩
        exact h3 ⟨a1, a2, by omega⟩
    · -- nothing to do
      have hh : hasRec (vds 0) = false := by
        cases h : hasRec (vds 0) with
        | true => exact absurd (Or.inl h) hact
        | false => rfl
      have hr0 : 0 < r := by
        rcases Nat.eq_zero_or_pos r with h | h
        · exact absurd (Or.inr h) hact
        · exact h
      have hs : skipVar r k append (hasRec (vds k)) (isDec (vds k)) R coord = true := by
        rw [hdk, hv.hasRec_eq hk, hh]
        unfold skipVar
        rw [if_pos hr0]
        cases hc : coord with
        | none => simp
        | some d =>
          by_cases hR : R = some d
          · have := (hv.coordRec d hc hR).1; rw [hdec] at this; cases this
          · simp [hR]
      refine ⟨s, by unfold procVar; rw [hs]; simp, fun _ => ⟨?_, ?_, hO⟩,
        fun h => by rw [hdec] at h; cases h⟩
      · intro rs h1 h2 h3 h4 h5
        have he : rs ≠ r := by rintro rfl; exact hact h3
        obtain ⟨b', c1, c2⟩ := hB rs h1 h2 h3 h4 (by omega)
        refine ⟨b', c1, ?_⟩
        have : (if rs < r + 1 then k + 1 else k) = (if rs < r then k + 1 else k) := by
          split <;> split <;> omega
        rw [this]; exact c2
      · intro rs h1 h2 h3
        apply hB' rs h1 h2
        rintro ⟨a1, a2, a3⟩
        exact h3 ⟨a1, a2, by omega⟩
  | false =>
    have hO := hN hdec
    have hdk : isDec (vds k) = false := by rw [hv.dec k hk, hdec]
    by_cases hw : k = 0 ∧ Active (vds 0) r
    · obtain ⟨rfl, hact⟩ := hw
      have hs : skipVar r 0 append (hasRec (vds 0)) (isDec (vds 0)) R coord = false := by
        unfold skipVar
        rcases Nat.eq_zero_or_pos r with h0 | h0
        · simp [h0, happ h0]
        · rw [if_pos h0]
          have hh : hasRec (vds 0) = true := by
            rcases hact with h | h
            · exact h
            · omega
          cases hc : coord with
          | none => simp [hh]
          | some d =>
            by_cases hR : R = some d
            · simp [hR]
            · have := hv.coordOther d hc hR; rw [hh] at this; cases this
      obtain ⟨out', p1, p2⟩ := procVar_nodec zero miss append bf r 0 NR R coord (vds 0) (vals 0) s
        (hv.good 0 hk) hdk hrN (by
          intro hh
          rcases hact with h | h
          · rw [hh] at h; cases h
          · exact h) hs
      refine ⟨_, p1, (fun h => by rw [hdec] at h; cases h), fun _ idx => ?_⟩
      simp only []
      rw [p2, hO]
      simp only [if_true]
      by_cases hb : InBox ((vds 0).map (VDim.gl NR)) idx
      · by_cases he : recPart (vds 0) idx = r
        · simp [hb, he]
        · simp only [hb, he, true_and, and_false, if_false]
          by_cases hl : recPart (vds 0) idx < r
          · rw [if_pos hl, if_pos (by omega)]
          · rw [if_neg hl, if_neg (by omega)]
      · simp [hb]
    · have hs : skipVar r k append (hasRec (vds k)) (isDec (vds k)) R coord = true := by
        rw [hdk, hv.hasRec_eq hk]
        unfold skipVar
        rcases Nat.eq_zero_or_pos r with h0 | h0
        · have : 0 < k := by
            rcases Nat.eq_zero_or_pos k with h | h
            · exact absurd ⟨h, Or.inr h0⟩ hw
            · exact h
          simp [h0, happ h0, this]
        · rw [if_pos h0]
          by_cases hk0 : k = 0
          · have hh : hasRec (vds 0) = false := by
              cases h : hasRec (vds 0) with
              | true => exact absurd ⟨hk0, Or.inl h⟩ hw
              | false => rfl
            cases hc : coord with
            | none => simp [hh]
            | some d =>
              by_cases hR : R = some d
              · have := (hv.coordRec d hc hR).2; rw [hh] at this; cases this
              · simp [hR]
          · cases hc : coord with
            | none => simp; omega
            | some d => by_cases hR : R = some d <;> simp [hR, hk0]
      refine ⟨s, by unfold procVar; rw [hs]; simp, (fun h => by rw [hdec] at h; cases h),
        fun _ idx => ?_⟩
      rw [hO]
      by_cases hk0 : k = 0
      · have hh : hasRec (vds 0) = false := by
          cases h : hasRec (vds 0) with
          | true => exact absurd ⟨hk0, Or.inl h⟩ hw
          | false => rfl
        have hr0 : 0 < r := by
          rcases Nat.eq_zero_or_pos r with h | h
          · exact absurd ⟨hk0, Or.inr h⟩ hw
          · exact h
        have : recPart (vds 0) idx = 0 := by simp [recPart, hh]
        simp only [hk0, if_true, this]
        simp [hr0]
      · simp [hk0]

/-- A set of files described variable by variable. -/
structure SetOk {α : Type} (missing : Bool) (files : List (NcFile α)) (NR : Nat) (R : Option Nat)
    (V : Nat) (coord : Nat → Option Nat) (vds : Nat → Nat → List VDim)
    (vals : Nat → Nat → List Nat → α) (miss : Nat → Option α) : Prop where
  ne : files ≠ []
  nr : 1 ≤ NR
  file : ∀ (k : Nat) (f : NcFile α), files[k]? = some f →
    f.recdim = R ∧ recCount f = some NR ∧ f.numFiles = some (files.length : Int) ∧ f.vars.length = V ∧
    ∀ (n : Nat) (x : NcVar α), f.vars[n]? = some x →
      vdims f x = some (vds n k) ∧ x.coord = coord n ∧ x.val = vals n k
  first : ∀ f : NcFile α, files[0]? = some f → ∀ (n : Nat) (x : NcVar α), f.vars[n]? = some x →
    (if missing then x.missing else none) = miss n
  var : ∀ n, n < V → VarOk NR files.length R (coord n) (vds n)

/-- The number of records, blocking factor and number of blocks in use. -/
structure BlockOk (NR BF NB : Nat) : Prop where
  pos : 1 ≤ BF
  le : BF ≤ NR
  cover : NR ≤ NB * BF
  tight : (NB - 1) * BF < NR
  nb : 1 ≤ NB

theorem setRecs_first {NR bf0 nb : Nat} (h : 1 ≤ NR) :
    ∃ BF NB, setRecs NR 1 bf0 nb = .ok (some (NR, BF, NB)) ∧ BlockOk NR BF NB := by
  unfold setRecs
  rw [if_pos rfl]
  simp only []
  generalize hb : (if bf0 ≥ 1 then (if bf0 > NR then NR else bf0) else min 100 NR) = BF
  have h1 : 1 ≤ BF := by rw [← hb]; split <;> (try split) <;> omega
  have h2 : BF ≤ NR := by rw [← hb]; split <;> (try split) <;> omega
  rw [if_neg (by omega)]
  have e := Nat.div_add_mod NR BF
  have hm := Nat.mod_lt NR (show 0 < BF by omega)
  refine ⟨BF, _, rfl, h1, h2, ?_, ?_, ?_⟩
  · split
    · rw [Nat.add_mul, Nat.mul_comm]; omega
    · next h => rw [Nat.mul_comm]; omega
  · split
    · rw [Nat.add_sub_cancel, Nat.mul_comm]; omega
    · next h =>
      have hq : 1 ≤ NR / BF := Nat.div_pos h2 (by omega)
      rw [Nat.sub_mul, Nat.mul_comm (NR / BF)]; omega
  · have hq : 1 ≤ NR / BF := Nat.div_pos h2 (by omega)
    split <;> omega

theorem setRecs_again {NR BF NB : Nat} (h : BlockOk NR BF NB) :
    setRecs NR NR BF NB = .ok (some (NR, BF, NB)) := by
  unfold setRecs
  by_cases h1 : NR = 1
  · have hBF : BF = 1 := by have := h.pos; have := h.le; omega
    have hNB : NB = 1 := by
      have a := h.cover; have b := h.tight; have := h.nb
      rw [hBF] at a b; omega
    subst h1 hBF hNB
    rfl
  · rw [if_neg h1]; simp

/-- The facts about the program state that do not change within a file. -/
structure Fixed {α : Type} (NR BF NB : Nat) (M : Int) (info : List (OutVar α)) (st : CSt α) :
    Prop where
  nrecs : st.nrecs = NR
  bf : st.bf = BF
  nblocks : st.nblocks = NB
  nfiles : st.nfiles = M
  err : st.err = false
  info : st.info = some info

section
variable {α : Type} {zero : α} {missing : Bool} {files : List (NcFile α)} {NR : Nat} {R : Option Nat}
  {V : Nat} {coord : Nat → Option Nat} {vds : Nat → Nat → List VDim}
  {vals : Nat → Nat → List Nat → α} {miss : Nat → Option α}

theorem processVars_step (hs : SetOk missing files NR R V coord vds vals miss)
    {info : List (OutVar α)}
    (hinfo : ∀ n, n < V → info[n]? = some ⟨vds n 0, miss n⟩)
    {k : Nat} {f : NcFile α} (hk : files[k]? = some f) {append : Bool} {r lo BF NB : Nat}
    (hlo : lo ≤ r) (hr : r < lo + BF) (hrN : r < NR) (happ : r = 0 → append = decide (0 < k))
    {st : CSt α} (hset : setRecs NR st.nrecs st.bf st.nblocks = .ok (some (NR, BF, NB)))
    (herr : st.err = false) (hin : st.info = some info)
    (hv : ∀ n, n < V → VInv NR files.length BF (vds n) (vals n) ((miss n).getD zero) lo k r (st.var n)) :
    ∃ st', processVars zero f append r k st = .ok (st', false) ∧
      Fixed NR BF NB st.nfiles info st' ∧ st'.append = st.append ∧
      ∀ n, n < V → VInv NR files.length BF (vds n) (vals n) ((miss n).getD zero) lo k (r + 1)
        (st'.var n) := by
  obtain ⟨f1, f2, f3, f4, f5⟩ := hs.file k f hk
  have hkM : k < files.length := by
    by_contra h
    rw [List.getElem?_eq_none (by omega)] at hk; cases hk
  unfold processVars
  rw [f2]
  simp only [hset]
  obtain ⟨p, hp, hI⟩ := forLoop_inv (σ := CSt α × Bool) (ε := CFault)
    (f := fun v (s : CSt α × Bool) =>
        if s.2 = true then .ok s
        else
          match f.vars[v]? with
          | none => .error .bad
          | some x =>
            match vdims f x, (s.1.info.bind (fun l => l[v]?)) with
            | some vd, some o =>
              match procVar zero o.miss append BF r k f.recdim x.coord vd x.val (s.1.var v) with
              | .error e => .error e
              | .ok none => .ok (s.1, true)
              | .ok (some vs) =>
                .ok ({ s.1 with var := fun n => if n = v then vs else s.1.var n }, false)
            | _, _ => .error .bad)
    (fun v s => s.2 = false ∧ Fixed NR BF NB st.nfiles info s.1 ∧ s.1.append = st.append ∧
      ∀ n, n < V → VInv NR files.length BF (vds n) (vals n) ((miss n).getD zero) lo k
        (if n < v then r + 1 else r) (s.1.var n))
    f.vars.length 0 ({ st with nrecs := NR, bf := BF, nblocks := NB }, false)
    ⟨rfl, ⟨rfl, rfl, rfl, rfl, herr, hin⟩, rfl, fun n hn => by simpa using hv n hn⟩
    (by
      rintro v ⟨s, e⟩ _ hvV ⟨i1, i2, i3, i4⟩
      simp only at i1 i2 i3 i4
      subst i1
      have hvV' : v < V := by omega
      have hx : f.vars[v]? = some f.vars[v] := List.getElem?_eq_getElem (by omega)
      obtain ⟨g1, g2, g3⟩ := f5 v _ hx
      have hvi := i4 v hvV'
      rw [if_neg (by omega)] at hvi
      obtain ⟨s', q1, q2⟩ := procVar_step zero (miss v) append (hs.var v hvV') hkM hlo hr hrN happ hvi
      simp only [Bool.false_eq_true, if_false, hx, g1, g2, g3, f1, i2.info, Option.bind_some,
        hinfo v hvV', q1]
      refine ⟨_, rfl, rfl, ⟨i2.nrecs, i2.bf, i2.nblocks, i2.nfiles, i2.err, rfl⟩, i3, ?_⟩
      intro n hn
      by_cases he : n = v
      · subst he
        simp only [if_true]
        rw [if_pos (by omega)]; exact q2
      · simp only [he, if_false]
        have := i4 n hn
        have e : (if n < v + 1 then r + 1 else r) = (if n < v then r + 1 else r) := by
          split <;> split <;> omega
        rw [e]; exact this)
  obtain ⟨p1, p2⟩ := p
  obtain ⟨i1, i2, i3, i4⟩ := hI
  simp only at i1
  subst i1
  refine ⟨p1, hp, i2, i3, ?_⟩
  intro n hn
  have := i4 n hn
  rwa [if_pos (by omega)] at this

theorem recPart_lt {NR : Nat} {vd : List VDim} (hg : GoodVd NR vd) (hN : 1 ≤ NR) {idx : List Nat}
    (h : InBox (vd.map (VDim.gl NR)) idx) : recPart vd idx < NR := by
  unfold recPart
  split
  · next hh =>
    match vd, hg, hh, h with
    | [], _, hh, _ => simp [hasRec] at hh
    | d :: ds, hg, hh, h =>
      rw [List.map_cons, InBox.cons_iff] at h
      obtain ⟨i, is, rfl, h1, h2⟩ := h
      have hdr : d.isRec = true := by
        by_contra hc
        have : hasRec (d :: ds) = false := by
          rw [hasRec_eq_false]
          intro x hx
          rcases List.mem_cons.1 hx with rfl | hx
          · simpa using hc
          · exact hg.recFirst x hx
        rw [this] at hh; simp at hh
      simpa [VDim.gl, hdr] using h1
  · exact hN

/-- After the last record of a block in file `k` the state is the one before file `k + 1`. -/
theorem VInv.next_file {NR M bf : Nat} {vds : Nat → List VDim} {vals : Nat → List Nat → α}
    {fill : α} {lo k hi : Nat} {s : VSt α} (hg : GoodVd NR (vds 0)) (hhi : hi = min (lo + bf) NR) (hlt : lo < hi)
    (h : VInv NR M bf vds vals fill lo k hi s) : VInv NR M bf vds vals fill lo (k + 1) lo s := by
  obtain ⟨hD, hN⟩ := h
  refine ⟨fun hd => ?_, fun hd idx => ?_⟩
  · obtain ⟨hB, hB', hO⟩ := hD hd
    refine ⟨?_, ?_, hO⟩
    · intro rs h1 h2 h3 h4 _
      obtain ⟨b, c1, c2⟩ := hB rs h1 h2 h3 h4 (by omega)
      rw [if_pos (by omega)] at c2
      exact ⟨b, c1, by rw [if_neg (by omega)]; exact c2⟩
    · intro rs h1 h2 h3
      apply hB' rs h1 h2
      rintro ⟨a1, a2, a3⟩
      exact h3 ⟨a1, a2, by omega⟩
  · rw [hN hd idx]
    have hb : InBox ((vds 0).map (VDim.gl NR)) idx → recPart (vds 0) idx < NR :=
      recPart_lt hg (by omega)
    by_cases hi' : InBox ((vds 0).map (VDim.gl NR)) idx
    · have := hb hi'
      by_cases hk : k = 0
      · simp only [hi', true_and, hk, if_true, if_false, Nat.zero_add, Nat.one_ne_zero]
        by_cases hc : recPart (vds 0) idx < hi
        · rw [if_pos hc, if_pos (by omega)]
        · rw [if_neg hc, if_neg (by omega)]
      · simp [hk]
    · simp [hi']

/-- The state before file `k` of a block. -/
structure Pre (zero : α) (vds : Nat → Nat → List VDim) (vals : Nat → Nat → List Nat → α)
    (miss : Nat → Option α) (NR V M BF NB : Nat) (info : List (OutVar α)) (block k : Nat)
    (st : CSt α) : Prop where
  set : setRecs NR st.nrecs st.bf st.nblocks = .ok (some (NR, BF, NB))
  bf : 0 < block ∨ 0 < k → st.bf = BF
  err : st.err = false
  app : st.append = decide (0 < block ∨ 0 < k)
  info : st.append = true → st.info = some info
  var : ∀ n, n < V → VInv NR M BF (vds n) (vals n) ((miss n).getD zero) (block * BF) k (block * BF)
    (st.var n)

theorem mapM_get {β γ : Type} (f : β → Option γ) : ∀ (l : List β) (g : Nat → γ),
    (∀ (n : Nat) (x : β), l[n]? = some x → f x = some (g n)) →
    l.mapM f = some ((List.range l.length).map g) := by
  intro l
  induction l with
  | nil => intro g _; rfl
  | cons a l ih =>
    intro g h
    rw [List.mapM_cons, h 0 a rfl, ih (fun n => g (n + 1)) (fun n x hx => h (n + 1) x hx)]
    simp [List.range_succ_eq_map]

theorem outInfo_spec (hs : SetOk missing files NR R V coord vds vals miss) {f : NcFile α}
    (h0 : files[0]? = some f) :
    outInfo missing f = some ((List.range V).map (fun n => ⟨vds n 0, miss n⟩)) := by
  obtain ⟨f1, f2, f3, f4, f5⟩ := hs.file 0 f h0
  unfold outInfo
  rw [mapM_get _ f.vars (fun n => (⟨vds n 0, miss n⟩ : OutVar α)) (fun n x hx => by
    rw [(f5 n x hx).1, Option.map_some, hs.first f h0 n x hx]), f4]

theorem processFile_step (hs : SetOk missing files NR R V coord vds vals miss)
    {info : List (OutVar α)} (hI : info = (List.range V).map (fun n => ⟨vds n 0, miss n⟩))
    {BF NB : Nat} (hB : BlockOk NR BF NB) (junk : Int)
    {k : Nat} {f : NcFile α} (hk : files[k]? = some f) {block : Nat} (hblock : block < NB)
    {st : CSt α} (hp : Pre zero vds vals miss NR V files.length BF NB info block k st) :
    ∃ st', processFile zero missing junk f block k st = .ok st' ∧
      Fixed NR BF NB files.length info st' ∧
      ∀ n, n < V → VInv NR files.length BF (vds n) (vals n) ((miss n).getD zero) (block * BF) (k + 1)
        (block * BF) (st'.var n) := by
  obtain ⟨f1, f2, f3, f4, f5⟩ := hs.file k f hk
  have hinfo : ∀ n, n < V → info[n]? = some ⟨vds n 0, miss n⟩ := by
    intro n hn
    rw [hI, List.getElem?_map, List.getElem?_range hn]; rfl
  have hlo : block * BF < NR := by
    have := hB.tight
    have : block * BF ≤ (NB - 1) * BF := Nat.mul_le_mul_right BF (by omega)
    omega
  have hpos := hB.pos
  have hr0 : block * st.bf = block * BF := by
    rcases Nat.eq_zero_or_pos block with h | h
    · simp [h]
    · rw [hp.bf (Or.inl h)]
  unfold processFile
  rw [f3]
  have hinf : (if st.append = true then some st.info else (outInfo missing f).map some)
      = some (some info) := by
    by_cases ha : st.append = true
    · rw [if_pos ha, hp.info ha]
    · rw [if_neg ha]
      have hk0 : k = 0 := by
        have := hp.app
        by_contra h
        apply ha
        rw [this]; simp; omega
      subst hk0
      rw [outInfo_spec hs hk, hI]; rfl
  simp only [Option.getD_some, hinf, hr0]
  obtain ⟨st1, a1, a2, a3, a4⟩ := processVars_step (zero := zero) hs hinfo hk (append := st.append)
    (r := block * BF) (lo := block * BF) (Nat.le_refl _) (by omega) hlo
    (by
      intro h0
      rw [hp.app]
      have : block = 0 := by
        rcases Nat.mul_eq_zero.1 h0 with h | h
        · exact h
        · omega
      simp [this])
    (st := { st with nfiles := (files.length : Int), info := some info })
    hp.set hp.err rfl hp.var
  rw [a1]
  simp only []
  obtain ⟨st2, b1, b2, b3⟩ := forLoop_inv (ε := CFault)
    (f := fun r' (st : CSt α) =>
          match processVars zero f true r' k st with
          | .error e => .error e
          | .ok (st2, e2) => .ok { st2 with err := st2.err || e2 })
    (fun r s => Fixed NR BF NB files.length info s ∧
      ∀ n, n < V → VInv NR files.length BF (vds n) (vals n) ((miss n).getD zero) (block * BF) k r
        (s.var n))
    (min ((block + 1) * st1.bf) st1.nrecs - (block * BF + 1)) (block * BF + 1)
    { st1 with err := st1.err || false }
    ⟨⟨a2.nrecs, a2.bf, a2.nblocks, a2.nfiles, by simp [a2.err], a2.info⟩, a4⟩
    (by
      intro r s h1 h2 ⟨i1, i2⟩
      rw [a2.bf, a2.nrecs, Nat.add_mul] at h2
      obtain ⟨s1, c1, c2, c3, c4⟩ := processVars_step (zero := zero) hs hinfo hk (append := true)
        (r := r) (lo := block * BF) (BF := BF) (NB := NB) (by omega) (by omega) (by omega)
        (by omega) (st := s)
        (by rw [i1.nrecs, i1.bf, i1.nblocks]; exact setRecs_again hB) i1.err i1.info i2
      rw [c1]
      refine ⟨_, rfl, ⟨c2.nrecs, c2.bf, c2.nblocks, by rw [← i1.nfiles]; exact c2.nfiles,
        by simp [c2.err], c2.info⟩, c4⟩)
  refine ⟨st2, b1, b2, ?_⟩
  intro n hn
  have := b3 n hn
  refine VInv.next_file (hi := min (block * BF + BF) NR)
    ((hs.var n hn).good 0 (List.length_pos_of_ne_nil hs.ne)) rfl (by omega) ?_
  convert this using 1
  rw [a2.bf, a2.nrecs, Nat.add_mul]
  omega

/-- State of a variable while a block is written, before record `r`. -/
def VFl {α : Type} (NR M bf : Nat) (vds : Nat → List VDim) (vals : Nat → List Nat → α) (fill : α)
    (lo r : Nat) (s : VSt α) : Prop :=
  (isDec (vds 0) = true →
    (∀ rs, lo ≤ rs → rs < lo + bf → Active (vds 0) rs → rs < NR →
      ∃ b, s.buf (rs % bf) = some b ∧
        BufIs ((vds 0).map VDim.fl) (content vds vals fill rs M) b) ∧
    ∀ idx, s.out idx = if InBox ((vds 0).map (VDim.gl NR)) idx ∧ recPart (vds 0) idx < r
      then some (content vds vals fill (recPart (vds 0) idx) M (slabPart (vds 0) idx)) else none) ∧
  (isDec (vds 0) = false →
    ∀ idx, s.out idx = if InBox ((vds 0).map (VDim.gl NR)) idx ∧ recPart (vds 0) idx < lo + bf
      then some (vals 0 idx) else none)

theorem flushVar_step {NR M bf : Nat} {R coord : Option Nat} {vds : Nat → List VDim}
    {vals : Nat → List Nat → α} {fill : α} {lo r : Nat} {s : VSt α} (o : OutVar α)
    (ho : o.vd = vds 0) (hM : 0 < M) (hv : VarOk NR M R coord vds) (hlo : lo ≤ r) (hr : r < lo + bf)
    (hrN : r < NR) (h : VFl NR M bf vds vals fill lo r s) :
    ∃ s', flushVar o bf r s = .ok s' ∧ VFl NR M bf vds vals fill lo (r + 1) s' := by
  obtain ⟨hD, hN⟩ := h
  cases hdec : isDec (vds 0) with
  | false =>
    refine ⟨s, by unfold flushVar; rw [ho, hdec]; simp, (fun h => by rw [hdec] at h; cases h), hN⟩
  | true =>
    obtain ⟨hB, hO⟩ := hD hdec
    by_cases hact : Active (vds 0) r
    · obtain ⟨b, c1, c2⟩ := hB r hlo hr hact hrN
      obtain ⟨out', d1, d2⟩ := flushVar_spec o bf r NR s b (content vds vals fill r M)
        (by rw [ho]; exact hv.good 0 hM) (by rw [ho]; exact hdec) hrN (by omega)
        (by
          rw [ho]; intro hh
          rcases hact with h | h
          · rw [hh] at h; cases h
          · exact h) c1 (by rw [ho]; exact c2)
      refine ⟨_, d1, fun _ => ⟨hB, ?_⟩, fun h => by rw [hdec] at h; cases h⟩
      intro idx
      simp only []
      rw [d2, hO, ho]
      by_cases hi : InBox ((vds 0).map (VDim.gl NR)) idx
      · by_cases he : recPart (vds 0) idx = r
        · simp [hi, he]
        · simp only [hi, he, true_and, and_false, if_false]
          by_cases hl : recPart (vds 0) idx < r
          · rw [if_pos hl, if_pos (by omega)]
          · rw [if_neg hl, if_neg (by omega)]
      · simp [hi]
    · have hh : hasRec (vds 0) = false := by
        cases h : hasRec (vds 0) with
        | true => exact absurd (Or.inl h) hact
        | false => rfl
      have hr0 : 0 < r := by
        rcases Nat.eq_zero_or_pos r with h | h
        · exact absurd (Or.inr h) hact
        · exact h
      refine ⟨s, by unfold flushVar; rw [ho, hdec, hh]; simp [hr0], fun _ => ⟨hB, ?_⟩,
        fun h => by rw [hdec] at h; cases h⟩
      intro idx
      rw [hO]
      have : recPart (vds 0) idx = 0 := by simp [recPart, hh]
      simp [this, hr0]

theorem flushDecomp_step (hs : SetOk missing files NR R V coord vds vals miss)
    {info : List (OutVar α)} (hI : info = (List.range V).map (fun n => ⟨vds n 0, miss n⟩))
    {BF NB : Nat} {r lo : Nat} (hlo : lo ≤ r) (hr : r < lo + BF) (hrN : r < NR)
    {st : CSt α} {M : Int} (hf : Fixed NR BF NB M info st)
    (hv : ∀ n, n < V → VFl NR files.length BF (vds n) (vals n) ((miss n).getD zero) lo r (st.var n)) :
    ∃ st', flushDecomp r st = .ok st' ∧ Fixed NR BF NB M info st' ∧ st'.append = st.append ∧
      ∀ n, n < V → VFl NR files.length BF (vds n) (vals n) ((miss n).getD zero) lo (r + 1)
        (st'.var n) := by
  have hM : 0 < files.length := List.length_pos_of_ne_nil hs.ne
  have hlen : info.length = V := by rw [hI]; simp
  unfold flushDecomp
  rw [hf.info]
  simp only []
  obtain ⟨st', h1, h2, h3, h4⟩ := forLoop_inv (ε := CFault)
    (f := fun v (s : CSt α) =>
      match info[v]? with
      | none => .error .bad
      | some o =>
        match flushVar o s.bf r (s.var v) with
        | .error e => .error e
        | .ok vs => .ok { s with var := fun n => if n = v then vs else s.var n })
    (fun v s => Fixed NR BF NB M info s ∧ s.append = st.append ∧
      ∀ n, n < V → VFl NR files.length BF (vds n) (vals n) ((miss n).getD zero) lo
        (if n < v then r + 1 else r) (s.var n))
    info.length 0 st ⟨hf, rfl, fun n hn => by simpa using hv n hn⟩
    (by
      rintro v s _ hvV ⟨i1, i2, i3⟩
      have hvV' : v < V := by omega
      have hx : info[v]? = some ⟨vds v 0, miss v⟩ := by
        rw [hI, List.getElem?_map, List.getElem?_range hvV']; rfl
      have hvi := i3 v hvV'
      rw [if_neg (by omega)] at hvi
      obtain ⟨s', q1, q2⟩ := flushVar_step (⟨vds v 0, miss v⟩ : OutVar α) rfl hM (hs.var v hvV') hlo hr
        hrN hvi
      simp only [hx, i1.bf, q1]
      refine ⟨_, rfl, ⟨i1.nrecs, rfl, i1.nblocks, i1.nfiles, i1.err, i1.info⟩, i2, ?_⟩
      intro n hn
      by_cases he : n = v
      · subst he
        simp only [if_true]
        rw [if_pos (by omega)]; exact q2
      · simp only [he, if_false]
        have := i3 n hn
        have e : (if n < v + 1 then r + 1 else r) = (if n < v then r + 1 else r) := by
          split <;> split <;> omega
        rw [e]; exact this)
  refine ⟨st', h1, h2, h3, ?_⟩
  intro n hn
  have := h4 n hn
  rwa [if_pos (by omega)] at this

theorem fileLoop_spec (hs : SetOk missing files NR R V coord vds vals miss)
    {info : List (OutVar α)} (hI : info = (List.range V).map (fun n => ⟨vds n 0, miss n⟩))
    {BF NB : Nat} (hB : BlockOk NR BF NB) (junk : Int) {block : Nat} (hblock : block < NB) :
    ∀ (rest : List (NcFile α)) (k : Nat) (st : CSt α), rest ≠ [] → files.drop k = rest →
      Pre zero vds vals miss NR V files.length BF NB info block k st →
      ∃ st', fileLoop zero missing junk block rest k st = .ok st' ∧
        Fixed NR BF NB files.length info st' ∧ st'.append = true ∧
        ∀ n, n < V → VFl NR files.length BF (vds n) (vals n) ((miss n).getD zero) (block * BF)
          (min (block * BF + BF) NR) (st'.var n) := by
  intro rest
  induction rest with
  | nil => intro k st h _ _; exact absurd rfl h
  | cons f rest ih =>
    intro k st _ hdrop hp
    have hkl : k < files.length := by
      by_contra h
      rw [List.drop_eq_nil_of_le (by omega)] at hdrop; cases hdrop
    have hk : files[k]? = some f := by
      have := congrArg (fun l => l[0]?) hdrop
      simpa using this
    have hdrop' : files.drop (k + 1) = rest := by
      rw [← List.drop_drop, hdrop]; rfl
    have hrest : rest = [] ↔ k + 1 = files.length := by
      rw [← hdrop', List.drop_eq_nil_iff]; omega
    obtain ⟨st1, a1, a2, a3⟩ := processFile_step (zero := zero) hs hI hB junk hk hblock hp
    have hlo : block * BF < NR := by
      have := hB.tight
      have : block * BF ≤ (NB - 1) * BF := Nat.mul_le_mul_right BF (by omega)
      omega
    have hpos := hB.pos
    rw [fileLoop, a1]
    simp only []
    by_cases hlast : rest = []
    · have hkM := hrest.1 hlast
      rw [if_pos (Or.inr hlast)]
      obtain ⟨st2, b1, b2, b3, b4⟩ := forLoop_inv (ε := CFault) (f := flushDecomp)
        (fun r s => Fixed NR BF NB files.length info s ∧ s.append = true ∧
          ∀ n, n < V → VFl NR files.length BF (vds n) (vals n) ((miss n).getD zero) (block * BF) r
            (s.var n))
        (min ((block + 1) * st1.bf) st1.nrecs - block * st1.bf) (block * st1.bf)
        { st1 with append := true }
        ⟨⟨a2.nrecs, a2.bf, a2.nblocks, a2.nfiles, a2.err, a2.info⟩, rfl, by
          intro n hn
          obtain ⟨hD, hN⟩ := a3 n hn
          refine ⟨fun hd => ?_, fun hd => ?_⟩
          · obtain ⟨hB1, hB2, hO⟩ := hD hd
            refine ⟨?_, by rw [a2.bf]; exact hO⟩
            intro rs h1 h2 h3 h4
            obtain ⟨b, c1, c2⟩ := hB1 rs h1 h2 h3 h4 (by omega)
            rw [if_neg (by omega), hkM] at c2
            exact ⟨b, c1, c2⟩
          · have := hN hd
            simpa using this⟩
        (by
          rintro r s h1 h2 ⟨i1, i2, i3⟩
          rw [a2.bf, a2.nrecs, Nat.add_mul] at h2
          rw [a2.bf] at h1
          obtain ⟨s', c1, c2, c3, c4⟩ := flushDecomp_step (zero := zero) hs hI (r := r)
            (lo := block * BF) h1 (by omega) (by omega) i1 i3
          exact ⟨s', c1, c2, by rw [c3, i2], c4⟩)
      rw [b1, hlast]
      refine ⟨st2, rfl, b2, b3, ?_⟩
      intro n hn
      have := b4 n hn
      convert this using 1
      rw [a2.bf, a2.nrecs, Nat.add_mul]
      omega
    · have hkM : k + 1 ≠ files.length := fun h => hlast (hrest.2 h)
      rw [if_neg (by
        rintro (h | h)
        · rw [a2.nfiles] at h; omega
        · exact hlast h)]
      apply ih (k + 1) _ hlast hdrop'
      refine ⟨?_, fun _ => a2.bf, a2.err, by simp, fun _ => a2.info, a3⟩
      simp only [a2.nrecs, a2.bf, a2.nblocks]
      exact setRecs_again hB

/-- The result for one variable. -/
def VFinal {α : Type} (NR M : Nat) (vds : Nat → List VDim) (vals : Nat → List Nat → α) (fill : α)
    (out : List Nat → Option α) : Prop :=
  ∀ idx, out idx = if InBox ((vds 0).map (VDim.gl NR)) idx then
    some (if isDec (vds 0) then content vds vals fill (recPart (vds 0) idx) M (slabPart (vds 0) idx)
      else vals 0 idx) else none

theorem blockLoop_spec (hs : SetOk missing files NR R V coord vds vals miss)
    {info : List (OutVar α)} (hI : info = (List.range V).map (fun n => ⟨vds n 0, miss n⟩))
    {BF NB : Nat} (hB : BlockOk NR BF NB) (junk : Int) :
    ∀ (j fuel block : Nat) (st : CSt α), block + j = NB → j < fuel →
      (0 < block → Fixed NR BF NB files.length info st) → (block = 0 → st.nblocks = 1) →
      Pre zero vds vals miss NR V files.length BF NB info block 0 st →
      ∃ st', blockLoop zero missing junk files fuel block st = .ok st' ∧
        Fixed NR BF NB files.length info st' ∧
        ∀ n, n < V → VFinal NR files.length (vds n) (vals n) ((miss n).getD zero) (st'.var n).out := by
  have hM : 0 < files.length := List.length_pos_of_ne_nil hs.ne
  intro j
  induction j with
  | zero =>
    intro fuel block st hj hfuel hfix h0 hp
    obtain ⟨fuel, rfl⟩ : ∃ m, fuel = m + 1 := ⟨fuel - 1, by omega⟩
    have hb : 0 < block := by have := hB.nb; omega
    have hf := hfix hb
    rw [blockLoop, if_neg (by rw [hf.nblocks]; omega)]
    refine ⟨st, rfl, hf, ?_⟩
    intro n hn idx
    obtain ⟨hD, hN⟩ := hp.var n hn
    have hblk : block = NB := by omega
    have hcov := hB.cover
    rw [← hblk] at hcov
    by_cases hi : InBox ((vds n 0).map (VDim.gl NR)) idx
    · have hrp := recPart_lt ((hs.var n hn).good 0 hM) hs.nr hi
      cases hd : isDec (vds n 0) with
      | true =>
        rw [(hD hd).2.2 idx]
        simp only [hi, true_and, if_true]
        rw [if_pos (by omega)]
      | false =>
        rw [hN hd idx]
        simp only [hi, true_and, if_true]
        rw [if_pos (by omega)]; simp
    · rw [if_neg hi]
      cases hd : isDec (vds n 0) with
      | true => rw [(hD hd).2.2 idx]; simp [hi]
      | false => rw [hN hd idx]; simp [hi]
  | succ j ih =>
    intro fuel block st hj hfuel hfix h0 hp
    obtain ⟨fuel, rfl⟩ : ∃ m, fuel = m + 1 := ⟨fuel - 1, by omega⟩
    have hlt : block < st.nblocks := by
      rcases Nat.eq_zero_or_pos block with h | h
      · rw [h0 h]; omega
      · rw [(hfix h).nblocks]; omega
    obtain ⟨st1, a1, a2, a3, a4⟩ := fileLoop_spec (zero := zero) hs hI hB junk (block := block)
      (by omega) files 0 st hs.ne rfl hp
    rw [blockLoop, if_pos hlt, a1]
    simp only []
    refine ih fuel (block + 1) { st1 with var := fun n => { st1.var n with buf := fun _ => none } }
      (by omega) (by omega)
      (fun _ => ⟨a2.nrecs, a2.bf, a2.nblocks, a2.nfiles, a2.err, a2.info⟩) (by omega) ?_
    refine ⟨?_, fun _ => a2.bf, a2.err, by simp [a3], fun _ => a2.info, ?_⟩
    · simp only [a2.nrecs, a2.bf, a2.nblocks]
      exact setRecs_again hB
    · intro n hn
      obtain ⟨hD, hN⟩ := a4 n hn
      rw [Nat.add_mul, Nat.one_mul]
      refine ⟨fun hd => ⟨?_, fun _ _ _ _ => rfl, ?_⟩, fun hd idx => ?_⟩
      · intro rs h1 h2 h3 h4 h5; omega
      · intro idx
        rw [(hD hd).2 idx]
        by_cases hi : InBox ((vds n 0).map (VDim.gl NR)) idx
        · have hrp := recPart_lt ((hs.var n hn).good 0 hM) hs.nr hi
          simp only [hi, true_and]
          by_cases hc : recPart (vds n 0) idx < block * BF + BF
          · rw [if_pos hc, if_pos (by omega)]
          · rw [if_neg hc, if_neg (by omega)]
        · simp [hi]
      · simp only [if_true]
        rw [hN hd idx]

/-- What mppnccombine leaves in its output file. -/
theorem mppnccombine_spec (hs : SetOk missing files NR R V coord vds vals miss) (junk : Int)
    (bf fuel : Nat) (hfuel : NR < fuel) :
    ∃ st, mppnccombine zero missing junk bf fuel files = .ok st ∧ st.err = false ∧ st.nrecs = NR ∧
      ∀ n, n < V → VFinal NR files.length (vds n) (vals n) ((miss n).getD zero) (st.var n).out := by
  obtain ⟨BF, NB, h1, hB⟩ := setRecs_first (bf0 := min bf 100) (nb := 1) hs.nr
  unfold mppnccombine
  have hNB : NB ≤ NR := by
    have := hB.tight; have h2 := hB.pos
    have : (NB - 1) * 1 ≤ (NB - 1) * BF := Nat.mul_le_mul_left _ h2
    omega
  obtain ⟨st, a1, a2, a3⟩ := blockLoop_spec (zero := zero) hs rfl hB junk NB fuel 0
    { nrecs := 1, bf := min bf 100, nblocks := 1, nfiles := -1, append := false, err := false
      info := none, var := fun _ => ⟨fun _ => none, fun _ => none⟩ } (by omega) (by omega)
    (by omega) (fun _ => rfl)
    ⟨h1, by omega, rfl, by simp, (by simp), by
      intro n hn
      refine ⟨fun _ => ⟨?_, fun _ _ _ _ => rfl, ?_⟩, ?_⟩
      · intro rs h1 h2 h3 h4 h5; omega
      · intro idx; simp
      · intro _ idx; simp⟩
  exact ⟨st, a1, a2.err, a2.nrecs, a3⟩

end

end Verif
