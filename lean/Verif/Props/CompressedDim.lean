/-
C43: `is-compressed` succeeds exactly if some dimension has a variable of the
same name with an attribute `compress`.
C52: the inquiry about a variable expands each compressed dimension into the
dimensions its attribute names, the last one first.
-/
import Verif.Lemmas.CompressedDim
import Mathlib.Algebra.BigOperators.Group.List.Basic
import Mathlib.Data.List.Induction

namespace Verif.CompressedDim
open Spec

theorem dimLoop_spec {f : File} (hf : FileOk f) : ∀ ds : List Dim,
    ((∃ d ∈ ds, ∃ a, CompressAtt f d a) → dimLoop f ds = 0) ∧
    ((¬ ∃ d ∈ ds, ∃ a, CompressAtt f d a) → dimLoop f ds = -1) := by
  intro ds
  induction ds with
  | nil => simp [dimLoop]
  | cons d ds ih =>
    by_cases h : ∃ a, CompressAtt f d a
    · obtain ⟨a, h⟩ := h
      have h' := h
      obtain ⟨v, hv, ha⟩ := (compressAtt_iff hf d a).1 h'
      refine ⟨fun _ => by simp [dimLoop, hv, ha], fun hn => absurd ⟨d, by simp, a, h⟩ hn⟩
    · have hskip : dimLoop f (d :: ds) = dimLoop f ds := by
        rw [dimLoop]
        cases hv : inqVarid f d.name with
        | none => rfl
        | some v =>
          cases ha : inqAtt v compressName with
          | none => simp [ha]
          | some a => exact absurd ⟨a, (compressAtt_iff hf d a).2 ⟨v, hv, ha⟩⟩ h
      rw [hskip]
      simpa [h] using ih

theorem mainStatus_debug (f : File) (argc : Nat) (ha : 2 ≤ argc) : ∀ opts : List Char,
    (∀ c ∈ opts, c = 'd') → mainStatus opts argc (.ok f) = dimLoop f f.dims := by
  intro opts
  induction opts with
  | nil => intro _; rw [mainStatus, if_neg (by omega)]
  | cons c cs ih =>
    intro h
    rw [mainStatus, if_neg (by omega)]
    simp only [if_pos (h c (by simp))]
    exact ih fun c hc => h c (by simp [hc])

/-- C43.  With a file that opens, and no option but `-d`, the exit status is 0
if a dimension has a variable of the same name with an attribute `compress`,
and 255 (that is -1) if there is none. -/
theorem C43_exact (f : File) (hf : FileOk f) (opts : List Char) (hopts : ∀ c ∈ opts, c = 'd')
    (argc : Nat) (hargc : 2 ≤ argc) :
    (exitStatus opts argc (.ok f) = 0 ↔ ∃ d ∈ f.dims, ∃ a, CompressAtt f d a) ∧
    (exitStatus opts argc (.ok f) = 255 ↔ ¬ ∃ d ∈ f.dims, ∃ a, CompressAtt f d a) := by
  unfold exitStatus
  rw [mainStatus_debug f argc hargc opts hopts]
  obtain ⟨h1, h2⟩ := dimLoop_spec hf f.dims
  by_cases h : ∃ d ∈ f.dims, ∃ a, CompressAtt f d a
  · rw [h1 h]; simp [h]
  · rw [h2 h]; simp [h]

/-- C43.  A file that cannot be opened, or a call without arguments, is never
taken for a compressed one: NetCDF error codes and system error numbers are
non-zero and of less than 256. -/
theorem C43_unreadable (opts : List Char) (hopts : ∀ c ∈ opts, c = 'd') (argc : Nat)
    (e : Int) (he : e ≠ 0) (hlo : -256 < e) (hhi : e < 256) :
    exitStatus opts argc (.error e) ≠ 0 := by
  unfold exitStatus
  have : mainStatus opts argc (.error e) = if argc < 2 then 1 else e := by
    induction opts with
    | nil => rw [mainStatus]
    | cons c cs ih =>
      rw [mainStatus]
      split
      · rfl
      · next h =>
        simp only [if_pos (hopts c (by simp))]
        rw [ih fun c hc => hopts c (by simp [hc]), if_neg h]
  rw [this]
  split
  · decide
  · omega

/-- A land restart file: `tile_index` stands for `tile`, `lat`, `lon`. -/
def landFile : File :=
  { dims := [⟨"lon".toList, 4⟩, ⟨"lat".toList, 3⟩, ⟨"tile".toList, 2⟩, ⟨"tile_index".toList, 7⟩,
      ⟨"time".toList, 5⟩]
    vars := [⟨"tile_index".toList, [3], [("compress".toList, .text "tile  lat lon ".toList)]⟩,
      ⟨"temp".toList, [3, 4], [("units".toList, .text "K".toList)]⟩]
    unlim := some 4 }

theorem landFile_ok : FileOk landFile := by
  constructor <;> simp [landFile]

example : exitStatus ['d'] 3 (.ok landFile) = 0 := by decide
example : exitStatus [] 2 (.ok { landFile with vars := [] }) = 255 := by decide
example : exitStatus [] 2 (.error 2) = 2 := by decide

/-! ### The inquiry in libnfu -/

theorem inqCompressedDim_spec {f : File} (hf : FileOk f) (d : Dim) :
    ((inqCompressedDim f d).2 = true → Gathers f d (inqCompressedDim f d).1) ∧
    (∀ es, Gathers f d es → (inqCompressedDim f d).2 = true ∧ (inqCompressedDim f d).1 = es) := by
  have fwd : (inqCompressedDim f d).2 = true → Gathers f d (inqCompressedDim f d).1 := by
    unfold inqCompressedDim
    cases hv : inqVarid f d.name with
    | none => intro h; simp at h
    | some v =>
      dsimp only
      cases ha : inqAtt v compressName with
      | none => intro h; simp at h
      | some a =>
        cases a with
        | num => intro h; simp at h
        | text s =>
          dsimp only
          intro h
          refine ⟨s, (compressAtt_iff hf d _).2 ⟨v, hv, ha⟩, ?_⟩
          have := (parseDims_spec hf _ _ (Nat.le_refl _)).1 h
          rwa [blankWords_dropBlanks, List.reverse_reverse] at this
  refine ⟨fwd, ?_⟩
  rintro es ⟨s, ha, hes⟩
  have hok : (inqCompressedDim f d).2 = true := by
    obtain ⟨v, hv, hva⟩ := (compressAtt_iff hf d _).1 ha
    simp only [inqCompressedDim, hv, hva]
    refine (parseDims_spec hf _ _ (Nat.le_refl _)).2 es.reverse ?_
    rwa [blankWords_dropBlanks, List.reverse_reverse]
  refine ⟨hok, ?_⟩
  obtain ⟨s', ha', hes'⟩ := fwd hok
  have hs : s' = s := by
    obtain ⟨v, hv, hva⟩ := (compressAtt_iff hf d _).1 ha
    obtain ⟨v', hv', hva'⟩ := (compressAtt_iff hf d _).1 ha'
    rw [hv] at hv'
    obtain rfl := Option.some.inj hv'
    rw [hva] at hva'
    simpa using hva'.symm
  subst hs
  have : ∀ (ws : List (List Char)) (a b : List (Nat × Nat)), List.Forall₂ (IsDim f) ws a →
      List.Forall₂ (IsDim f) ws b → a = b := by
    intro ws a b h1
    induction h1 generalizing b with
    | nil => intro h2; cases h2; rfl
    | cons hx _ ih =>
      intro h2
      cases h2 with
      | cons hy h2 => rw [isDim_unique hf hx hy, ih _ h2]
  have := this _ _ _ hes' hes
  simpa using this

theorem writeAt_prefix {a : Nat → Nat × Nat} {pos : Nat} {ws : List (Nat × Nat)} {i : Nat}
    (h : i < pos) : writeAt a pos ws i = a i := by
  unfold writeAt
  rw [if_neg (by omega)]

/-- The first entries of the arrays are the list. -/
def Holds (st : ExpSt) (l : List (Nat × Nat)) : Prop :=
  st.nd = l.length ∧ ∀ i, ∀ h : i < l.length, st.arr i = l[i]

theorem holds_write {st : ExpSt} {l ws : List (Nat × Nat)} (h : Holds st l)
    {a : Nat → Nat × Nat} (ha : ∀ i < st.nd, a i = st.arr i) (c : Bool) :
    Holds { nd := st.nd + ws.length, arr := writeAt a st.nd ws, comp := c } (l ++ ws) := by
  obtain ⟨h1, h2⟩ := h
  refine ⟨by simp [h1], ?_⟩
  intro i hi
  simp only [List.length_append] at hi
  by_cases hl : i < l.length
  · rw [List.getElem_append_left hl, ← h2 i hl]
    simp only []
    rw [writeAt_prefix (by omega), ha i (by omega)]
  · rw [List.getElem_append_right (by omega)]
    simp only [writeAt]
    rw [if_pos (by omega)]
    simp only [h1]
    rw [List.getD_eq_getElem?_getD, List.getElem?_eq_getElem (by omega)]
    rfl

theorem expStep_spec {f : File} (hf : FileOk f) {st : ExpSt} {l : List (Nat × Nat)}
    (h : Holds st l) {id : Nat} (hid : id < f.dims.length) :
    ∃ es, Expands f id es ∧ Holds (expStep f st id) (l ++ es) ∧
      ((expStep f st id).comp = true ↔ st.comp = true ∨
        ∃ d es', f.dims[id]? = some d ∧ Gathers f d es') := by
  have hd : f.dims.getD id ⟨[], 0⟩ = f.dims[id] := by
    simp [List.getD_eq_getElem?_getD, hid]
  have hd' : f.dims[id]? = some f.dims[id] := List.getElem?_eq_getElem hid
  obtain ⟨h1, h2⟩ := inqCompressedDim_spec hf f.dims[id]
  unfold expStep
  rw [hd]
  dsimp only
  by_cases hr : (inqCompressedDim f f.dims[id]).2 = true
  · rw [if_pos hr]
    refine ⟨_, ⟨_, hd', Or.inl (h1 hr)⟩, holds_write h (fun _ _ => rfl) true, ?_⟩
    simp only [true_iff]
    exact Or.inr ⟨_, _, hd', h1 hr⟩
  · rw [if_neg hr]
    have hno : ¬ ∃ es', Gathers f f.dims[id] es' := fun ⟨es', h'⟩ => hr (h2 es' h').1
    refine ⟨_, ⟨_, hd', Or.inr ⟨hno, rfl⟩⟩, ?_, ?_⟩
    · exact holds_write (ws := [(id, f.dims[id].len)]) h (fun i hi => writeAt_prefix hi) st.comp
    · constructor
      · exact Or.inl
      · rintro (h' | ⟨d, es', hdd, hg⟩)
        · exact h'
        · rw [hd'] at hdd
          obtain rfl := Option.some.inj hdd
          exact absurd ⟨es', hg⟩ hno

/-- The dimensions of a variable that are looked at. -/
def looked (firstOnly : Bool) (ids : List Nat) : List Nat :=
  if firstOnly then ids.take 1 else ids

theorem expLoop_spec {f : File} (hf : FileOk f) (fo : Bool) : ∀ (ids : List Nat) (st : ExpSt)
    (l : List (Nat × Nat)), Holds st l → (∀ i ∈ ids, i < f.dims.length) →
    ∃ ess, List.Forall₂ (Expands f) (looked fo ids) ess ∧
      Holds (expLoop f fo ids st) (l ++ ess.flatten) ∧
      ((expLoop f fo ids st).comp = true ↔ st.comp = true ∨
        ∃ id ∈ looked fo ids, ∃ d es', f.dims[id]? = some d ∧ Gathers f d es') := by
  intro ids
  induction ids with
  | nil =>
    intro st l h _
    refine ⟨[], by cases fo <;> simp [looked], by simpa [expLoop] using h, ?_⟩
    cases fo <;> simp [expLoop, looked]
  | cons id ids ih =>
    intro st l h hids
    obtain ⟨es, he, hh, hc⟩ := expStep_spec hf h (hids id (by simp))
    rw [expLoop]
    cases fo with
    | true =>
      refine ⟨[es], by simpa [looked] using he, by simpa using hh, ?_⟩
      simpa [looked] using hc
    | false =>
      obtain ⟨ess, h1, h2, h3⟩ := ih (expStep f st id) (l ++ es) hh
        (fun i hi => hids i (by simp [hi]))
      simp only [Bool.false_eq_true, if_false]
      have hl : ∀ l, looked false l = l := fun _ => rfl
      rw [hl] at h1 h3 ⊢
      refine ⟨es :: ess, .cons he h1, by simpa using h2, ?_⟩
      rw [h3, hc, or_assoc]
      simp only [List.mem_cons, exists_eq_or_imp]

theorem sizes_spec (unlim : Option Nat) (arr : Nat → Nat × Nat) : ∀ (l : List (Nat × Nat)),
    (∀ i, ∀ h : i < l.length, arr i = l[i]) →
    sizes unlim arr l.length = ((l.map (·.2)).prod,
      ((l.filter fun e => some e.1 ≠ unlim).map (·.2)).prod) := by
  intro l
  induction l using List.reverseRecOn with
  | nil => intro _; rfl
  | append_singleton l e ih =>
    intro h
    have he : arr l.length = e := by simpa using h l.length (by simp)
    have ih := ih fun i hi => by
      rw [h i (by simp; omega), List.getElem_append_left hi]
    rw [List.length_append, List.length_singleton, sizes, ih, he]
    simp only [List.map_append, List.prod_append, List.filter_append]
    by_cases hu : some e.1 ≠ unlim
    · simp [hu]
    · simp [hu]

/-- C52.  The inquiry about a variable gives its dimensions (only the first one
if so requested), each replaced by the dimensions it stands for, in order; the
total size and the size of a record are the products of their lengths; and the
variable is reported as compressed exactly if one of its dimensions stands for
others. -/
theorem C52_dims (f : File) (hf : FileOk f) (v : Var) (hv : v ∈ f.vars) (firstOnly : Bool)
    (junk : Nat → Nat × Nat) :
    let ids := if firstOnly then v.dims.take 1 else v.dims
    let r := inqCompressedVar f v firstOnly junk
    ∃ ess, List.Forall₂ (Expands f) ids ess ∧
      (List.range r.ndims).map r.entries = ess.flatten ∧
      r.varsize = (ess.flatten.map (·.2)).prod ∧
      r.recsize = ((ess.flatten.filter fun e => some e.1 ≠ f.unlim).map (·.2)).prod ∧
      (r.isCompressed = true ↔ ∃ id ∈ ids, ∃ d es, f.dims[id]? = some d ∧ Gathers f d es) := by
  intro ids r
  obtain ⟨ess, h1, ⟨h2, h3⟩, h4⟩ := expLoop_spec hf firstOnly v.dims
    { nd := 0, arr := junk, comp := false } [] ⟨rfl, by simp⟩ (hf.dimIds v hv)
  rw [List.nil_append] at h2 h3
  refine ⟨ess, h1, ?_, ?_, ?_, ?_⟩
  · apply List.ext_getElem
    · simp [r, inqCompressedVar, h2]
    · intro i hi hi'
      simp only [List.getElem_map, List.getElem_range]
      exact h3 i hi'
  · simp only [r, inqCompressedVar, h2, sizes_spec _ _ _ h3]
  · simp only [r, inqCompressedVar, h2, sizes_spec _ _ _ h3]
  · simpa [r, inqCompressedVar, ids, looked] using h4

/-- C52.  What a dimension stands for is determined by the file. -/
theorem C52_unique (f : File) (hf : FileOk f) (id : Nat) (es es' : List (Nat × Nat))
    (h : Expands f id es) (h' : Expands f id es') : es = es' := by
  obtain ⟨d, hd, h⟩ := h
  obtain ⟨d', hd', h'⟩ := h'
  rw [hd] at hd'
  obtain rfl := Option.some.inj hd'
  rcases h with h | ⟨hn, rfl⟩ <;> rcases h' with h' | ⟨hn', rfl⟩
  · rw [← ((inqCompressedDim_spec hf d).2 es h).2, ← ((inqCompressedDim_spec hf d).2 es' h').2]
  · exact absurd ⟨_, h⟩ hn'
  · exact absurd ⟨_, h'⟩ hn
  · rfl

/-- C52.  If a variable is reported as compressed, `is-compressed` succeeds on
the file. -/
theorem C52_detected (f : File) (hf : FileOk f) (v : Var) (hv : v ∈ f.vars) (firstOnly : Bool)
    (junk : Nat → Nat × Nat) (h : (inqCompressedVar f v firstOnly junk).isCompressed = true) :
    exitStatus [] 2 (.ok f) = 0 := by
  obtain ⟨ess, _, _, _, _, hc⟩ := C52_dims f hf v hv firstOnly junk
  obtain ⟨id, _, d, es, hd, s, ha, _⟩ := hc.1 h
  exact (C43_exact f hf [] (by simp) 2 (by omega)).1.2 ⟨d, List.mem_of_getElem? hd, _, ha⟩

/-- In the land file the variable `temp(time, tile_index)` is seen as
`(time, tile, lat, lon)`, fastest first: 4 x 3 x 2 x 5 values. -/
example :
    let r := inqCompressedVar landFile ⟨"temp".toList, [3, 4], []⟩ false (fun _ => (9, 9))
    (List.range r.ndims).map r.entries = [(0, 4), (1, 3), (2, 2), (4, 5)] ∧
      r.varsize = 120 ∧ r.recsize = 24 ∧ r.isCompressed = true := by decide +kernel

/-- C52 does not make the two tools agree: if the attribute names a dimension
that the file lacks, `is-compressed` succeeds but the variable is treated as
not compressed, with its gathered dimension kept. -/
theorem C52_missing_dim_wrong : ∃ (f : File) (v : Var), FileOk f ∧ v ∈ f.vars ∧
    exitStatus [] 2 (.ok f) = 0 ∧
    (inqCompressedVar f v false (fun _ => (0, 0))).isCompressed = false ∧
    (inqCompressedVar f v false (fun _ => (0, 0))).entries 0 = (0, 7) := by
  refine ⟨⟨[⟨"i".toList, 7⟩, ⟨"lon".toList, 4⟩],
    [⟨"i".toList, [0], [("compress".toList, .text "lat lon".toList)]⟩], none⟩,
    ⟨"i".toList, [0], [("compress".toList, .text "lat lon".toList)]⟩, ?_, ?_, ?_, ?_, ?_⟩
  · constructor <;> simp
  · simp
  · decide
  · decide +kernel
  · decide +kernel

end Verif.CompressedDim
