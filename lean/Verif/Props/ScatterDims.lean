import Verif.Spec.ScatterDims
/-
C16: which dimensions are scattered depends only on that dimension's own metadata.

Full statement: for every list of dimensions, the result for each of them is `classify` of that
dimension. It fails in two ways: `foundunits` is not reset (`C16_stale_flag`), and the text buffer keeps
the end of an earlier text (`C16_stale_text`). `C16_own_metadata_partial` gives the condition on the
dimension alone under which its result is right, whatever the other dimensions are.
-/
namespace Verif
open ScatterDims Spec

theorem matchAt_settled (t : List Char) (b : Buf) : ∀ (p : List Char) (i : Nat), i ≤ t.length →
    ¬ (((t.drop i).map Char.toLower).isPrefixOf p = true ∧ (t.drop i).length < p.length) →
    matchAt (load t b) i p = begins (t.drop i) p := by
  intro p
  induction p with
  | nil => intro i _ _; simp [matchAt, begins]
  | cons c cs ih =>
    intro i hi h
    rcases Nat.lt_or_eq_of_le hi with hlt | heq
    · have hd : t.drop i = t[i] :: t.drop (i + 1) := List.drop_eq_getElem_cons hlt
      have hl : load t b i = t[i] := by simp [load, hlt]
      rw [matchAt, hl]
      by_cases hc : t[i].toLower = c
      · have hn : ¬ (((t.drop (i + 1)).map Char.toLower).isPrefixOf cs = true ∧
            (t.drop (i + 1)).length < cs.length) := by
          rintro ⟨h1, h2⟩
          apply h
          rw [hd]
          simp only [List.map_cons, List.isPrefixOf, hc, h1, List.length_cons]
          simp only [beq_self_eq_true, Bool.and_self, true_and]
          omega
        rw [ih (i + 1) hlt hn, hd]
        simp only [begins, List.map_cons, List.isPrefixOf, hc, beq_self_eq_true, Bool.true_and]
      · rw [hd]
        simp only [begins, List.map_cons, List.isPrefixOf, beq_eq_false_iff_ne.2 hc,
          beq_eq_false_iff_ne.2 (Ne.symm hc), Bool.false_and]
    · exfalso
      apply h
      rw [heq, List.drop_length]
      simp

/-- The program's comparison with a settled text is the right one. -/
theorem matchAt_begins {t p : List Char} {b : Buf}
    (h : ¬ ((t.map Char.toLower).isPrefixOf p = true ∧ t.length < p.length)) :
    matchAt (load t b) 0 p = begins t p := by
  have := matchAt_settled t b p 0 (Nat.zero_le _) (by simpa using h)
  simpa using this

theorem any_congr {α : Type} {l : List α} {f g : α → Bool} (h : ∀ x ∈ l, f x = g x) :
    l.any f = l.any g := by
  induction l with
  | nil => rfl
  | cons a l ih =>
    rw [List.any_cons, List.any_cons, h a (by simp), ih (fun x hx => h x (by simp [hx]))]

/-- One dimension that is self-contained is classified from its own metadata, whatever `foundunits`
and the buffer hold. -/
theorem dimKind_self {o : Opts} {m : DimMeta} {st st' : DState} {k : ScatterKind}
    (hs : SelfContained o m) (h : dimKind o m st = .ok (k, st')) : k = classify o m := by
  unfold dimKind at h
  unfold classify
  by_cases h1 : m.isRec = true
  · simp only [h1, if_true] at h ⊢; cases h; rfl
  rw [if_neg h1] at h ⊢
  by_cases h2 : m.name ∈ o.xdims
  · simp only [h2, List.contains_iff_mem, if_true] at h ⊢; cases h; rfl
  rw [if_neg (by simpa using h2)] at h
  rw [if_neg h2]
  by_cases h3 : m.name ∈ o.ydims
  · simp only [h3, List.contains_iff_mem, if_true] at h ⊢; cases h; rfl
  rw [if_neg (by simpa using h3)] at h
  rw [if_neg h3]
  by_cases h4 : m.hasVar = true
  swap
  · simp only [Bool.not_eq_true] at h4
    simp only [h4, Bool.not_false, if_true] at h
    cases h
    simp [h4]
  simp only [h4, Bool.not_true, Bool.false_eq_true, if_false, if_true] at h ⊢
  rcases hs with hs | hs | hs | hs | ⟨t, hu, hset, hax⟩
  · exact absurd hs h1
  · exact absurd hs h2
  · exact absurd hs h3
  · rw [hs] at h4; cases h4
  · have ex : ∀ b, unitsX.any (matchAt (load t b) 0) = unitsX.any (begins t) := fun b =>
      any_congr fun p hp => matchAt_begins (hset p (List.mem_append_left _ hp))
    have ey : ∀ b, unitsY.any (matchAt (load t b) 0) = unitsY.any (begins t) := fun b =>
      any_congr fun p hp => matchAt_begins (hset p (List.mem_append_right _ hp))
    unfold unitsStep at h
    simp only [hu, ex, ey] at h
    unfold unitsKind
    simp only [hu]
    by_cases hx : unitsX.any (begins t) = true
    · simp only [hx, if_true, axisStep] at h ⊢
      cases h; rfl
    · rw [if_neg hx] at h ⊢
      by_cases hy : unitsY.any (begins t) = true
      · simp only [hy, if_true, axisStep] at h ⊢
        cases h; rfl
      · rw [if_neg hy] at h ⊢
        simp only [axisStep, Bool.false_eq_true, if_false] at h
        simp only [Option.getD_none]
        cases ha : m.axis with
        | none => rw [ha] at h; simp only at h; cases h; rfl
        | some a =>
          cases a with
          | none => rw [ha] at h; simp only at h; cases h
          | some s =>
            rw [ha] at h
            simp only at h
            have hne : s ≠ [] := by rintro rfl; exact hax ha
            have e1 : ∀ c b, matchAt (load s b) 0 [c] = begins s [c] := by
              intro c b
              apply matchAt_begins
              rintro ⟨_, h2⟩
              simp only [List.length_cons, List.length_nil, Nat.zero_add, Nat.lt_one_iff] at h2
              exact hne (List.eq_nil_of_length_eq_zero h2)
            simp only [e1] at h
            unfold axisKind
            simp only
            split at h
            · rename_i hb; cases h; simp [hb]
            · rename_i hb
              split at h
              · rename_i hc; cases h; simp [hb, hc]
              · rename_i hc; cases h; simp [hb, hc]

/-- C16 (partial). In every list of dimensions, and whatever the buffer holds at the start, a
dimension that is self-contained gets the kind that follows from its own metadata, and the number of
divisions that goes with it. Missing for the full property: dimensions whose coordinate variable has
no text units (`C16_stale_flag`) or a text that is a beginning of a known unit (`C16_stale_text`). -/
theorem C16_own_metadata_partial (o : Opts) (ms : List DimMeta) (att : Buf)
    (res : List (ScatterKind × Nat)) (h : getScatterDims o ms att = .ok res)
    (i : Nat) (m : DimMeta) (hm : ms[i]? = some m) (hs : SelfContained o m) :
    res[i]? = some (classify o m, ndiv o (classify o m)) := by
  have key : ∀ (ms : List DimMeta) (st : DState) (res : List (ScatterKind × Nat)) (i : Nat),
      loopDims o ms st = .ok res → ms[i]? = some m →
      res[i]? = some (classify o m, ndiv o (classify o m)) := by
    intro ms
    induction ms with
    | nil => intro st res i _ hm; simp at hm
    | cons m0 ms ih =>
      intro st res i h hm
      unfold loopDims at h
      split at h
      · cases h
      · rename_i k st' hk
        split at h
        · cases h
        · rename_i ks hks
          cases h
          cases i with
          | zero =>
            simp only [List.getElem?_cons_zero, Option.some.injEq] at hm
            subst hm
            rw [dimKind_self hs hk]
            rfl
          | succ i =>
            simp only [List.getElem?_cons_succ] at hm ⊢
            exact ih st' ks i hks hm
  exact key ms _ res i h hm

/-- The results are as many as the dimensions, and the program stops only because of a
`cartesian_axis` that is not text. -/
theorem C16_total (o : Opts) (ms : List DimMeta) (att : Buf)
    (hax : ∀ m ∈ ms, m.axis ≠ some none) :
    ∃ res, getScatterDims o ms att = .ok res ∧ res.length = ms.length := by
  have key : ∀ (ms : List DimMeta) (st : DState), (∀ m ∈ ms, m.axis ≠ some none) →
      ∃ res, loopDims o ms st = .ok res ∧ res.length = ms.length := by
    intro ms
    induction ms with
    | nil => intro st _; exact ⟨[], rfl, rfl⟩
    | cons m ms ih =>
      intro st h
      have hk : ∃ r, dimKind o m st = .ok r := by
        have h0 := h m (by simp)
        unfold dimKind
        repeat (split; · exact ⟨_, rfl⟩)
        simp only [axisStep]
        split
        · exact ⟨_, rfl⟩
        · cases ha : m.axis with
          | none => exact ⟨_, rfl⟩
          | some a =>
            cases a with
            | none => exact absurd ha h0
            | some t =>
              simp only
              split
              · exact ⟨_, rfl⟩
              · split <;> exact ⟨_, rfl⟩
      obtain ⟨⟨k, st'⟩, hk⟩ := hk
      obtain ⟨ks, hks, hl⟩ := ih st' (fun m hm => h m (by simp [hm]))
      exact ⟨(k, ndiv o k) :: ks, by rw [loopDims, hk]; simp only [hks], by simp [hl]⟩
  exact key ms _ hax

/-! ### Concrete cases -/

def exOpts : Opts := { xdims := ["ni"], ydims := [], nx := 3, ny := 2 }
def exLon : DimMeta := DimMeta.mk "lon" false 10 true (some (some "degrees_east".toList)) none
def exTime : DimMeta := DimMeta.mk "time" true 4 true none none
def exNi : DimMeta := DimMeta.mk "ni" false 7 false none none
/-- A dimension with a cartesian axis and no units. -/
def exGrid : DimMeta := DimMeta.mk "grid_yt" false 8 true none (some (some "Y".toList))
/-- A dimension with the units "degrees". -/
def exAngle : DimMeta := DimMeta.mk "angle" false 8 true (some (some "degrees".toList)) none
def exLev : DimMeta := DimMeta.mk "lev" false 5 true (some (some "hPa".toList)) (some (some "Z".toList))

/-- Three self-contained dimensions, of different kinds. -/
example : SelfContained exOpts exLon ∧ SelfContained exOpts exNi ∧ SelfContained exOpts exTime ∧
    SelfContained exOpts exLev := by
  refine ⟨Or.inr (Or.inr (Or.inr (Or.inr ⟨_, rfl, ?_, by decide⟩))), Or.inr (Or.inl (by decide)),
    Or.inl rfl, Or.inr (Or.inr (Or.inr (Or.inr ⟨_, rfl, ?_, by decide⟩)))⟩
  · unfold Settled; decide
  · unfold Settled; decide

example : getScatterDims exOpts [exLev, exLon, exTime, exNi] (fun _ => '\x00') =
    .ok [(.no, 0), (.x, 3), (.no, 0), (.x, 3)] := by decide

/-- The same dimension, alone and after a dimension with known units: alone its axis makes it a y
dimension, after `lon` it is not scattered, because `foundunits` is still set. -/
theorem C16_stale_flag (att : Buf) :
    getScatterDims exOpts [exGrid] att = .ok [(.y, 2)] ∧
    getScatterDims exOpts [exLon, exGrid] att = .ok [(.x, 3), (.no, 0)] := by
  constructor <;> rfl

/-- A dimension with the units "degrees" directly after one with the units "degrees_east" is taken for
an x dimension, because the end of the earlier text is still in the buffer. Alone, with a NUL in the
buffer, it is not scattered. -/
theorem C16_stale_text :
    getScatterDims exOpts [exAngle] (fun _ => '\x00') = .ok [(.no, 0)] ∧
    ∀ att, getScatterDims exOpts [exLon, exAngle] att = .ok [(.x, 3), (.x, 3)] := by
  constructor
  · decide
  · intro att; rfl

end Verif
