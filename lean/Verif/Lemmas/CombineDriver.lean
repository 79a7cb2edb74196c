import Verif.Spec.Driver
/-
Helper lemmas about the driver model of mppnccombine.
-/
namespace Verif.Driver

variable {F : Type}

/-- `st'` is a later state than `st`. -/
structure Later (E : Env F) (st st' : DSt F) : Prop where
  some_w : ∀ w, st.width = some w → st'.width = some w
  none_w : st.width = none → st'.width = none ∨ st'.width = some 4 ∨ st'.width = some 6
  err : st.infileErr = true → st'.infileErr = true
  tr : ∀ e ∈ st.trace, e ∈ st'.trace

theorem Later.refl (E : Env F) (st : DSt F) : Later E st st :=
  ⟨fun _ h => h, fun h => Or.inl h, fun h => h, fun _ h => h⟩

theorem Later.trans {E : Env F} {s t u : DSt F} (h : Later E s t) (g : Later E t u) :
    Later E s u := by
  refine ⟨fun w hw => g.some_w w (h.some_w w hw), fun hn => ?_, fun he => g.err (h.err he),
    fun e he => g.tr e (h.tr e he)⟩
  rcases h.none_w hn with h1 | h1 | h1
  · exact g.none_w h1
  · exact Or.inr (Or.inl (g.some_w _ h1))
  · exact Or.inr (Or.inr (g.some_w _ h1))

/-- Number `a` has been dealt with in block `b`: either no name is known yet and it is not on disk,
or its file is not on disk, or it was processed with code 0, or an error is recorded. -/
def Cov (E : Env F) (st : DSt F) (b : Nat) (a : Int) : Prop :=
  (st.width = none ∧ E.onDisk (E.name 4 a) = false ∧ E.onDisk (E.name 6 a) = false) ∨
  ∃ w, st.width = some w ∧ (st.infileErr = true ∨ E.onDisk (E.name w a) = false ∨
    ∃ fl, Event.proc b (E.name w a) 0 fl ∈ st.trace)

theorem Cov.mono {E : Env F} {st st' : DSt F} {b : Nat} {a : Int} (h : Cov E st b a)
    (l : Later E st st') : Cov E st' b a := by
  rcases h with ⟨hw, h4, h6⟩ | ⟨w, hw, h⟩
  · rcases l.none_w hw with h | h | h
    · exact Or.inl ⟨h, h4, h6⟩
    · exact Or.inr ⟨4, h, Or.inr (Or.inl h4)⟩
    · exact Or.inr ⟨6, h, Or.inr (Or.inl h6)⟩
  · refine Or.inr ⟨w, l.some_w w hw, ?_⟩
    rcases h with h | h | ⟨fl, h⟩
    · exact Or.inl (l.err h)
    · exact Or.inr (Or.inl h)
    · exact Or.inr (Or.inr ⟨fl, l.tr _ h⟩)

theorem callProc_later (E : Env F) (b : Nat) (x : F) (st : DSt F) :
    Later E st (callProc E b x st) :=
  ⟨fun _ h => h, fun h => Or.inl h, fun h => by simp [callProc, h],
    fun e h => by simp [callProc, h]⟩

/-- After `callProc` either an error is recorded or the file was processed with code 0. -/
theorem callProc_done (E : Env F) (b : Nat) (x : F) (st : DSt F) :
    (callProc E b x st).infileErr = true ∨ ∃ fl, Event.proc b x 0 fl ∈ (callProc E b x st).trace := by
  unfold callProc
  simp only
  split
  · by_cases h : (E.proc b x st.f st.nfiles).rc = 0
    · right; exact ⟨_, by rw [h]; exact List.mem_cons_self⟩
    · left; simp [h]
  · left; simp [ProcRes.rc]

theorem handleFile_spec {E : Env F} {b : Nat} {x : F} {st st' : DSt F}
    (h : handleFile E b x st = .ok st') :
    Later E st st' ∧ (st'.infileErr = true ∨ ∃ fl, Event.proc b x 0 fl ∈ st'.trace) := by
  unfold handleFile at h
  split at h
  · cases h
    exact ⟨callProc_later E b x st, callProc_done E b x st⟩
  · split at h
    · cases h
      refine ⟨Later.trans ?_ (callProc_later E b x _), callProc_done E b x _⟩
      exact ⟨fun _ h => h, fun h => Or.inl h, fun _ => rfl, fun _ h => h⟩
    · cases h

theorem handleFile_width {E : Env F} {b : Nat} {x : F} {st st' : DSt F}
    (h : handleFile E b x st = .ok st') : st'.width = st.width := by
  unfold handleFile at h
  split at h
  · cases h; rfl
  · split at h
    · cases h; rfl
    · cases h

theorem handleFile_f {E : Env F} {b : Nat} {x : F} {st st' : DSt F}
    (h : handleFile E b x st = .ok st') : st'.f = st.f + 1 := by
  unfold handleFile at h
  split at h
  · cases h; rfl
  · split at h
    · cases h; rfl
    · cases h

theorem handleFile_nfiles {E : Env F} {b : Nat} {x : F} {st st' : DSt F} {P : Int → Prop}
    (hP : ∀ b x f n, P (E.proc b x f n).nfiles) (h0 : P st.nfiles)
    (h : handleFile E b x st = .ok st') : P st'.nfiles := by
  unfold handleFile callProc at h
  split at h
  · rename_i hd
    cases h
    simpa [hd] using hP _ _ _ _
  · rename_i hd
    split at h
    · cases h
      simpa [hd] using h0
    · cases h

theorem findWidth_later {E : Env F} {width : Option Nat} {a : Int} {w : Nat}
    (h : findWidth E width a = some w) :
    (∀ v, width = some v → w = v) ∧ (width = none → w = 4 ∨ w = 6) := by
  unfold findWidth at h
  split at h
  · cases h
    exact ⟨fun v hv => by simpa using hv, fun hn => by simp at hn⟩
  · refine ⟨fun v hv => by simp at hv, fun _ => ?_⟩
    split at h
    · cases h; exact Or.inl rfl
    · split at h
      · cases h; exact Or.inr rfl
      · cases h

theorem oneFile_some {E : Env F} {b : Nat} {a : Int} {st st' : DSt F}
    (h : oneFile E b a st = .ok (some st')) :
    Later E st st' ∧ Cov E st' b a ∧ st'.f = st.f + 1 ∧ st'.width ≠ none := by
  unfold oneFile at h
  split at h
  · cases h
  · rename_i w hw
    cases hh : handleFile E b (E.name w a) { st with width := some w } with
    | error e => rw [hh] at h; cases h
    | ok s =>
      rw [hh] at h
      cases h
      obtain ⟨hl, hd⟩ := handleFile_spec hh
      have hwd := handleFile_width hh
      have hf := handleFile_f hh
      obtain ⟨f1, f2⟩ := findWidth_later hw
      refine ⟨Later.trans ?_ hl, ?_, hf, by simp [hwd]⟩
      · refine ⟨fun v hv => ?_, fun hn => ?_, fun h => h, fun _ h => h⟩
        · rw [f1 v hv]
        · rcases f2 hn with h | h <;> simp [h]
      · refine Or.inr ⟨w, hwd, ?_⟩
        rcases hd with h | h
        · exact Or.inl h
        · exact Or.inr (Or.inr h)

theorem oneFile_none {E : Env F} {b : Nat} {a : Int} {st : DSt F}
    (h : oneFile E b a st = .ok none) : st.width = none ∧ Cov E st b a := by
  unfold oneFile at h
  split at h
  · rename_i hw
    unfold findWidth at hw
    split at hw
    · cases hw
    · rename_i hn
      refine ⟨hn, Or.inl ⟨hn, ?_⟩⟩
      split at hw
      · cases hw
      · split at hw
        · cases hw
        · simp_all
  · rename_i w hw
    cases hh : handleFile E b (E.name w a) { st with width := some w } <;> rw [hh] at h <;> cases h

theorem oneFile_nfiles {E : Env F} {b : Nat} {a : Int} {st st' : DSt F} {P : Int → Prop}
    (hP : ∀ b x f n, P (E.proc b x f n).nfiles) (h0 : P st.nfiles)
    (h : oneFile E b a st = .ok (some st')) : P st'.nfiles := by
  unfold oneFile at h
  split at h
  · cases h
  · rename_i w hw
    cases hh : handleFile E b (E.name w a) { st with width := some w } with
    | error e => rw [hh] at h; cases h
    | ok s =>
      rw [hh] at h
      cases h
      exact handleFile_nfiles (st := { st with width := some w }) hP h0 hh

theorem doFlush_later (E : Env F) (b : Nat) (st : DSt F) : Later E st (doFlush E b st) :=
  ⟨fun _ h => h, fun h => Or.inl h, fun h => h, fun e h => by simp [doFlush, h]⟩

theorem setF_later (E : Env F) (st : DSt F) (n : Nat) : Later E st { st with f := n } :=
  ⟨fun _ h => h, fun h => Or.inl h, fun h => h, fun _ h => h⟩

theorem mem_numbers {lo hi a : Int} : a ∈ numbers lo hi ↔ lo ≤ a ∧ a < hi := by
  simp only [numbers, List.mem_map, List.mem_range]
  constructor
  · rintro ⟨i, hi, rfl⟩; omega
  · intro h; exact ⟨(a - lo).toNat, by omega, by omega⟩

theorem numbers_length (lo hi : Int) : (numbers lo hi).length = (hi - lo).toNat := by
  simp [numbers]

/-! ### Range mode -/

/-- The loop of the range mode without the early stop. -/
theorem rangeLoop_spec {E : Env F} {b : Nat} {L : Nat}
    (hP : ∀ b x f n, (E.proc b x f n).nfiles ≤ 0 ∨ (L : Int) ≤ (E.proc b x f n).nfiles) :
    ∀ (as : List Int) (st st' : DSt F), st.f + as.length ≤ L →
      (st.nfiles ≤ 0 ∨ (L : Int) ≤ st.nfiles) →
      rangeLoop E b as st = .ok st' →
      Later E st st' ∧ (∀ a ∈ as, Cov E st' b a) ∧
        (st'.nfiles ≤ 0 ∨ (L : Int) ≤ st'.nfiles) ∧ (st'.width = none → st'.used = st.used) := by
  intro as
  induction as with
  | nil =>
    intro st st' _ hn h
    cases h
    exact ⟨Later.refl E st, by simp, hn, fun _ => rfl⟩
  | cons a rest ih =>
    intro st st' hf hn h
    unfold rangeLoop at h
    split at h
    · cases h
    · rename_i ho
      obtain ⟨_, hc⟩ := oneFile_none ho
      obtain ⟨hl, hcs, hn', hu⟩ := ih st st' (by simp at hf; omega) hn h
      refine ⟨hl, ?_, hn', hu⟩
      intro x hx
      rcases List.mem_cons.1 hx with rfl | hx
      · exact hc.mono hl
      · exact hcs x hx
    · rename_i s ho
      obtain ⟨hl, hc, hsf, hw⟩ := oneFile_some ho
      have hns := oneFile_nfiles (P := fun n => n ≤ 0 ∨ (L : Int) ≤ n) hP hn ho
      split at h
      · rename_i hstop
        have hrest : rest = [] := by
          rcases hstop with hs | hs
          · rcases hns with h0 | h0
            · omega
            · simp only [List.length_cons] at hf
              exact List.eq_nil_of_length_eq_zero (by omega)
          · exact hs
        subst hrest
        cases h
        have hlf := doFlush_later E b s
        have hl2 : Later E s { doFlush E b s with used := (doFlush E b s).f } :=
          ⟨hlf.some_w, hlf.none_w, hlf.err, hlf.tr⟩
        refine ⟨hl.trans hl2, ?_, hns, ?_⟩
        · intro x hx
          simp only [List.mem_singleton] at hx
          subst hx
          exact hc.mono hl2
        · intro hnone
          exact absurd hnone hw
      · obtain ⟨hl2, hcs, hn', hu⟩ := ih s st' (by simp at hf; omega) hns h
        refine ⟨hl.trans hl2, ?_, hn', ?_⟩
        · intro x hx
          rcases List.mem_cons.1 hx with rfl | hx
          · exact hc.mono hl2
          · exact hcs x hx
        · intro hnone
          exfalso
          cases hsw : s.width with
          | none => exact hw hsw
          | some w => rw [hl2.some_w w hsw] at hnone; cases hnone

theorem rangeBlocks_spec {E : Env F} {nstart nend : Int}
    (hP : ∀ b x f n, (E.proc b x f n).nfiles ≤ 0 ∨ nend + 1 - nstart ≤ (E.proc b x f n).nfiles) :
    ∀ (bs : List Nat) (st st' : DSt F),
      (st.nfiles ≤ 0 ∨ nend + 1 - nstart ≤ st.nfiles) →
      (st.width = none → st.used = 0) →
      rangeBlocks E nstart nend bs st = .ok st' →
      Later E st st' ∧ (∀ b ∈ bs, ∀ a, nstart ≤ a → a ≤ nend → Cov E st' b a) ∧
        (bs ≠ [] → st'.width ≠ none) := by
  intro bs
  induction bs with
  | nil =>
    intro st st' _ _ h
    cases h
    exact ⟨Later.refl E st, by simp, by simp⟩
  | cons b bs ih =>
    intro st st' hn hu h
    unfold rangeBlocks at h
    split at h
    · cases h
    · rename_i s hs
      split at h
      · cases h
      · rename_i hused
        have hP' : ∀ b x f n, (E.proc b x f n).nfiles ≤ 0 ∨
            (((nend + 1 - nstart).toNat : Nat) : Int) ≤ (E.proc b x f n).nfiles := by
          intro b x f n
          rcases hP b x f n with h | h
          · exact Or.inl h
          · by_cases h0 : (E.proc b x f n).nfiles ≤ 0
            · exact Or.inl h0
            · exact Or.inr (by omega)
        have hn0 : st.nfiles ≤ 0 ∨ (((nend + 1 - nstart).toNat : Nat) : Int) ≤ st.nfiles := by
          rcases hn with h | h
          · exact Or.inl h
          · by_cases h0 : st.nfiles ≤ 0
            · exact Or.inl h0
            · exact Or.inr (by omega)
        obtain ⟨hl, hc, hns, hus⟩ := rangeLoop_spec hP' (numbers nstart (nend + 1))
          { st with f := 0 } s (by rw [numbers_length]; simp) hn0 hs
        have hwne : s.width ≠ none := by
          intro hnone
          apply hused
          rw [hus hnone]
          apply hu
          cases hst : st.width with
          | none => rfl
          | some w => rw [hl.some_w w hst] at hnone; cases hnone
        have hl0 : Later E st s := (setF_later E st 0).trans hl
        obtain ⟨hl2, hc2, _⟩ := ih s st' (hns.imp id (fun h => by omega))
          (fun h => absurd h hwne) h
        refine ⟨hl0.trans hl2, ?_, ?_⟩
        · intro b' hb' a ha1 ha2
          rcases List.mem_cons.1 hb' with rfl | hb'
          · exact (hc a (mem_numbers.2 ⟨ha1, by omega⟩)).mono hl2
          · exact hc2 b' hb' a ha1 ha2
        · intro _ hnone
          cases hsw : s.width with
          | none => exact hwne hsw
          | some w => rw [hl2.some_w w hsw] at hnone; cases hnone

/-! ### Mode without `-e` -/

theorem noEndFlush_later (E : Env F) (b : Nat) (a nend : Int) (st : DSt F) :
    Later E st (noEndFlush E b a nend st) := by
  unfold noEndFlush
  split
  · exact (doFlush_later E b st).trans (setF_later E _ 0)
  · exact Later.refl E st

theorem noEndRest_spec {E : Env F} {b : Nat} {nend : Int} :
    ∀ (as : List Int) (st st' : DSt F), noEndRest E b nend as st = .ok st' →
      Later E st st' ∧ (∀ a ∈ as, Cov E st' b a) := by
  intro as
  induction as with
  | nil => intro st st' h; cases h; exact ⟨Later.refl E st, by simp⟩
  | cons a rest ih =>
    intro st st' h
    unfold noEndRest at h
    split at h
    · cases h
    · rename_i ho
      obtain ⟨_, hc⟩ := oneFile_none ho
      obtain ⟨hl, hcs⟩ := ih st st' h
      refine ⟨hl, fun x hx => ?_⟩
      rcases List.mem_cons.1 hx with rfl | hx
      · exact hc.mono hl
      · exact hcs x hx
    · rename_i s ho
      obtain ⟨hl, hc, _, _⟩ := oneFile_some ho
      obtain ⟨hl2, hcs⟩ := ih _ st' h
      have hl3 := (noEndFlush_later E b a nend s).trans hl2
      refine ⟨hl.trans hl3, fun x hx => ?_⟩
      rcases List.mem_cons.1 hx with rfl | hx
      · exact hc.mono hl3
      · exact hcs x hx

/-- One block when every file states `n` files, the first file exists and `n > 0` or `nend` is still
`nstart + 1`. -/
theorem noEndBlock_spec {E : Env F} {b : Nat} {nstart nend n : Int} {st : DSt F} {r : DSt F × Int}
    (hn : ∀ b x f k, (E.proc b x f k).nfiles = n)
    (hfirst : E.onDisk (E.name 4 nstart) = true ∨ E.onDisk (E.name 6 nstart) = true)
    (hst : st.width ≠ none → ∃ w, st.width = some w ∧ E.onDisk (E.name w nstart) = true)
    (hend : n ≤ 0 → nend = nstart + 1)
    (h : noEndBlock E b nstart nend st = .ok r) :
    Later E st r.1 ∧ (∀ a, nstart ≤ a → a < r.2 → Cov E r.1 b a) ∧
      r.2 = nstart + (if 0 < n then n else 1) ∧
      ∃ w, r.1.width = some w ∧ E.onDisk (E.name w nstart) = true := by
  have key : ∃ w, findWidth E st.width nstart = some w ∧ E.onDisk (E.name w nstart) = true := by
    cases hw : st.width with
    | some w =>
      obtain ⟨v, hv, hd⟩ := hst (by simp [hw])
      rw [hw] at hv
      cases hv
      exact ⟨w, rfl, hd⟩
    | none =>
      unfold findWidth
      by_cases h4 : E.onDisk (E.name 4 nstart) = true
      · exact ⟨4, by simp [h4], h4⟩
      · have h6 : E.onDisk (E.name 6 nstart) = true := by
          rcases hfirst with h | h
          · exact absurd h h4
          · exact h
        exact ⟨6, by simp [h4, h6], h6⟩
  obtain ⟨w, hw, hd⟩ := key
  have ho : oneFile E b nstart { st with f := 0 } =
      .ok (some (callProc E b (E.name w nstart) { st with f := 0, width := some w })) := by
    simp [oneFile, hw, handleFile, hd, Except.map]
  have hnf : (callProc E b (E.name w nstart) { st with f := 0, width := some w }).nfiles = n := by
    simp [callProc, hd, hn]
  have hcw : (callProc E b (E.name w nstart) { st with f := 0, width := some w }).width = some w :=
    rfl
  obtain ⟨hl, hc, _, _⟩ := oneFile_some ho
  unfold noEndBlock at h
  rw [ho] at h
  simp only [hnf] at h
  have hnend : (if 0 < n then nstart + n else nend) = nstart + (if 0 < n then n else 1) := by
    split
    · rfl
    · exact hend (by omega)
  rw [hnend] at h
  generalize callProc E b (E.name w nstart) { st with f := 0, width := some w } = s at *
  generalize nstart + (if 0 < n then n else 1) = N at h ⊢
  · cases hr : noEndRest E b N (numbers (nstart + 1) N) (noEndFlush E b nstart N s) with
    | error e => rw [hr] at h; cases h
    | ok s' =>
      rw [hr] at h
      cases h
      obtain ⟨hl2, hcs⟩ := noEndRest_spec _ _ _ hr
      have hl3 := (noEndFlush_later E b nstart N s).trans hl2
      refine ⟨((setF_later E st 0).trans hl).trans hl3, ?_, rfl, w,
        hl3.some_w w hcw, hd⟩
      intro a ha1 ha2
      by_cases hane : a = nstart
      · subst hane
        exact hc.mono hl3
      · exact hcs a (mem_numbers.2 ⟨by omega, ha2⟩)

theorem noEndBlocks_spec {E : Env F} {nstart n : Int}
    (hn : ∀ b x f k, (E.proc b x f k).nfiles = n)
    (hfirst : E.onDisk (E.name 4 nstart) = true ∨ E.onDisk (E.name 6 nstart) = true) :
    ∀ (bs : List Nat) (nend : Int) (st : DSt F) (r : DSt F × Int),
      (st.width ≠ none → ∃ w, st.width = some w ∧ E.onDisk (E.name w nstart) = true) →
      (n ≤ 0 → nend = nstart + 1) →
      noEndBlocks E nstart bs nend st = .ok r →
      Later E st r.1 ∧
      (∀ b ∈ bs, ∀ a, nstart ≤ a → a < nstart + (if 0 < n then n else 1) → Cov E r.1 b a) ∧
      (bs ≠ [] → r.2 = nstart + (if 0 < n then n else 1) ∧ r.1.width ≠ none) := by
  intro bs
  induction bs with
  | nil =>
    intro nend st r _ _ h
    cases h
    exact ⟨Later.refl E st, by simp, by simp⟩
  | cons b bs ih =>
    intro nend st r hst hend h
    unfold noEndBlocks at h
    split at h
    · cases h
    · rename_i s nend' hs
      obtain ⟨hl, hc, he, w, hw, hd⟩ := noEndBlock_spec hn hfirst hst hend hs
      simp only at he hl hc hw
      obtain ⟨hl2, hc2, hr⟩ := ih nend' s r (fun _ => ⟨w, hw, hd⟩)
        (fun h0 => by rw [he, if_neg (by omega)]) h
      refine ⟨hl.trans hl2, ?_, ?_⟩
      · intro b' hb' a ha1 ha2
        rcases List.mem_cons.1 hb' with rfl | hb'
        · exact (hc a ha1 (by rw [he]; exact ha2)).mono hl2
        · exact hc2 b' hb' a ha1 ha2
      · intro _
        constructor
        · cases bs with
          | nil => cases h; exact he
          | cons b' bs' => exact (hr (by simp)).1
        · rw [hl2.some_w w hw]; simp

/-! ### Explicit list -/

theorem listLoop_spec {E : Env F} {b : Nat} :
    ∀ (xs : List F) (st st' : DSt F), listLoop E b xs st = .ok st' →
      Later E st st' ∧ (∀ x ∈ xs, st'.infileErr = true ∨ ∃ fl, Event.proc b x 0 fl ∈ st'.trace) := by
  intro xs
  induction xs with
  | nil => intro st st' h; cases h; exact ⟨Later.refl E st, by simp⟩
  | cons x rest ih =>
    intro st st' h
    unfold listLoop at h
    split at h
    · cases h
    · rename_i s hs
      obtain ⟨hl, hd⟩ := handleFile_spec hs
      have step : ∀ t : DSt F, Later E s t → listLoop E b rest t = .ok st' →
          Later E st st' ∧
          (∀ y ∈ x :: rest, st'.infileErr = true ∨ ∃ fl, Event.proc b y 0 fl ∈ st'.trace) := by
        intro t hst ht
        obtain ⟨hl2, hcs⟩ := ih t st' ht
        have hl3 := hst.trans hl2
        refine ⟨hl.trans hl3, fun y hy => ?_⟩
        rcases List.mem_cons.1 hy with rfl | hy
        · rcases hd with h | ⟨fl, h⟩
          · exact Or.inl (hl3.err h)
          · exact Or.inr ⟨fl, hl3.tr _ h⟩
        · exact hcs y hy
      split at h
      · exact step _ ((doFlush_later E b s).trans (setF_later E _ 0)) h
      · exact step _ (Later.refl E s) h

theorem listBlocks_spec {E : Env F} {files : List F} :
    ∀ (bs : List Nat) (st st' : DSt F), listBlocks E files bs st = .ok st' →
      Later E st st' ∧ (∀ b ∈ bs, ∀ x ∈ files,
        st'.infileErr = true ∨ ∃ fl, Event.proc b x 0 fl ∈ st'.trace) := by
  intro bs
  induction bs with
  | nil => intro st st' h; cases h; exact ⟨Later.refl E st, by simp⟩
  | cons b bs ih =>
    intro st st' h
    unfold listBlocks at h
    split at h
    · cases h
    · rename_i s hs
      obtain ⟨hl, hd⟩ := listLoop_spec _ _ _ hs
      obtain ⟨hl2, hcs⟩ := ih s st' h
      refine ⟨((setF_later E st 0).trans hl).trans hl2, fun b' hb' x hx => ?_⟩
      rcases List.mem_cons.1 hb' with rfl | hb'
      · rcases hd x hx with h | ⟨fl, h⟩
        · exact Or.inl (hl2.err h)
        · exact Or.inr ⟨fl, hl2.tr _ h⟩
      · exact hcs b' hb' x hx

/-! ### What the error flags say about the history -/

theorem addErrs_eq (cs : List Bool) : ∀ e, addErrs e cs = e + UInt8.ofNat (cs.filter id).length := by
  induction cs with
  | nil => intro e; simp [addErrs]
  | cons c cs ih =>
    intro e
    cases c
    · simp [addErrs, ih]
    · simp only [addErrs, if_true, ih]
      simp only [id, List.filter_cons_of_pos, List.length_cons, UInt8.ofNat_add]
      rw [UInt8.add_assoc, UInt8.add_comm 1]
      rfl

/-- Number of failed flushes in a history. -/
def flushFails (tr : List (Event F)) : Nat :=
  (tr.filter fun e => match e with | .flush true => true | _ => false).length

/-- Link between the error variables and the history. -/
structure Hist (E : Env F) (st : DSt F) : Prop where
  procs : st.infileErr = false → ∀ b x rc fl, Event.proc b x rc fl ∈ st.trace →
    rc = 0 ∧ ∃ f n, rc = (E.proc b x f n).rc ∧ fl = (E.proc b x f n).failed
  flushes : st.outErrs = UInt8.ofNat (flushFails st.trace)

theorem Hist.init (E : Env F) : Hist E (DSt.init : DSt F) :=
  ⟨by simp [DSt.init], rfl⟩

theorem callProc_hist {E : Env F} {b : Nat} {x : F} {st : DSt F} (h : Hist E st) :
    Hist E (callProc E b x st) := by
  refine ⟨?_, ?_⟩
  · intro he b' x' rc fl hm
    unfold callProc at he hm
    by_cases hd : E.onDisk x = true
    · simp only [hd, if_true, Bool.or_eq_false_iff, bne_eq_false_iff_eq] at he hm
      rcases List.mem_cons.1 hm with hm | hm
      · cases hm
        exact ⟨he.2, _, _, rfl, rfl⟩
      · exact h.procs he.1 _ _ _ _ hm
    · simp [hd, ProcRes.rc] at he
  · show st.outErrs = _
    rw [h.flushes]
    rfl

theorem handleFile_hist {E : Env F} {b : Nat} {x : F} {st st' : DSt F} (h : Hist E st)
    (hh : handleFile E b x st = .ok st') : Hist E st' := by
  unfold handleFile at hh
  split at hh
  · cases hh; exact callProc_hist h
  · split at hh
    · cases hh
      exact callProc_hist ⟨by simp, h.flushes⟩
    · cases hh

theorem oneFile_hist {E : Env F} {b : Nat} {a : Int} {st st' : DSt F} (h : Hist E st)
    (ho : oneFile E b a st = .ok (some st')) : Hist E st' := by
  unfold oneFile at ho
  split at ho
  · cases ho
  · rename_i w hw
    cases hh : handleFile E b (E.name w a) { st with width := some w } with
    | error e => rw [hh] at ho; cases ho
    | ok s =>
      rw [hh] at ho
      cases ho
      exact handleFile_hist (st := { st with width := some w }) ⟨h.procs, h.flushes⟩ hh

theorem flushFails_flushes (cs : List Bool) (tr : List (Event F)) :
    flushFails ((cs.map Event.flush).reverse ++ tr) = flushFails tr + (cs.filter id).length := by
  unfold flushFails
  rw [List.filter_append, List.length_append, Nat.add_comm, List.filter_reverse, List.length_reverse]
  congr 1
  induction cs with
  | nil => rfl
  | cons c cs ih => cases c <;> simp [List.filter_cons, ih]

theorem doFlush_hist {E : Env F} {b : Nat} {st : DSt F} (h : Hist E st) :
    Hist E (doFlush E b st) := by
  refine ⟨?_, ?_⟩
  · intro he b' x rc fl hm
    simp only [doFlush, List.mem_append, List.mem_reverse, List.mem_map] at hm
    rcases hm with ⟨_, _, hm⟩ | hm
    · cases hm
    · exact h.procs he _ _ _ _ hm
  · show addErrs st.outErrs (E.flush b) = UInt8.ofNat (flushFails (_ ++ _))
    rw [flushFails_flushes, addErrs_eq, h.flushes, UInt8.ofNat_add]

theorem Hist.congr {E : Env F} {st st' : DSt F} (h : Hist E st) (h1 : st'.infileErr = st.infileErr)
    (h2 : st'.outErrs = st.outErrs) (h3 : st'.trace = st.trace) : Hist E st' :=
  ⟨by rw [h1, h3]; exact h.procs, by rw [h2, h3]; exact h.flushes⟩

theorem rangeLoop_hist {E : Env F} {b : Nat} : ∀ (as : List Int) (st st' : DSt F), Hist E st →
    rangeLoop E b as st = .ok st' → Hist E st' := by
  intro as
  induction as with
  | nil => intro st st' h hh; cases hh; exact h
  | cons a rest ih =>
    intro st st' h hh
    unfold rangeLoop at hh
    split at hh
    · cases hh
    · exact ih _ _ h hh
    · rename_i s ho
      have hs := oneFile_hist h ho
      split at hh
      · cases hh
        exact (doFlush_hist hs).congr rfl rfl rfl
      · exact ih _ _ hs hh

theorem rangeBlocks_hist {E : Env F} {nstart nend : Int} : ∀ (bs : List Nat) (st st' : DSt F),
    Hist E st → rangeBlocks E nstart nend bs st = .ok st' → Hist E st' := by
  intro bs
  induction bs with
  | nil => intro st st' h hh; cases hh; exact h
  | cons b bs ih =>
    intro st st' h hh
    unfold rangeBlocks at hh
    split at hh
    · cases hh
    · rename_i s hs
      split at hh
      · cases hh
      · exact ih _ _ (rangeLoop_hist _ { st with f := 0 } _ (h.congr rfl rfl rfl) hs) hh

theorem noEndFlush_hist {E : Env F} {b : Nat} {a nend : Int} {st : DSt F} (h : Hist E st) :
    Hist E (noEndFlush E b a nend st) := by
  unfold noEndFlush
  split
  · exact (doFlush_hist h).congr rfl rfl rfl
  · exact h

theorem noEndRest_hist {E : Env F} {b : Nat} {nend : Int} : ∀ (as : List Int) (st st' : DSt F),
    Hist E st → noEndRest E b nend as st = .ok st' → Hist E st' := by
  intro as
  induction as with
  | nil => intro st st' h hh; cases hh; exact h
  | cons a rest ih =>
    intro st st' h hh
    unfold noEndRest at hh
    split at hh
    · cases hh
    · exact ih _ _ h hh
    · rename_i s ho
      exact ih _ _ (noEndFlush_hist (oneFile_hist h ho)) hh

theorem noEndBlock_hist {E : Env F} {b : Nat} {nstart nend : Int} {st : DSt F} {r : DSt F × Int}
    (h : Hist E st) (hh : noEndBlock E b nstart nend st = .ok r) : Hist E r.1 := by
  have h0 : Hist E { st with f := 0 } := h.congr rfl rfl rfl
  unfold noEndBlock at hh
  split at hh
  · cases hh
  · cases hr : noEndRest E b nend (numbers (nstart + 1) nend) { st with f := 0 } with
    | error e => rw [hr] at hh; cases hh
    | ok s =>
      rw [hr] at hh
      cases hh
      exact noEndRest_hist _ _ _ h0 hr
  · rename_i s ho
    have hs := oneFile_hist h0 ho
    simp only at hh
    generalize (if 0 < s.nfiles then nstart + s.nfiles else nend) = N at hh
    cases hr : noEndRest E b N (numbers (nstart + 1) N) (noEndFlush E b nstart N s) with
    | error e => rw [hr] at hh; cases hh
    | ok s' =>
      rw [hr] at hh
      cases hh
      exact noEndRest_hist _ _ _ (noEndFlush_hist hs) hr

theorem noEndBlocks_hist {E : Env F} {nstart : Int} :
    ∀ (bs : List Nat) (nend : Int) (st : DSt F) (r : DSt F × Int),
    Hist E st → noEndBlocks E nstart bs nend st = .ok r → Hist E r.1 := by
  intro bs
  induction bs with
  | nil => intro nend st r h hh; cases hh; exact h
  | cons b bs ih =>
    intro nend st r h hh
    unfold noEndBlocks at hh
    split at hh
    · cases hh
    · rename_i s n' hs
      exact ih _ _ _ (noEndBlock_hist h hs) hh

theorem listLoop_hist {E : Env F} {b : Nat} : ∀ (xs : List F) (st st' : DSt F), Hist E st →
    listLoop E b xs st = .ok st' → Hist E st' := by
  intro xs
  induction xs with
  | nil => intro st st' h hh; cases hh; exact h
  | cons a rest ih =>
    intro st st' h hh
    unfold listLoop at hh
    split at hh
    · cases hh
    · rename_i s ho
      have hs := handleFile_hist h ho
      split at hh
      · exact ih { doFlush E b s with f := 0 } _ ((doFlush_hist hs).congr rfl rfl rfl) hh
      · exact ih _ _ hs hh

theorem listBlocks_hist {E : Env F} {files : List F} : ∀ (bs : List Nat) (st st' : DSt F),
    Hist E st → listBlocks E files bs st = .ok st' → Hist E st' := by
  intro bs
  induction bs with
  | nil => intro st st' h hh; cases hh; exact h
  | cons b bs ih =>
    intro st st' h hh
    unfold listBlocks at hh
    split at hh
    · cases hh
    · rename_i s hs
      exact ih _ _ (listLoop_hist _ { st with f := 0 } _ (h.congr rfl rfl rfl) hs) hh

/-! ### Early exits are never status 0 -/

theorem handleFile_err {E : Env F} {b : Nat} {x : F} {st : DSt F} {e : Nat}
    (h : handleFile E b x st = .error e) : e ≠ 0 := by
  unfold handleFile at h
  split at h
  · cases h
  · split at h <;> cases h
    simp

theorem oneFile_err {E : Env F} {b : Nat} {a : Int} {st : DSt F} {e : Nat}
    (h : oneFile E b a st = .error e) : e ≠ 0 := by
  unfold oneFile at h
  split at h
  · cases h
  · rename_i w hw
    cases hh : handleFile E b (E.name w a) { st with width := some w } with
    | error e' => rw [hh] at h; cases h; exact handleFile_err hh
    | ok s => rw [hh] at h; cases h

theorem rangeLoop_err {E : Env F} {b : Nat} {e : Nat} : ∀ (as : List Int) (st : DSt F),
    rangeLoop E b as st = .error e → e ≠ 0 := by
  intro as
  induction as with
  | nil => intro st hh; cases hh
  | cons a rest ih =>
    intro st hh
    unfold rangeLoop at hh
    split at hh
    · rename_i ho; cases hh; exact oneFile_err ho
    · exact ih _ hh
    · split at hh
      · cases hh
      · exact ih _ hh

theorem rangeBlocks_err {E : Env F} {nstart nend : Int} {e : Nat} : ∀ (bs : List Nat) (st : DSt F),
    rangeBlocks E nstart nend bs st = .error e → e ≠ 0 := by
  intro bs
  induction bs with
  | nil => intro st hh; cases hh
  | cons b bs ih =>
    intro st hh
    unfold rangeBlocks at hh
    split at hh
    · rename_i hs; cases hh; exact rangeLoop_err _ _ hs
    · split at hh
      · cases hh; simp
      · exact ih _ hh

theorem noEndRest_err {E : Env F} {b : Nat} {nend : Int} {e : Nat} : ∀ (as : List Int) (st : DSt F),
    noEndRest E b nend as st = .error e → e ≠ 0 := by
  intro as
  induction as with
  | nil => intro st hh; cases hh
  | cons a rest ih =>
    intro st hh
    unfold noEndRest at hh
    split at hh
    · rename_i ho; cases hh; exact oneFile_err ho
    · exact ih _ hh
    · exact ih _ hh

theorem noEndBlock_err {E : Env F} {b : Nat} {nstart nend : Int} {st : DSt F} {e : Nat}
    (h : noEndBlock E b nstart nend st = .error e) : e ≠ 0 := by
  unfold noEndBlock at h
  split at h
  · rename_i ho; cases h; exact oneFile_err ho
  · cases hr : noEndRest E b nend (numbers (nstart + 1) nend) { st with f := 0 } with
    | error e' => rw [hr] at h; cases h; exact noEndRest_err _ _ hr
    | ok s => rw [hr] at h; cases h
  · rename_i s ho
    simp only at h
    generalize (if 0 < s.nfiles then nstart + s.nfiles else nend) = N at h
    cases hr : noEndRest E b N (numbers (nstart + 1) N) (noEndFlush E b nstart N s) with
    | error e' => rw [hr] at h; cases h; exact noEndRest_err _ _ hr
    | ok s => rw [hr] at h; cases h

theorem noEndBlocks_err {E : Env F} {nstart : Int} {e : Nat} :
    ∀ (bs : List Nat) (nend : Int) (st : DSt F),
    noEndBlocks E nstart bs nend st = .error e → e ≠ 0 := by
  intro bs
  induction bs with
  | nil => intro nend st hh; cases hh
  | cons b bs ih =>
    intro nend st hh
    unfold noEndBlocks at hh
    split at hh
    · rename_i hs; cases hh; exact noEndBlock_err hs
    · exact ih _ _ hh

theorem listLoop_err {E : Env F} {b : Nat} {e : Nat} : ∀ (xs : List F) (st : DSt F),
    listLoop E b xs st = .error e → e ≠ 0 := by
  intro xs
  induction xs with
  | nil => intro st hh; cases hh
  | cons a rest ih =>
    intro st hh
    unfold listLoop at hh
    split at hh
    · rename_i ho; cases hh; exact handleFile_err ho
    · split at hh <;> exact ih _ hh

theorem listBlocks_err {E : Env F} {files : List F} {e : Nat} : ∀ (bs : List Nat) (st : DSt F),
    listBlocks E files bs st = .error e → e ≠ 0 := by
  intro bs
  induction bs with
  | nil => intro st hh; cases hh
  | cons b bs ih =>
    intro st hh
    unfold listBlocks at hh
    split at hh
    · rename_i hs; cases hh; exact listLoop_err _ _ hs
    · exact ih _ hh

/-! ### Removal -/

theorem mem_removeNums {E : Env F} {w : Nat} : ∀ (as : List Int) (x : F),
    x ∈ removeNums E (some w) as ↔ ∃ a ∈ as, x = E.name w a ∧ E.onDisk x = true := by
  intro as
  induction as with
  | nil => intro x; simp [removeNums]
  | cons a rest ih =>
    intro x
    unfold removeNums
    simp only [findWidth]
    split
    · rename_i hd
      rw [List.mem_cons, ih]
      constructor
      · rintro (rfl | ⟨a', h, h'⟩)
        · exact ⟨a, by simp, rfl, hd⟩
        · exact ⟨a', by simp [h], h'⟩
      · rintro ⟨a', h, rfl, h'⟩
        rcases List.mem_cons.1 h with rfl | h
        · exact Or.inl rfl
        · exact Or.inr ⟨a', h, rfl, h'⟩
    · rename_i hd
      rw [ih]
      constructor
      · rintro ⟨a', h, h'⟩
        exact ⟨a', by simp [h], h'⟩
      · rintro ⟨a', h, rfl, h'⟩
        rcases List.mem_cons.1 h with rfl | h
        · exact absurd h' hd
        · exact ⟨a', h, rfl, h'⟩

theorem finish_ok {E : Env F} {rm : Bool} {st : DSt F} {xs : List F}
    (h : (finish E rm st xs).status = 0) :
    st.infileErr = false ∧ closeOut E st = 0 ∧ (finish E rm st xs).trace = st.trace ∧
      (finish E rm st xs).removed = if rm then xs else [] := by
  unfold finish at h ⊢
  split
  · rename_i hc
    exact ⟨hc.1, hc.2, rfl, rfl⟩
  · rename_i hc
    simp [hc] at h

theorem finish_trace (E : Env F) (rm : Bool) (st : DSt F) (xs : List F) :
    (finish E rm st xs).trace = st.trace := by
  unfold finish; split <;> rfl

end Verif.Driver
