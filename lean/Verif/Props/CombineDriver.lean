import Verif.Lemmas.CombineDriver
/-
C13 and C14: what removing the inputs and exit status 0 of mppnccombine mean.
-/
namespace Verif
open Driver Spec

variable {F : Type}

/-! ## C13: removing inputs after combining never deletes a file that was not combined

Full statement: for every way of giving the input files, if the run ends with status 0 then every file
in `removed` was combined in every block. It holds for an explicit list of files. It fails for
numbered files: `C13_range_deletes_uncombined` and `C13_no_end_deletes_uncombined` are runs that
delete a file they never opened. The two `_partial` theorems give conditions under which it holds. -/

/-- Input files named on the command line: whatever is removed was combined in every block. -/
theorem C13_list (E : Env F) (nb : Nat) (files : List F) (rm : Bool)
    (h : (run E rm nb (.list files)).status = 0) :
    ∀ x ∈ (run E rm nb (.list files)).removed, x ∈ files ∧
      ∀ b < nb, Combined (run E rm nb (.list files)) b x := by
  unfold run at h ⊢
  cases hb : listBlocks E files (List.range nb) DSt.init with
  | error e => simp [hb]
  | ok st =>
    simp only [hb] at h ⊢
    obtain ⟨he, _, htr, hrm⟩ := finish_ok h
    intro x hx
    rw [hrm] at hx
    have hxf : x ∈ files := by
      cases rm
      · simp at hx
      · simp only [if_true, List.mem_filter] at hx; exact hx.1
    refine ⟨hxf, fun b hb' => ?_⟩
    obtain ⟨_, hc⟩ := listBlocks_spec _ _ _ hb
    rcases hc b (List.mem_range.2 hb') x hxf with h' | ⟨fl, h'⟩
    · rw [he] at h'; cases h'
    · exact ⟨fl, by rw [finish_trace]; exact h'⟩

/-- Numbered files with `-n` and `-e`. Missing from the full statement: it is assumed that no file
states (in NumFilesInSet) a number of files that is positive and smaller than the length of the range;
`C13_range_deletes_uncombined` shows that this is needed. -/
theorem C13_range_partial (E : Env F) (nb : Nat) (hnb : 0 < nb) (nstart nend : Int) (rm : Bool)
    (hset : ∀ b x f n, (E.proc b x f n).nfiles ≤ 0 ∨ nend + 1 - nstart ≤ (E.proc b x f n).nfiles)
    (h : (run E rm nb (.range nstart nend)).status = 0) :
    ∀ x ∈ (run E rm nb (.range nstart nend)).removed,
      ∀ b < nb, Combined (run E rm nb (.range nstart nend)) b x := by
  unfold run at h ⊢
  cases hb : rangeBlocks E nstart nend (List.range nb) DSt.init with
  | error e => simp [hb]
  | ok st =>
    simp only [hb] at h ⊢
    obtain ⟨he, _, htr, hrm⟩ := finish_ok h
    intro x hx b hb'
    rw [hrm] at hx
    obtain ⟨_, hc, hw⟩ := rangeBlocks_spec hset _ DSt.init _ (Or.inl (by simp [DSt.init]))
      (fun _ => rfl) hb
    have hw := hw (by intro h0; simp at h0; omega)
    cases hwd : st.width with
    | none => exact absurd hwd hw
    | some w =>
      cases rm
      · simp at hx
      · simp only [if_true, hwd] at hx
        obtain ⟨a, ha, rfl, hd⟩ := (mem_removeNums _ _).1 hx
        have ha := mem_numbers.1 ha
        rcases hc b (List.mem_range.2 hb') a ha.1 (by omega) with ⟨hn, _⟩ | ⟨v, hv, h'⟩
        · exact absurd hn hw
        · rw [hwd] at hv
          cases hv
          rcases h' with h' | h' | ⟨fl, h'⟩
          · rw [he] at h'; cases h'
          · rw [hd] at h'; cases h'
          · exact ⟨fl, by rw [finish_trace]; exact h'⟩

/-- Numbered files without `-e`, where every file states `n` files. Missing from the full statement: it
is assumed that the first file exists and that no file with the number one past the set exists;
`C13_no_end_deletes_uncombined` and `C13_no_first_file` show that both are needed. -/
theorem C13_no_end_partial (E : Env F) (nb : Nat) (hnb : 0 < nb) (nstart n : Int) (rm : Bool)
    (hset : ∀ b x f k, (E.proc b x f k).nfiles = n)
    (hfirst : E.onDisk (E.name 4 nstart) = true ∨ E.onDisk (E.name 6 nstart) = true)
    (hnext : ∀ w, E.onDisk (E.name w (nstart + if 0 < n then n else 1)) = false)
    (h : (run E rm nb (.noEnd nstart)).status = 0) :
    ∀ x ∈ (run E rm nb (.noEnd nstart)).removed,
      ∀ b < nb, Combined (run E rm nb (.noEnd nstart)) b x := by
  unfold run at h ⊢
  cases hb : noEndBlocks E nstart (List.range nb) (nstart + 1) DSt.init with
  | error e => simp [hb]
  | ok r =>
    obtain ⟨st, nend⟩ := r
    simp only [hb] at h ⊢
    obtain ⟨he, _, htr, hrm⟩ := finish_ok h
    intro x hx b hb'
    rw [hrm] at hx
    obtain ⟨_, hc, hw⟩ := noEndBlocks_spec hset hfirst _ _ DSt.init _ (by simp [DSt.init])
      (fun _ => rfl) hb
    obtain ⟨hend, hw⟩ := hw (by intro h0; simp at h0; omega)
    simp only at hend hw hc
    cases hwd : st.width with
    | none => exact absurd hwd hw
    | some w =>
      cases rm
      · simp at hx
      · simp only [if_true, hwd] at hx
        obtain ⟨a, ha, rfl, hd⟩ := (mem_removeNums _ _).1 hx
        have ha := mem_numbers.1 ha
        have hlt : a < nstart + (if 0 < n then n else 1) := by
          rcases Int.lt_or_eq_of_le (Int.lt_add_one_iff.1 (hend ▸ ha.2)) with h' | h'
          · exact h'
          · rw [h', hnext] at hd; cases hd
        rcases hc b (List.mem_range.2 hb') a ha.1 hlt with ⟨hn, _⟩ | ⟨v, hv, h'⟩
        · exact absurd hn hw
        · rw [hwd] at hv
          cases hv
          rcases h' with h' | h' | ⟨fl, h'⟩
          · rw [he] at h'; cases h'
          · rw [hd] at h'; cases h'
          · exact ⟨fl, by rw [finish_trace]; exact h'⟩

/-! ### Concrete surroundings: files `out.0000` to `out.<k-1>` exist, the set has `n` files -/

/-- Names are pairs (width, number); numbers `lo ≤ a < hi` exist with width 4. -/
def exEnv (lo hi n : Int) : Env (Nat × Int) where
  onDisk x := x.1 == 4 && decide (lo ≤ x.2) && decide (x.2 < hi)
  name w a := (w, a)
  force := false
  proc _ _ _ _ := { early := false, recErrs := [false, false], nfiles := n }
  flush _ := [false, false]
  syncErr := false
  closeErr := false

/-- The cases covered by the partial theorems do occur, with files removed: -/
example : (run (exEnv 0 3 3) true 2 (.range 0 2)).status = 0 ∧
    (run (exEnv 0 3 3) true 2 (.range 0 2)).removed = [(4, 0), (4, 1), (4, 2)] := by decide
example : (run (exEnv 0 3 3) true 2 (.noEnd 0)).status = 0 ∧
    (run (exEnv 0 3 3) true 2 (.noEnd 0)).removed = [(4, 0), (4, 1), (4, 2)] := by decide
example : (run (exEnv 0 3 3) true 2 (.list [(4, 2), (4, 0)])).status = 0 ∧
    (run (exEnv 0 3 3) true 2 (.list [(4, 2), (4, 0)])).removed = [(4, 2), (4, 0)] := by decide
example : ∀ w, (exEnv 0 3 3).onDisk ((exEnv 0 3 3).name w (0 + if (0 : Int) < 3 then 3 else 1)) = false := by
  intro w; simp [exEnv]

/-- With `-e` past the end of the set: the set has 2 files, the range given has 3, the third file
exists. The run ends with status 0 and removes the third file, which it never opened. -/
theorem C13_range_deletes_uncombined :
    (run (exEnv 0 3 2) true 1 (.range 0 2)).status = 0 ∧
    (4, 2) ∈ (run (exEnv 0 3 2) true 1 (.range 0 2)).removed ∧
    ∀ b rc fl, Event.proc b (4, 2) rc fl ∉ (run (exEnv 0 3 2) true 1 (.range 0 2)).trace := by
  refine ⟨by decide, by decide, ?_⟩
  have : (run (exEnv 0 3 2) true 1 (.range 0 2)).trace =
    [.flush false, .flush false, .proc 0 (4, 1) 0 false, .proc 0 (4, 0) 0 false] := by decide
  rw [this]
  simp

/-- Without `-e`: the set has 2 files, a file with the next number exists. The run ends with status 0
and removes that file, which it never opened. -/
theorem C13_no_end_deletes_uncombined :
    (run (exEnv 0 3 2) true 1 (.noEnd 0)).status = 0 ∧
    (4, 2) ∈ (run (exEnv 0 3 2) true 1 (.noEnd 0)).removed ∧
    ∀ b rc fl, Event.proc b (4, 2) rc fl ∉ (run (exEnv 0 3 2) true 1 (.noEnd 0)).trace := by
  refine ⟨by decide, by decide, ?_⟩
  have : (run (exEnv 0 3 2) true 1 (.noEnd 0)).trace =
    [.flush false, .flush false, .proc 0 (4, 1) 0 false, .proc 0 (4, 0) 0 false] := by decide
  rw [this]
  simp

/-- Without `-e`, first file missing, second present: nothing is combined, the status is 0 and the
second file is removed. -/
theorem C13_no_first_file :
    (run (exEnv 1 2 2) true 1 (.noEnd 0)).status = 0 ∧
    (run (exEnv 1 2 2) true 1 (.noEnd 0)).removed = [(4, 1)] ∧
    (run (exEnv 1 2 2) true 1 (.noEnd 0)).trace = [] := by decide

/-! ## C14: exit status 0 means that no input failed

Full statement: status 0 implies `NoErrors`. It fails because errors are summed in 8-bit variables
(`C14_input_errors_wrap`, `C14_output_errors_wrap`). -/

/-- Exactly what status 0 guarantees: every call of `process_file` returned code 0, and the number of
failed output operations is a multiple of 256. -/
theorem C14_status_zero (E : Env F) (nb : Nat) (inp : Input F) (rm : Bool)
    (h : (run E rm nb inp).status = 0) :
    (∀ b x rc fl, Event.proc b x rc fl ∈ (run E rm nb inp).trace →
      rc = 0 ∧ ∃ f n, rc = (E.proc b x f n).rc ∧ fl = (E.proc b x f n).failed) ∧
    outFailures E (run E rm nb inp) % 256 = 0 := by
  have key : ∀ (st : DSt F) (xs : List F), Hist E st → (finish E rm st xs).status = 0 →
      (∀ b x rc fl, Event.proc b x rc fl ∈ (finish E rm st xs).trace →
        rc = 0 ∧ ∃ f n, rc = (E.proc b x f n).rc ∧ fl = (E.proc b x f n).failed) ∧
      outFailures E (finish E rm st xs) % 256 = 0 := by
    intro st xs hh hs
    obtain ⟨he, hc, htr, _⟩ := finish_ok hs
    refine ⟨fun b x rc fl hm => hh.procs he b x rc fl (by rw [← htr]; exact hm), ?_⟩
    unfold closeOut at hc
    rw [addErrs_eq, hh.flushes, ← UInt8.ofNat_add] at hc
    have hof : outFailures E (finish E rm st xs) =
        flushFails st.trace + ([E.syncErr, E.closeErr].filter id).length := by
      unfold outFailures
      rw [htr]
      unfold flushFails
      cases E.syncErr <;> cases E.closeErr <;> rfl
    rw [hof]
    have := congrArg UInt8.toNat hc
    simpa using this
  cases inp with
  | range nstart nend =>
    unfold run at h ⊢
    cases hb : rangeBlocks E nstart nend (List.range nb) DSt.init with
    | error e =>
      simp only [hb] at h
      exact absurd h (rangeBlocks_err _ _ hb)
    | ok st =>
      simp only [hb] at h ⊢
      exact key _ _ (rangeBlocks_hist _ _ _ (Hist.init E) hb) h
  | noEnd nstart =>
    unfold run at h ⊢
    cases hb : noEndBlocks E nstart (List.range nb) (nstart + 1) DSt.init with
    | error e =>
      simp only [hb] at h
      exact absurd h (noEndBlocks_err _ _ _ hb)
    | ok r =>
      simp only [hb] at h ⊢
      exact key _ _ (noEndBlocks_hist _ _ _ _ (Hist.init E) hb) h
  | list files =>
    unfold run at h ⊢
    cases hb : listBlocks E files (List.range nb) DSt.init with
    | error e =>
      simp only [hb] at h
      exact absurd h (listBlocks_err _ _ hb)
    | ok st =>
      simp only [hb] at h ⊢
      exact key _ _ (listBlocks_hist _ _ _ (Hist.init E) hb) h

/-- Status 0 means that no error occurred. Missing from the full statement: it is assumed that no call
of `process_file` meets 256 or more errors, and that fewer than 256 output operations fail. -/
theorem C14_no_errors_partial (E : Env F) (nb : Nat) (inp : Input F) (rm : Bool)
    (hin : ∀ b x f n, ((E.proc b x f n).recErrs.filter id).length < 256)
    (hout : outFailures E (run E rm nb inp) < 256)
    (h : (run E rm nb inp).status = 0) : NoErrors E (run E rm nb inp) := by
  obtain ⟨hp, ho⟩ := C14_status_zero E nb inp rm h
  refine ⟨?_, by omega⟩
  intro b x rc fl hm
  obtain ⟨rfl, f, n, hrc, rfl⟩ := hp b x rc fl hm
  have hlt := hin b x f n
  generalize E.proc b x f n = r at hrc hlt
  unfold ProcRes.rc at hrc
  unfold ProcRes.failed
  cases he : r.early
  · simp only [he, Bool.false_eq_true, if_false, addErrs_eq] at hrc
    have h0 : (r.recErrs.filter id).length = 0 := by
      have := congrArg UInt8.toNat hrc
      simp at this
      omega
    simp only [Bool.false_or, List.any_eq_false]
    intro c hc hct
    have : c ∈ r.recErrs.filter id := List.mem_filter.2 ⟨hc, hct⟩
    rw [List.eq_nil_of_length_eq_zero h0] at this
    cases this
  · simp [he] at hrc

/-- Conversely a run that reaches its end without errors has status 0. -/
theorem C14_list_converse (E : Env F) (nb : Nat) (files : List F) (rm : Bool)
    (hdisk : ∀ x ∈ files, E.onDisk x = true)
    (hin : ∀ b x f n, (E.proc b x f n).failed = false)
    (hfl : ∀ b, ∀ c ∈ E.flush b, c = false)
    (hc : E.syncErr = false ∧ E.closeErr = false) :
    (run E rm nb (.list files)).status = 0 := by
  have hrc : ∀ b x f n, (E.proc b x f n).rc = 0 := by
    intro b x f n
    have h := hin b x f n
    unfold ProcRes.failed at h
    unfold ProcRes.rc
    simp only [Bool.or_eq_false_iff, List.any_eq_false] at h
    rw [h.1, if_neg (by simp), addErrs_eq]
    have : (E.proc b x f n).recErrs.filter id = [] := List.filter_eq_nil_iff.2 h.2
    rw [this]; rfl
  have hfl0 : ∀ b e, addErrs e (E.flush b) = e := by
    intro b e
    have : (E.flush b).filter id = [] := List.filter_eq_nil_iff.2 (fun c hc => by simp [hfl b c hc])
    rw [addErrs_eq, this]; simp
  have loop : ∀ b (xs : List F) (st : DSt F), (∀ x ∈ xs, E.onDisk x = true) →
      st.infileErr = false → st.outErrs = 0 →
      ∃ st', listLoop E b xs st = .ok st' ∧ st'.infileErr = false ∧ st'.outErrs = 0 := by
    intro b xs
    induction xs with
    | nil => intro st _ h1 h2; exact ⟨st, rfl, h1, h2⟩
    | cons x rest ih =>
      intro st hd h1 h2
      have hx := hd x (by simp)
      have hh : handleFile E b x st = .ok (callProc E b x st) := by simp [handleFile, hx]
      have g1 : (callProc E b x st).infileErr = false := by simp [callProc, hx, h1, hrc]
      have g2 : (callProc E b x st).outErrs = 0 := h2
      unfold listLoop
      rw [hh]
      simp only
      split
      · exact ih { doFlush E b (callProc E b x st) with f := 0 } (fun y hy => hd y (by simp [hy])) g1
          (by simp only [doFlush]; rw [hfl0]; exact g2)
      · exact ih _ (fun y hy => hd y (by simp [hy])) g1 g2
  have blocks : ∀ (bs : List Nat) (st : DSt F), st.infileErr = false → st.outErrs = 0 →
      ∃ st', listBlocks E files bs st = .ok st' ∧ st'.infileErr = false ∧ st'.outErrs = 0 := by
    intro bs
    induction bs with
    | nil => intro st h1 h2; exact ⟨st, rfl, h1, h2⟩
    | cons b bs ih =>
      intro st h1 h2
      obtain ⟨s, hs, k1, k2⟩ := loop b files { st with f := 0 } hdisk h1 h2
      unfold listBlocks
      rw [hs]
      exact ih s k1 k2
  obtain ⟨st, hst, h1, h2⟩ := blocks (List.range nb) DSt.init rfl rfl
  unfold run
  simp only [hst]
  unfold finish
  rw [if_pos ⟨h1, by simp [closeOut, h2, hc.1, hc.2, addErrs]⟩]

/-- The hypotheses of both theorems hold in an ordinary run. -/
example : (run (exEnv 0 3 3) true 2 (.range 0 2)).status = 0 ∧
    outFailures (exEnv 0 3 3) (run (exEnv 0 3 3) true 2 (.range 0 2)) < 256 := by decide

/-- Surroundings in which reading fails for each of 256 records of every file. -/
def exInErr : Env (Nat × Int) :=
  { exEnv 0 3 3 with
    proc := fun _ _ _ _ => { early := false, recErrs := List.replicate 256 true, nfiles := 3 } }

/-- Surroundings in which writing fails for each of 256 records. -/
def exOutErr : Env (Nat × Int) := { exEnv 0 3 3 with flush := fun _ => List.replicate 256 true }

/-- 256 failed records of every input file: status 0, and all inputs are removed. -/
theorem C14_input_errors_wrap :
    (run exInErr true 1 (.list [(4, 0), (4, 1)])).status = 0 ∧
    (run exInErr true 1 (.list [(4, 0), (4, 1)])).removed = [(4, 0), (4, 1)] ∧
    Event.proc 0 (4, 0) 0 true ∈ (run exInErr true 1 (.list [(4, 0), (4, 1)])).trace := by
  decide +kernel

/-- 256 failed writes of the output: status 0, and all inputs are removed. -/
theorem C14_output_errors_wrap :
    (run exOutErr true 1 (.list [(4, 0), (4, 1)])).status = 0 ∧
    (run exOutErr true 1 (.list [(4, 0), (4, 1)])).removed = [(4, 0), (4, 1)] ∧
    outFailures exOutErr (run exOutErr true 1 (.list [(4, 0), (4, 1)])) = 256 := by
  decide +kernel

end Verif
