/-
C115: handles of files and variables in mpp_io.c. C116: the format of created files.
-/
import Verif.Lemmas.MppIoTable
namespace Verif.MppIo
open Verif.Spec.MppIo

/-- C115. A handle that `mpp_get_varid` gave for a name stands for the variable of that name, at once and after every further history, as long as no file
that the table knows is replaced: the id and the type in the table are those of that variable in the file. -/
theorem C115_handles_partial {root : Bool} {disk : Name → Option Nc} {before after : List Op} {s₁ s₂ s₃ : State} {fid v : Int} {name : Name}
    (names : Names disk) (q₁ : Quiet root (start disk) before) (h₁ : run root (start disk) before = .ok s₁)
    (h : getVarid root s₁ fid name = .ok (s₂, v)) (hv : 0 ≤ v)
    (q₂ : Quiet root s₂ after) (h₂ : run root s₂ after = .ok s₃) : Denotes s₃ fid.toNat v.toNat name := by
  have I₁ := (run_keep (inv_start names) q₁ h₁).1
  have m := getVarid_move h
  obtain ⟨I₃, keep⟩ := run_keep (m.inv I₁) q₂ h₂
  have key : ∃ e sl, s₂.files[fid.toNat]? = some e ∧ e.vars[v.toNat]? = some sl ∧ sl.name = name := by
    rcases getVarid_cases h with ⟨_, hr⟩ | ⟨e, he, h⟩
    · omega
    · rcases varidAt_cases h with ⟨n, rfl, rfl, sl, hsl, hn⟩ | ⟨f, k, x, _, _, _, _, rfl, rfl, _⟩
      · exact ⟨e, sl, he, by simpa using hsl, hn⟩
      · exact ⟨_, ⟨k, x.type, name⟩, getElem?_modify_self _ he, by simp, rfl⟩
  obtain ⟨e, sl, he, hsl, hn⟩ := key
  obtain ⟨e', he', _, _, hk⟩ := keep _ e he
  rw [← hn]
  exact I₃.denotes he' (hk _ sl hsl)

/-- C115. The same for the handle that `mpp_def_var` gives on the processor that writes. -/
theorem C115_defined_partial {disk : Name → Option Nc} {before after : List Op} {s₁ s₂ s₃ : State} {fid v : Int} {name : Name} {type : Nat}
    (names : Names disk) (q₁ : Quiet true (start disk) before) (h₁ : run true (start disk) before = .ok s₁)
    (h : defVar true s₁ fid name type = .ok (s₂, v))
    (q₂ : Quiet true s₂ after) (h₂ : run true s₂ after = .ok s₃) : 0 ≤ v ∧ Denotes s₃ fid.toNat v.toNat name := by
  have I₁ := (run_keep (inv_start names) q₁ h₁).1
  obtain ⟨I₃, keep⟩ := run_keep ((defVar_move h).inv I₁) q₂ h₂
  rcases defVar_cases h with ⟨hr, _⟩ | ⟨e, f, he, _, _, _, rfl, _, rfl⟩
  · simp at hr
  · refine ⟨by omega, ?_⟩
    obtain ⟨e', he', _, _, hk⟩ := keep fid.toNat _ (getElem?_modify_self _ he)
    exact I₃.denotes he' (hk _ ⟨f.vars.length, type, name⟩ (by simp))

/-- C115. Two handles of a file that stand for variables in the table are equal exactly if the names are equal. -/
theorem C115_same_partial {root : Bool} {disk : Name → Option Nc} {ops : List Op} {s : State} {fid v w : Nat} {a b : Name}
    (names : Names disk) (q : Quiet root (start disk) ops) (h : run root (start disk) ops = .ok s)
    (ha : Denotes s fid v a) (hb : Denotes s fid w b) : v = w ↔ a = b := by
  have I := (run_keep (inv_start names) q h).1
  obtain ⟨e, sl, f, x, he, hsl, hf, hx, rfl, ht⟩ := ha
  obtain ⟨e', sl', f', x', he', hsl', hf', hx', rfl, ht'⟩ := hb
  rw [he] at he'
  obtain rfl := Option.some.inj he'
  rw [hf] at hf'
  obtain rfl := Option.some.inj hf'
  have nm : ∀ (k : Nat) (sl : Slot) (x : Var), e.vars[k]? = some sl → f.vars[sl.fldid]? = some x → x.name = sl.name := by
    intro k sl x hk hx
    obtain ⟨g, y, hg, hy, h1, _⟩ := I.slots fid e he sl (mem_of_getElem? hk)
    rw [hf] at hg
    obtain rfl := Option.some.inj hg
    rw [hx] at hy
    obtain rfl := Option.some.inj hy
    exact h1
  constructor
  · rintro rfl
    rw [hsl] at hsl'
    obtain rfl := Option.some.inj hsl'
    rw [hx] at hx'
    rw [Option.some.inj hx']
  · intro hab
    rw [nm v sl x hsl hx, nm w sl' x' hsl' hx'] at hab
    obtain ⟨hv, hv'⟩ := List.getElem?_eq_some_iff.1 hsl
    obtain ⟨hw, hw'⟩ := List.getElem?_eq_some_iff.1 hsl'
    refine (I.nodup fid e he).getElem_inj_iff.1 (?_ : (e.vars.map (·.name))[v]'(by simpa using hv) = (e.vars.map (·.name))[w]'(by simpa using hw))
    simp only [List.getElem_map]
    rw [hv', hw', hab]

/-- C115. In every history the table stays within its bounds: at most 200 files, at most 1024 variables each. -/
theorem C115_limits {root : Bool} {disk : Name → Option Nc} {ops : List Op} {s : State} (h : run root (start disk) ops = .ok s) :
    s.files.length ≤ 200 ∧ ∀ e ∈ s.files, e.vars.length ≤ 1024 := by
  have B := run_bounds (bounds_start disk) h
  refine ⟨B.len, ?_⟩
  intro e he
  obtain ⟨i, hi⟩ := List.mem_iff_getElem?.1 he
  exact B.vars i e hi

/-- C115. A file that is open cannot be opened again for the same purpose under the same name, whatever happened in between; one that was created
cannot be created again even if it was closed. -/
theorem C115_once {root : Bool} {disk : Name → Option Nc} {before between : List Op} {s₁ s₂ s₃ : State} {file : Name} {a : Action} {fid : Int}
    (h₁ : run root (start disk) before = .ok s₁) (h : mppOpen root s₁ file a = .ok (s₂, fid)) (h0 : 0 ≤ fid)
    (h₂ : run root s₂ between = .ok s₃) (hc : a = .write ∨ Op.close fid ∉ between) (len : (path file).length < 255) :
    mppOpen root s₃ file a = .error .stop := by
  obtain ⟨e, he, hn, ha, hs⟩ := mppOpen_entry h h0
  obtain ⟨e', he', hn', ha', hs'⟩ := run_stay h₂ he
  have B₁ := run_bounds (bounds_start disk) h₁
  have B₂ : Bounds s₂.files := (step_table (root := root) (o := .open file a) (by simp [step, h, Except.map])).bounds B₁
  have B₃ := run_bounds B₂ h₂
  have hroot : ¬ (a ≠ .read ∧ root = false) := by
    intro hh
    unfold mppOpen at h
    rw [if_pos hh] at h
    simp only [Except.ok.injEq, Prod.mk.injEq] at h
    omega
  unfold mppOpen
  rw [if_neg hroot, if_neg (by omega)]
  cases hi : s₃.files.findIdx? (fun e => e.name == file && e.action == a) with
  | none =>
    rw [List.findIdx?_eq_none_iff] at hi
    have := hi e' (mem_of_getElem? he')
    simp [hn', hn, ha', ha] at this
  | some n =>
    simp only
    by_cases hw : a = .write
    · rw [if_pos hw]
    · rw [if_neg hw]
      obtain ⟨x, hx, hp⟩ := findIdx?_some' hi
      simp only [Bool.and_eq_true, beq_iff_eq] at hp
      have : n = fid.toNat := B₃.uniq n fid.toNat x e' hx he' (by rw [hp.1, hn', hn]) (by rw [hp.2, ha', ha])
      subst this
      rw [he', Option.map_some, hs' hs (by rw [Int.toNat_of_nonneg h0]; exact hc.resolve_left hw), if_pos rfl]

/-- C115. The path that is opened: the name itself if it ends in `.nc`, the name with `.nc` added if `.nc` does not occur in it. -/
theorem C115_path (file : Name) :
    (['.', 'n', 'c'] <:+ file → path file = file) ∧ (¬ ['.', 'n', 'c'] <:+: file → path file = file ++ ['.', 'n', 'c']) := by
  constructor
  · intro h
    unfold path
    rw [if_pos ((hasNc_iff file).2 h.isInfix)]
  · intro h
    unfold path
    rw [if_neg (fun hh => h ((hasNc_iff file).1 hh))]

/-- The opening of the inputs of fregrid keeps the format of the first -/
theorem openInputs_format {root : Bool} {f : Name} {fs : List Name} {s s' : State} {k : Option Nat} (h : openInputs root s (f :: fs) none = .ok (s', k)) :
    k = formatAt s (path f) ∧ k.isSome := by
  unfold openInputs at h
  cases ho : mppOpen root s f .read with
  | error e => rw [ho] at h; simp at h
  | ok p =>
    rw [ho] at h
    have := openInputs_first h
    obtain ⟨_, hf⟩ := open_read (r := p.2) ho
    rw [this, hf]
    exact ⟨rfl, rfl⟩

theorem setInFormat_eq {s s' : State} {f : String} (h : setInFormat s f = .ok s') : formatOf f = some s'.inFormat := by
  unfold setInFormat at h
  unfold formatOf
  by_cases h1 : f = "netcdf4"
  · rw [if_pos h1] at h; rw [← Except.ok.inj h, h1]; rfl
  rw [if_neg h1] at h
  by_cases h2 : f = "netcdf4_classic"
  · rw [if_pos h2] at h; rw [← Except.ok.inj h, h2]; rfl
  rw [if_neg h2] at h
  by_cases h3 : f = "64bit_offset"
  · rw [if_pos h3] at h; rw [← Except.ok.inj h, h3]; rfl
  rw [if_neg h3] at h
  by_cases h4 : f = "classic"
  · rw [if_pos h4] at h; rw [← Except.ok.inj h, h4]; rfl
  rw [if_neg h4] at h
  simp at h

/-- C116. Every output file of fregrid has the format of the option `--format`, or without this option the format of the first input file, no matter what
is opened and read between. -/
theorem C116_fregrid {s s' : State} {option : Option String} {f : Name} {fs : List Name} {between after : List Op}
    (h : fregridFiles true s option (f :: fs) between after = .ok s') (hr : ∀ o ∈ after, NoRead o) {out : Name} (ho : Op.open out .write ∈ after) :
    formatAt s' (path out) = match option with
      | some o => formatOf o
      | none => formatAt s (path f) := by
  unfold fregridFiles at h
  cases h1 : openInputs true s (f :: fs) none with
  | error e => rw [h1] at h; simp at h
  | ok p =>
    obtain ⟨s₁, k⟩ := p
    rw [h1] at h
    simp only at h
    cases h2 : run true s₁ between with
    | error e => rw [h2] at h; simp at h
    | ok s₂ =>
      rw [h2] at h
      simp only at h
      cases h3 : chooseFormat s₂ option k with
      | error e => rw [h3] at h; simp at h
      | ok s₃ =>
        rw [h3] at h
        simp only at h
        rw [(noRead_run hr h).2 rfl out ho]
        obtain ⟨hk, hs⟩ := openInputs_format h1
        cases option with
        | some o => exact (setInFormat_eq h3).symm
        | none =>
          simp only [chooseFormat] at h3
          cases k with
          | none => simp at hs
          | some k =>
            simp only at h3
            unfold resetInFormat at h3
            by_cases hc : creatable k = true
            · rw [if_pos hc] at h3
              rw [← Except.ok.inj h3, ← hk]
            · rw [if_neg hc] at h3; simp at h3

/-- C116. fregrid stops before it writes anything if the option is not one of the four names, or if it is left out and the format of the first input
file is not one of the four formats (such as 64 bit data). -/
theorem C116_stops {s s' : State} {option : Option String} {f : Name} {fs : List Name} {between after : List Op}
    (h : fregridFiles true s option (f :: fs) between after = .ok s') :
    match option with
      | some o => (formatOf o).isSome
      | none => ∃ k, formatAt s (path f) = some k ∧ 1 ≤ k ∧ k ≤ 4 := by
  unfold fregridFiles at h
  cases h1 : openInputs true s (f :: fs) none with
  | error e => rw [h1] at h; simp at h
  | ok p =>
    obtain ⟨s₁, k⟩ := p
    rw [h1] at h
    simp only at h
    cases h2 : run true s₁ between with
    | error e => rw [h2] at h; simp at h
    | ok s₂ =>
      rw [h2] at h
      simp only at h
      cases h3 : chooseFormat s₂ option k with
      | error e => rw [h3] at h; simp at h
      | ok s₃ =>
        obtain ⟨hk, hs⟩ := openInputs_format h1
        cases option with
        | some o => simp only; rw [setInFormat_eq h3]; rfl
        | none =>
          simp only [chooseFormat] at h3
          cases k with
          | none => simp at hs
          | some k =>
            simp only at h3
            unfold resetInFormat at h3
            by_cases hc : creatable k = true
            · refine ⟨k, hk.symm, ?_⟩
              simp only [creatable, Bool.or_eq_true, beq_iff_eq] at hc
              omega
            · rw [if_neg hc] at h3; simp at h3

/-- C116. In the other tools, which set no format, a file that is created has the format of the file that was opened last for reading. -/
theorem C116_last {s s' : State} {before after : List Op} {f out : Name} (h : run true s (before ++ .open f .read :: after) = .ok s')
    (hr : ∀ o ∈ after, NoRead o) (ho : Op.open out .write ∈ after) :
    ∃ s₁, run true s before = .ok s₁ ∧ formatAt s' (path out) = formatAt s₁ (path f) := by
  obtain ⟨s₁, h1, h2⟩ := run_append h
  refine ⟨s₁, h1, ?_⟩
  unfold run at h2
  cases hs : step true s₁ (.open f .read) with
  | error x => rw [hs] at h2; simp at h2
  | ok s₂ =>
    rw [hs] at h2
    obtain ⟨r, hx⟩ := map_ok hs
    rw [(noRead_run hr h2).2 rfl out ho, (open_read hx).2]

/-- C116. If no file was read before, it is netCDF-4 classic. -/
theorem C116_default {disk : Name → Option Nc} {s' : State} {ops : List Op} {out : Name} (h : run true (start disk) ops = .ok s')
    (hr : ∀ o ∈ ops, NoRead o) (ho : Op.open out .write ∈ ops) : formatAt s' (path out) = some 4 :=
  (noRead_run hr h).2 rfl out ho

end Verif.MppIo
