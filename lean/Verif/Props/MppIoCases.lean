/-
Concrete cases for C115, C116 and C117, and the histories in which the layer does not do what is expected of it.
-/
import Verif.Props.MppIoDeflation
namespace Verif.MppIo
open Verif.Spec.MppIo

namespace Cases

/-- An input file with two compressed variables -/
def input : Nc := ⟨3, [⟨"a".toList, 6, ⟨1, some 2⟩⟩, ⟨"b".toList, 5, ⟨0, some 4⟩⟩]⟩

/-- The files on disk -/
def disk (f : Nc) : Name → Option Nc := fun p => if p = "in.nc".toList then some f else none

/-- A program that reads `in` and writes `out.nc` with the variables `b`, `x`, `a` -/
def calls : List Op := [.open "in".toList .read, .varid 0 "b".toList, .open "out.nc".toList .write, .defVar 1 "b".toList 5, .defVar 1 "x".toList 5,
  .defVar 1 "a".toList 6]

/-- What a history leaves: for each variable of a file the name and the compression -/
def vars (p : String) (r : Except Err State) : Option (List (Name × Comp)) :=
  match r with
  | .ok s => (s.disk p.toList).map (fun f => f.vars.map (fun v => (v.name, v.comp)))
  | .error _ => none

/-- Run a history, then `mpp_set_deflation` from file 0 to file 1 -/
def deflate (f : Nc) (ops : List Op) (ud us : Int) : Except Err State :=
  match run true (start (disk f)) ops with
  | .ok s => setDeflation true s 0 1 ud us
  | .error e => .error e

/-- How a run ended -/
def fate (r : Except Err State) : Option Err :=
  match r with
  | .ok _ => none
  | .error e => some e

/-- A handle after a history -/
def handle (r : Except Err State) (fid : Int) (name : String) : Option Int :=
  match r with
  | .ok s => match getVarid true s fid name.toList with
    | .ok (_, v) => some v
    | .error _ => none
  | .error _ => none

/-- The id and the type that the table holds for a handle -/
def slot (r : Except Err State) (fid v : Nat) : Option (Nat × Nat) :=
  match r with
  | .ok s => (s.files[fid]?).bind (fun e => (e.vars[v]?).map (fun x => (x.fldid, x.type)))
  | .error _ => none

/-- The handle of `a` in the input is 1 although its id is 0; that of `a` in the output is 2 -/
example : handle (run true (start (disk input)) calls) 0 "a" = some 1 ∧ handle (run true (start (disk input)) calls) 0 "b" = some 0 ∧
    handle (run true (start (disk input)) calls) 1 "a" = some 2 := by decide +kernel

/-- The settings of the input are used for `b` and `a`; `x` is not in the input -/
example : vars "out.nc" (deflate input calls (-1) (-1)) =
    some [("b".toList, ⟨0, some 4⟩), ("x".toList, ⟨0, none⟩), ("a".toList, ⟨1, some 2⟩)] := by decide +kernel

/-- The settings of the user are used for all variables -/
example : vars "out.nc" (deflate input calls 7 1) =
    some [("b".toList, ⟨1, some 7⟩), ("x".toList, ⟨1, some 7⟩), ("a".toList, ⟨1, some 7⟩)] := by decide +kernel

/-- An output that has the format of the option, and one that has that of the first input -/
example : (match fregridFiles true (start (fun p => if p = "u.nc".toList then some ⟨2, []⟩ else if p = "v.nc".toList then some ⟨3, []⟩ else none))
      none ["u".toList, "v".toList] [] [.open "out".toList .write] with
    | .ok s => formatAt s "out.nc".toList
    | .error _ => none) = some 2 ∧
    (match fregridFiles true (start (fun p => if p = "u.nc".toList then some ⟨2, []⟩ else if p = "v.nc".toList then some ⟨3, []⟩ else none))
      (some "netcdf4") ["u".toList, "v".toList] [] [.open "out".toList .write] with
    | .ok s => formatAt s "out.nc".toList
    | .error _ => none) = some 3 := by decide +kernel

/-- A second opening of an open file stops; after `mpp_close` it works -/
example : fate (run true (start (disk input)) [.open "in".toList .read, .open "in".toList .read]) = some .stop ∧
    fate (run true (start (disk input)) [.open "in".toList .read, .close 0, .open "in".toList .read]) = none := by decide +kernel

end Cases
open Cases

/-- The history of the example is quiet -/
theorem calls_quiet : Quiet true (start (disk input)) calls := by
  have st : ∀ (s : State) (o : Op) (ops : List Op), Fresh s o → (∀ s', step true s o = .ok s' → Quiet true s' ops) → Quiet true s (o :: ops) :=
    fun s o ops h1 h2 => ⟨h1, h2⟩
  refine st _ _ _ trivial fun s₁ h₁ => st _ _ _ trivial fun s₂ h₂ => st _ _ _ ?_ fun s₃ h₃ => st _ _ _ trivial fun s₄ h₄ => st _ _ _ trivial fun s₅ h₅ =>
    st _ _ _ trivial fun s₆ h₆ => trivial
  have key : ∃ t, run true (start (disk input)) [.open "in".toList .read, .varid 0 "b".toList] = .ok t ∧ t.files.map (fun e => path e.name) = ["in.nc".toList] := by
    refine ⟨_, rfl, ?_⟩
    decide +kernel
  obtain ⟨t, ht, hf⟩ := key
  have hs : s₂ = t := by
    rw [run, h₁] at ht
    simp only at ht
    rw [run, h₂] at ht
    simpa [run] using ht
  subst hs
  intro e he hp
  have : path e.name ∈ s₂.files.map (fun e => path e.name) := List.mem_map.2 ⟨e, he, rfl⟩
  rw [hf, hp] at this
  revert this
  decide +kernel

theorem input_names : Names (disk input) := by
  intro p f h
  unfold disk at h
  by_cases hp : p = "in.nc".toList
  · rw [if_pos hp] at h
    obtain rfl := Option.some.inj h
    decide +kernel
  · rw [if_neg hp] at h; simp at h

/-- C117 and C115 at work: the hypotheses of the theorems hold for this history -/
example : ∃ s s', run true (start (disk input)) calls = .ok s ∧ setDeflation true s 0 1 (-1) (-1) = .ok s' ∧
    ∃ g, s'.disk "out.nc".toList = some g ∧ g.vars.length = 3 := by
  have h : ∃ s, run true (start (disk input)) calls = .ok s := ⟨_, rfl⟩
  obtain ⟨s, hs⟩ := h
  have e : (∃ ein, s.files[0]? = some ein ∧ ein.action = .read ∧ path ein.name = "in.nc".toList) ∧
      (∃ eout, s.files[1]? = some eout ∧ eout.action = .write ∧ path eout.name = "out.nc".toList) ∧
      (∀ a ∈ s.files, a.action ≠ .append) ∧ s.disk "in.nc".toList = some input ∧
      (∃ fout, s.disk "out.nc".toList = some fout ∧ fout.vars.length = 3) ∧ ∃ s', setDeflation true s 0 1 (-1) (-1) = .ok s' := by
    have : run true (start (disk input)) calls = .ok s := hs
    obtain rfl := Except.ok.inj (Eq.symm this)
    refine ⟨⟨_, rfl, rfl, by decide +kernel⟩, ⟨_, rfl, rfl, by decide +kernel⟩, by decide +kernel, by decide +kernel, ⟨_, rfl, by decide +kernel⟩, ⟨_, rfl⟩⟩
  obtain ⟨⟨ein, h1, h2, h3⟩, ⟨eout, h4, h5, h6⟩, h7, h8, ⟨fout, h9, h10⟩, s', h11⟩ := e
  refine ⟨s, s', hs, h11, ?_⟩
  obtain ⟨_, g, hg, _, hl, _⟩ := C117_settings_partial input_names calls_quiet hs h1 h4 h2 h5 (fun a ha hh => absurd hh (h7 a ha))
    (h3.symm ▸ h8) (h6.symm ▸ h9) (by rw [h3, h6]; decide +kernel) (by decide +kernel) (by decide) (fun _ => by decide +kernel) (Or.inl Iff.rfl) h11
  rw [h6] at hg
  exact ⟨g, hg, by rw [hl, h10]⟩

/-- C115. A file that another program replaces while it is closed: the handle of `b` still has the id and the type of the old file, so the variable
`c` is read under the name `b`. -/
theorem C115_stale_wrong : ∃ (ops : List Op) (s : State) (v : Int), run true (start (disk input)) ops = .ok s ∧
    getVarid true s 0 "b".toList = .ok (s, v) ∧ ¬ Denotes s 0 v.toNat "b".toList := by
  refine ⟨[.open "in".toList .read, .varid 0 "b".toList, .close 0, .other "in.nc".toList ⟨3, [⟨"b".toList, 5, ⟨0, none⟩⟩, ⟨"c".toList, 6, ⟨0, none⟩⟩]⟩,
    .open "in".toList .read], _, 0, rfl, rfl, ?_⟩
  rintro ⟨e, sl, f, x, h1, h2, h3, h4, h5, h6⟩
  obtain rfl := Option.some.inj h1
  obtain rfl := Option.some.inj h2
  obtain rfl := Option.some.inj h3
  obtain rfl := Option.some.inj h4
  revert h5
  decide +kernel

/-- C115. `a` and `a.nc` are one file but two entries: creating the second empties the first without a message, and the handle of the first stands for
nothing. -/
theorem C115_alias_wrong : ∃ (s : State) (v : Int), run true (start (disk input)) [.open "a".toList .write, .defVar 0 "t".toList 5, .open "a.nc".toList .write] = .ok s ∧
    getVarid true s 0 "t".toList = .ok (s, v) ∧ ¬ Denotes s 0 v.toNat "t".toList := by
  refine ⟨_, 0, rfl, rfl, ?_⟩
  rintro ⟨e, sl, f, x, h1, h2, h3, h4, h5, h6⟩
  obtain rfl := Option.some.inj h1
  obtain rfl := Option.some.inj h2
  obtain rfl := Option.some.inj h3
  simp at h4

/-- C115. A name with `.nc` somewhere before its end is not given the suffix. -/
theorem C115_suffix_wrong : ∃ file : Name, ¬ ['.', 'n', 'c'] <:+ file ∧ path file = file :=
  ⟨"run.nc.d/y".toList, by decide +kernel, by decide +kernel⟩

/-- C115. On a processor that does not write, the handle of a created file is -1, and looking up a variable with it reads outside the table. -/
theorem C115_nonroot_wrong : ∃ (s : State), mppOpen false (start (disk input)) "out".toList .write = .ok (s, -1) ∧
    getVarid false s (-1) "a".toList = .error .ub :=
  ⟨_, rfl, rfl⟩

/-- C117. Without options a variable that is not compressed in the input is compressed with the level of the variable before it. -/
theorem C117_stale_wrong : vars "out.nc" (deflate ⟨3, [⟨"a".toList, 6, ⟨0, none⟩⟩, ⟨"b".toList, 5, ⟨0, some 4⟩⟩]⟩ calls (-1) (-1)) =
    some [("b".toList, ⟨0, some 4⟩), ("x".toList, ⟨0, none⟩), ("a".toList, ⟨0, some 4⟩)] := by decide +kernel

/-- C117. If the first one is not compressed, a level without a value is used. -/
theorem C117_uninitialised_wrong : fate (deflate ⟨3, [⟨"a".toList, 6, ⟨0, some 2⟩⟩, ⟨"b".toList, 5, ⟨0, none⟩⟩]⟩ calls (-1) (-1)) = some .ub := by
  decide +kernel

/-- C117. `--deflation 7` without `--shuffle` does not reach the variables that are not in the input. -/
theorem C117_skipped_wrong : vars "out.nc" (deflate input calls 7 (-1)) =
    some [("b".toList, ⟨0, some 7⟩), ("x".toList, ⟨0, none⟩), ("a".toList, ⟨1, some 7⟩)] := by decide +kernel

/-- Set the format as `--format` does before the output is created -/
def Cases.formatted (f : Nc) (format : String) (ud us : Int) : Except Err State :=
  match run true (start (disk f)) (calls.take 2) with
  | .error e => .error e
  | .ok s => match setInFormat s format with
    | .error e => .error e
    | .ok s₁ => match run true s₁ (calls.drop 2) with
      | .error e => .error e
      | .ok s₂ => setDeflation true s₂ 0 1 ud us

/-- C117. With a classic input the options have no effect, even if the output is netCDF-4. -/
theorem C117_classic_wrong : vars "out.nc" (formatted { input with format := 1 } "netcdf4" 7 1) =
    some [("b".toList, ⟨0, none⟩), ("x".toList, ⟨0, none⟩), ("a".toList, ⟨0, none⟩)] := by decide +kernel

/-- C117. With a netCDF-4 input and `--format classic` the run stops even if no compression was asked for. -/
theorem C117_format_wrong : fate (formatted input "classic" (-1) (-1)) = some .stop ∧ fate (formatted input "classic" 0 (-1)) = none := by decide +kernel

/-- C117. `--deflation 0 --shuffle 1`: the shuffle option is ignored. -/
theorem C117_shuffle_wrong : vars "out.nc" (deflate input calls 0 1) =
    some [("b".toList, ⟨0, none⟩), ("x".toList, ⟨0, none⟩), ("a".toList, ⟨0, none⟩)] := by decide +kernel

/-- C117. A name of 64 characters, which the table takes, overruns the buffer. -/
theorem C117_name_wrong : ∃ name : Name, name.length = 64 ∧
    fate (deflate input [.open "in".toList .read, .open "out.nc".toList .write, .defVar 1 name 5] (-1) (-1)) = some .ub ∧
    fate (deflate input [.open "in".toList .read, .open "out.nc".toList .write, .defVar 1 name 5] 3 1) = none :=
  ⟨List.replicate 64 'v', by decide +kernel, by decide +kernel, by decide +kernel⟩

end Verif.MppIo
