/-
C117: the compression of the output (mpp_io.c `mpp_set_deflation`), and concrete cases for C115 and C116.
-/
import Verif.Lemmas.MppIoDefl
import Verif.Props.MppIo
namespace Verif.MppIo
open Verif.Spec.MppIo

/-- C117. After a quiet history, `mpp_set_deflation` leaves every variable of the output file with the settings of the user, or where the user gave none
with those of the variable of the same name in the input file, and changes nothing else.
Missing: without a level from the user every variable of the input file has to be compressed; if only one of the two options is given, every variable
of the output has to be in the input file; the input has to be netCDF-4 and the level not 0. The theorems `C117_…_wrong` show what happens else. -/
theorem C117_settings_partial {root : Bool} {disk : Name → Option Nc} {ops : List Op} {s s' : State} {fidIn fidOut : Nat} {ein eout : Ent} {fin fout : Nc}
    {ud us : Int} (names : Names disk) (q : Quiet root (start disk) ops) (h : run root (start disk) ops = .ok s)
    (hi : s.files[fidIn]? = some ein) (ho : s.files[fidOut]? = some eout) (hr : ein.action = .read) (hw : eout.action = .write)
    (noappend : ∀ a ∈ s.files, a.action = .append → path a.name ≠ path eout.name)
    (di : s.disk (path ein.name) = some fin) (dout : s.disk (path eout.name) = some fout) (hne : path ein.name ≠ path eout.name)
    (fmt : fin.format ≠ 1 ∧ fin.format ≠ 2) (h0 : ud ≠ 0)
    (H1 : ud = -1 → ∀ v ∈ fin.vars, v.comp.level.isSome)
    (H2 : (ud = -1 ↔ us = -1) ∨ ∀ v ∈ fout.vars, (lookupVar fin v.name).isSome)
    (hd : setDeflation root s fidIn fidOut ud us = .ok s') :
    (∀ p, p ≠ path eout.name → s'.disk p = s.disk p) ∧
    ∃ g, s'.disk (path eout.name) = some g ∧ g.format = fout.format ∧ g.vars.length = fout.vars.length ∧
      ∀ (i : Nat) (v : Var), fout.vars[i]? = some v → ∃ v', g.vars[i]? = some v' ∧ v'.name = v.name ∧ v'.type = v.type ∧
        Wanted ud us (lookupVar fin v.name) v.comp v'.comp := by
  have I := (run_keep (inv_start names) q h).1
  obtain ⟨f, hf, hnm, al⟩ := I.aligned fidOut eout ho hw (fun j a ha haa => noappend a (mem_of_getElem? ha) haa)
  rw [dout] at hf
  obtain rfl := Option.some.inj hf
  have hlen : fout.vars.length = eout.vars.length := by
    have := congrArg List.length hnm
    simpa using this
  have hio : fidIn ≠ fidOut := by
    rintro rfl
    rw [hi] at ho
    obtain rfl := Option.some.inj ho
    rw [hr] at hw
    simp at hw
  have L : LoopInv s s fidIn fidOut (path ein.name) (path eout.name) eout.vars fin fout ud us 0 := by
    refine ⟨⟨ein, hi, rfl, hr, ?_⟩, ⟨eout, ho, rfl⟩, di, fun _ _ => rfl, ⟨fout, dout, rfl, fun i => ⟨fun _ => rfl, fun hi => absurd hi (by omega)⟩⟩⟩
    intro j sl hj
    obtain ⟨g, x, hg, hx, hn, _⟩ := I.slots fidIn ein hi sl (mem_of_getElem? hj)
    rw [di] at hg
    obtain rfl := Option.some.inj hg
    exact ⟨x, hx, hn⟩
  unfold setDeflation at hd
  rw [if_neg h0, hi, ho] at hd
  simp only at hd
  rw [di] at hd
  simp only at hd
  rw [if_neg (by omega), List.range_eq_range'] at hd
  have E := deflLoop_inv hne hio al (I.names _ _ di) H1 H2 _ 0 s none L hd
  obtain ⟨g, hg, hgf, hg'⟩ := E.dout
  refine ⟨E.oth, g, hg, hgf, ?_, ?_⟩
  · have hup : g.vars[fout.vars.length]? = none := by
      rw [(hg' fout.vars.length).1 (by omega)]; simp
    rw [List.getElem?_eq_none_iff] at hup
    by_contra hc
    have hlt : g.vars.length < fout.vars.length := by omega
    obtain ⟨v', hv', _⟩ := (hg' g.vars.length).2 (by omega) fout.vars[g.vars.length] (by simp [hlt])
    simp at hv'
  · intro i v hv
    obtain ⟨hlt, _⟩ := List.getElem?_eq_some_iff.1 hv
    exact (hg' i).2 (by omega) v hv

/-- C117. A level of 0 leaves every file as it is: no variable of the output is compressed, but a shuffle option given with it is ignored. A classic or 64 bit
offset input file leaves every file as it is too. -/
theorem C117_untouched {root : Bool} {s s' : State} {fidIn fidOut : Nat} {ein : Ent} {fin : Nc} {ud us : Int} (hi : s.files[fidIn]? = some ein)
    (di : s.disk (path ein.name) = some fin) (h : ud = 0 ∨ fin.format = 1 ∨ fin.format = 2) (hd : setDeflation root s fidIn fidOut ud us = .ok s') : s' = s := by
  unfold setDeflation at hd
  by_cases h0 : ud = 0
  · rw [if_pos h0] at hd; exact (Except.ok.inj hd).symm
  rw [if_neg h0, hi] at hd
  cases ho : s.files[fidOut]? with
  | none => rw [ho] at hd; simp at hd
  | some eout =>
    rw [ho] at hd
    simp only at hd
    rw [di] at hd
    simp only at hd
    rw [if_pos (h.resolve_left h0)] at hd
    exact (Except.ok.inj hd).symm

end Verif.MppIo
