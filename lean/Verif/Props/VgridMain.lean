import Verif.Model.VgridMain
import Verif.Props.GridBound
import Verif.Props.GridLegacy
import Verif.Props.Provenance
import Verif.Props.ScatterOptions
/-
C145: make_vgrid.
-/
namespace Verif
namespace Spec.VgridMain

/-- A word of a list. -/
def Plain (w : List Char) : Prop := w ≠ [] ∧ ',' ∉ w ∧ ' ' ∉ w

/-- The list as text, with commas. -/
def commas (l : List (List Char)) : List Char := [','].intercalate l

end Spec.VgridMain

open VgridMain Spec Spec.VgridMain
open GridBound (C42_accepts C42_cells C42_monotone)
open GridLegacy (C51_increasing)
open Provenance (Err Word)
open ScatterOptions (atoi)

private theorem tokens_word (w : Word) (h1 : ',' ∉ w) (h2 : ' ' ∉ w) : ∀ (cur rest : Word), tokens cur (w ++ rest) = tokens (cur ++ w) rest := by
  induction w with
  | nil => intro cur rest; simp
  | cons c w ih =>
    intro cur rest
    simp only [List.mem_cons, not_or] at h1 h2
    rw [List.cons_append, tokens, if_neg (by rintro (h | h); exacts [h1.1 h.symm, h2.1 h.symm]), ih h1.2 h2.2]
    simp

/-- A list with commas is read word by word. -/
theorem C145_list (l : List Word) (h : ∀ w ∈ l, Plain w) : tokens [] (commas l) = l := by
  induction l with
  | nil => rfl
  | cons w l ih =>
    obtain ⟨h1, h2, h3⟩ := h w List.mem_cons_self
    cases l with
    | nil =>
      have : commas [w] = w ++ [] := by simp [commas, List.intercalate, List.intersperse]
      rw [this, tokens_word w h2 h3, List.nil_append, tokens, if_neg h1]
    | cons v l =>
      have : commas (w :: v :: l) = w ++ (',' :: commas (v :: l)) := by simp [commas, List.intercalate, List.intersperse]
      rw [this, tokens_word w h2 h3, List.nil_append, tokens, if_pos (.inl rfl), if_neg h1, ih fun u hu => h u (List.mem_cons_of_mem _ hu)]

private theorem entries_ok {cap : Nat} {l : List Word} (h : ∀ w ∈ l, Plain w) (hl : (commas l).length ≤ 511) (hc : l.length ≤ cap) : entries cap (some (commas l)) = .ok l := by
  rw [entries, if_neg (by omega), C145_list l h, if_neg (by omega)]

namespace Spec.VgridMain

/-- The texts fit in the arrays of the program: lists of at most 511 characters and 100 numbers, a name of at most 124 characters, a command line of at most 255. -/
structure Fits (words : List Word) (a : Args) (bs : List Word) : Prop where
  plain : ∀ w ∈ bs, Plain w
  bnds : a.bnds = some (commas bs)
  text : (commas bs).length ≤ 511
  many : bs.length ≤ 100
  count : a.nbnds = some (Nat.toDigits 10 bs.length)
  two : 2 ≤ bs.length
  name : (a.name.getD "vertical_grid".toList).length ≤ 124
  center : (a.center.getD "none".toList).length ≤ 31
  four : 4 ≤ words.length
  line : ([' '].intercalate words).length ≤ 255

end Spec.VgridMain

private theorem copied_getD {n : Nat} {o : Option Word} {d : Word} (h : (o.getD d).length + 1 ≤ n) : copied n o d = .ok (o.getD d) := by
  cases o with
  | none => rfl
  | some w =>
    rw [Option.getD_some] at h
    unfold copied
    simp only [Option.getD_some]
    rw [if_neg (by omega)]

private theorem history_ok {words : List Word} (h : 4 ≤ words.length) (hl : ([' '].intercalate words).length ≤ 255) :
    Provenance.history 256 words = .ok ([' '].intercalate words) := by
  cases words with
  | nil => simp at h
  | cons w ws => exact (C144_history_partial .vgrid w ws).trans (if_pos (show _ < 256 by omega))

private theorem main_eq {atof : Word → ℝ} {words : List Word} {a : Args} {bs zs ds : List Word} (f : Fits words a bs) (hz : entries 99 a.nz = .ok zs) (hd : entries 100 a.dbnds = .ok ds) :
    main atof words a = (grid atof bs.length bs zs ds a.dbnds.isSome ((a.stretch.map atof).getD 1) (a.center.getD "none".toList)).bind fun z =>
      .ok ⟨a.name.getD "vertical_grid".toList ++ ".nc".toList, z, [' '].intercalate words⟩ := by
  have hb : entries MAXBOUNDS a.bnds = .ok bs := by
    rw [f.bnds]
    exact entries_ok f.plain f.text f.many
  have hc := copied_getD (n := 32) (o := a.center) (d := "none".toList) (by have := f.center; omega)
  have hn := copied_getD (n := 128) (o := a.name) (d := "vertical_grid".toList) (by have := f.name; omega)
  have hz' : entries (MAXBOUNDS - 1) a.nz = .ok zs := hz
  have hd' : entries MAXBOUNDS a.dbnds = .ok ds := hd
  have e : (a.nbnds.map atoi).getD 0 = (bs.length : Int) := by
    rw [f.count]
    exact (C138_number bs.length).1
  unfold main
  rw [hb, hz', hd', hn, hc]
  show (if words.length < 4 then _ else _) = _
  rw [if_neg (by have := f.four; omega), e, history_ok f.four f.line]
  cases grid atof bs.length bs zs ds a.dbnds.isSome ((a.stretch.map atof).getD 1) (a.center.getD "none".toList) with
  | error e => rfl
  | ok z =>
    show (if 128 < (a.name.getD "vertical_grid".toList).length + 3 + 1 then _ else _) = _
    rw [if_neg (by have := f.name; omega)]
    rfl

private theorem bind_ok {α β : Type} {x : Except Err α} {g : α → β} {y : β} (h : (x.bind fun z => .ok (g z)) = .ok y) : ∃ z, x = .ok z ∧ y = g z := by
  cases x with
  | error e => cases h
  | ok z => exact ⟨z, rfl, (Except.ok.inj h).symm⟩

/-- With `--nz`: the program accepts exactly the requests that can be met; the file has the total of `--nz` cells, from the first bound to the last one, ordered as the bounds are,
and holds the command line. -/
theorem C145_spline_partial {atof : Word → ℝ} {words : List Word} {a : Args} {bs zs : List Word} (f : Fits words a bs) (hp : ∀ w ∈ zs, Plain w) (hz : a.nz = some (commas zs))
    (ht : (commas zs).length ≤ 511) (hl : zs.length + 1 = bs.length) (hd : a.dbnds = none) :
    ((∃ r, main atof words a = .ok r) ↔ ValidRequest bs.length (fun i => atoi (zs.getD i [])) (String.ofList (a.center.getD "none".toList))) ∧
      ∀ r, main atof words a = .ok r → r.name = a.name.getD "vertical_grid".toList ++ ".nc".toList ∧ r.history = [' '].intercalate words ∧
        (r.zeta.length : Int) = (zs.map atoi).sum + 1 ∧ LineAt r.zeta 0 (atof (bs.getD 0 [])) ∧ LineAt r.zeta (zs.map atoi).sum (atof (bs.getD (bs.length - 1) [])) ∧
        (Increasing (fun i => atof (bs.getD i [])) bs.length → LinesIncrease r.zeta) := by
  have hz' : entries 99 a.nz = .ok zs := by
    rw [hz]
    exact entries_ok hp ht (by have := f.many; omega)
  have hd' : entries 100 a.dbnds = .ok [] := by rw [hd]; rfl
  have h2 := f.two
  have hg : grid atof bs.length bs zs [] a.dbnds.isSome ((a.stretch.map atof).getD 1) (a.center.getD "none".toList) =
      spline bs.length (fun i => atof (bs.getD i [])) (fun i => atoi (zs.getD i [])) (a.center.getD "none".toList) := by
    unfold grid
    rw [if_neg (by omega), if_neg (fun h => h rfl), if_pos (by omega), Int.toNat_natCast]
  have hsum : cellsBefore (fun i => atoi (zs.getD i [])) (bs.length - 1) = (zs.map atoi).sum := by
    unfold cellsBefore
    congr 1
    rw [show bs.length - 1 = zs.length by omega]
    refine List.ext_getElem (by simp) ?_
    intro i h1 h2
    simp only [List.length_map, List.length_range] at h1
    simp [List.getD_eq_getElem?_getD, List.getElem?_eq_getElem h1]
  rw [main_eq f hz' hd', hg]
  have hv := C42_accepts bs.length (fun i => atof (bs.getD i [])) (fun i => atoi (zs.getD i [])) (String.ofList (a.center.getD "none".toList)) (by omega)
  constructor
  · rw [← hv]
    constructor
    · rintro ⟨r, hr⟩
      obtain ⟨z, h1, _⟩ := bind_ok hr
      unfold spline at h1
      cases hc : GridBound.computeGridBound bs.length (fun i => atof (bs.getD i [])) (fun i => atoi (zs.getD i [])) (String.ofList (a.center.getD "none".toList)) with
      | ok g => exact ⟨g, rfl⟩
      | error e =>
        rw [hc] at h1
        cases e with
        | center => cases h1
        | odd => cases h1
        | spline e => cases e <;> cases h1
    · intro h
      obtain ⟨g, h1, h3, _⟩ := C42_cells bs.length (fun i => atof (bs.getD i [])) _ _ (hv.mp h)
      refine ⟨⟨a.name.getD "vertical_grid".toList ++ ".nc".toList, g, [' '].intercalate words⟩, ?_⟩
      unfold spline
      rw [h1]
      simp only
      have h4 : (g.length : Int) = ((List.range (bs.length - 1)).map fun i => atoi (zs.getD i [])).sum + 1 := h3
      rw [if_pos h4]
      rfl
  · intro r hr
    obtain ⟨z, h1, h3⟩ := bind_ok hr
    subst h3
    unfold spline at h1
    cases hc : GridBound.computeGridBound bs.length (fun i => atof (bs.getD i [])) (fun i => atoi (zs.getD i [])) (String.ofList (a.center.getD "none".toList)) with
    | error e =>
      rw [hc] at h1
      cases e with
      | center => cases h1
      | odd => cases h1
      | spline e => cases e <;> cases h1
    | ok g =>
      rw [hc] at h1
      simp only at h1
      split_ifs at h1 with hlen
      have hgz := Except.ok.inj h1
      subst hgz
      have hval := hv.mp ⟨g, hc⟩
      obtain ⟨g', k1, k2, k3, k4⟩ := C42_cells bs.length (fun i => atof (bs.getD i [])) _ _ hval
      obtain ⟨g'', m1, m2, _⟩ := C42_monotone bs.length (fun i => atof (bs.getD i [])) _ _ hval
      rw [hc] at k1 m1
      rw [← Except.ok.inj k1] at k2 k3 k4
      rw [← Except.ok.inj m1] at m2
      rw [hsum] at k2 k4
      exact ⟨rfl, rfl, k2, k3, k4, m2⟩

private theorem deltas_length (cap nb : Nat) (bnds dbnds : Nat → ℝ) (s : ℝ) (center : String) : ∀ l ds, GridLegacy.deltas cap nb bnds dbnds s center l = .ok ds → ds.length ≤ cap := by
  intro l
  cases l with
  | zero =>
    intro ds h
    rw [GridLegacy.deltas] at h
    rw [← Except.ok.inj h]
    simp
  | succ l =>
    intro ds h
    rw [GridLegacy.deltas] at h
    cases h1 : GridLegacy.deltas cap nb bnds dbnds s center l with
    | error e => rw [h1] at h; cases h
    | ok d1 =>
      rw [h1] at h
      cases h2 : GridLegacy.region center |bnds (l + 1) - bnds l| (dbnds l) (GridLegacy.farSize nb dbnds s l) (dbnds (l + 1)) with
      | error e => 
        change (GridLegacy.region center |bnds (l + 1) - bnds l| (dbnds l) (GridLegacy.farSize nb dbnds s l) (dbnds (l + 1)) >>= _) = _ at h
        rw [h2] at h; cases h
      | ok r =>
        change (GridLegacy.region center |bnds (l + 1) - bnds l| (dbnds l) (GridLegacy.farSize nb dbnds s l) (dbnds (l + 1)) >>= _) = _ at h
        rw [h2] at h
        change (if (d1 ++ r).length > cap then _ else _) = _ at h
        split_ifs at h with hc
        rw [← Except.ok.inj h]
        omega

private theorem legacy_length {cap nb : Nat} {bnds dbnds : Nat → ℝ} {s : ℝ} {center : String} {g : List ℝ} (h : GridLegacy.computeGridBoundLegacy cap nb bnds dbnds s center = .ok g) :
    g.length ≤ 2 * cap + 1 := by
  unfold GridLegacy.computeGridBoundLegacy at h
  split_ifs at h
  cases hd : GridLegacy.deltas cap nb bnds dbnds s center (nb - 1) with
  | error e => rw [hd] at h; cases h
  | ok ds =>
    rw [hd] at h
    have := deltas_length cap nb bnds dbnds s center _ _ hd
    change GridLegacy.lines center (bnds 0) (dbnds 0) ds = _ at h
    unfold GridLegacy.lines at h
    split_ifs at h <;>
    · rw [← Except.ok.inj h]
      simp only [List.length_map, List.length_range]
      omega

/-- With `--dbnds` in place of `--nz`: the file has the lines of the legacy algorithm, all of them, and they fit in the array. -/
theorem C145_legacy_partial {atof : Word → ℝ} {words : List Word} {a : Args} {bs ds : List Word} (f : Fits words a bs) (hp : ∀ w ∈ ds, Plain w) (hd : a.dbnds = some (commas ds))
    (ht : (commas ds).length ≤ 511) (hl : ds.length = bs.length) (hz : a.nz = none) {s : ℝ} (hs : (a.stretch.map atof).getD 1 = s) (g : List ℝ)
    (hg : GridLegacy.computeGridBoundLegacy 5000 bs.length (fun i => atof (bs.getD i [])) (fun i => atof (ds.getD i [])) s (String.ofList (a.center.getD "none".toList)) = .ok g) :
    main atof words a = .ok ⟨a.name.getD "vertical_grid".toList ++ ".nc".toList, g, [' '].intercalate words⟩ ∧
      (RegionsOk bs.length (fun i => atof (bs.getD i [])) (fun i => atof (ds.getD i [])) s → LinesIncrease g) := by
  have hz' : entries 99 a.nz = .ok [] := by rw [hz]; rfl
  have hd' : entries 100 a.dbnds = .ok ds := by
    rw [hd]
    exact entries_ok hp ht (by have := f.many; omega)
  have h2 := f.two
  constructor
  · rw [main_eq f hz' hd', hs]
    unfold grid
    rw [if_neg (by omega), if_neg (fun h => h rfl), if_neg (by simp only [List.length_nil]; omega), hd]
    rw [if_neg (by simp), if_pos (by omega), Int.toNat_natCast]
    unfold legacy
    rw [hg]
    simp only
    rw [if_neg (by have := legacy_length hg; omega)]
    rfl
  · intro hr
    exact C51_increasing _ _ _ _ _ _ _ hr hg

/-- Without `--nz` and `--dbnds` the program uses the number `n3`, which is not set. -/
theorem C145_no_sizes_wrong {atof : Word → ℝ} {words : List Word} {a : Args} {bs : List Word} (f : Fits words a bs) (hz : a.nz = none) (hd : a.dbnds = none) :
    main atof words a = .error .undefined := by
  have hz' : entries 99 a.nz = .ok [] := by rw [hz]; rfl
  have hd' : entries 100 a.dbnds = .ok [] := by rw [hd]; rfl
  have h2 := f.two
  rw [main_eq f hz' hd', hd]
  unfold grid
  rw [if_neg (by omega), if_neg (fun h => h rfl), if_neg (by simp only [List.length_nil]; omega)]
  rfl

/-- So does a number of entries of `--nz` which does not fit, where a message is meant to come. -/
theorem C145_wrong_count_wrong {atof : Word → ℝ} {words : List Word} {a : Args} {bs zs : List Word} (f : Fits words a bs) (hp : ∀ w ∈ zs, Plain w) (hz : a.nz = some (commas zs))
    (ht : (commas zs).length ≤ 511) (hm : zs.length ≤ 99) (hl : zs.length + 1 ≠ bs.length) (hd : a.dbnds = none) : main atof words a = .error .undefined := by
  have hz' : entries 99 a.nz = .ok zs := by
    rw [hz]
    exact entries_ok hp ht hm
  have hd' : entries 100 a.dbnds = .ok [] := by rw [hd]; rfl
  have h2 := f.two
  rw [main_eq f hz' hd', hd]
  unfold grid
  rw [if_neg (by omega), if_neg (fun h => h rfl), if_neg (by omega)]
  rfl

/-- More than 100 bounds, or a list of 512 characters, are written outside the arrays. -/
theorem C145_long_list_wrong (atof : Word → ℝ) (words : List Word) (a : Args) (bs : List Word) (hp : ∀ w ∈ bs, Plain w) (hb : a.bnds = some (commas bs))
    (hl : 100 < bs.length ∨ 511 < (commas bs).length) : main atof words a = .error .undefined := by
  have : entries MAXBOUNDS a.bnds = .error .undefined := by
    rw [hb, entries]
    by_cases h : 512 < (commas bs).length + 1
    · rw [if_pos h]
    · rw [if_neg h, C145_list bs hp, if_pos (show MAXBOUNDS < bs.length from by unfold MAXBOUNDS; omega)]
  unfold main
  rw [this]
  rfl

/-- The command line of the first example in the manual. -/
def vgridExample : List Word := ["make_vgrid", "--nbnds", "3", "--bnds", "10,200,1000", "--nz", "10,20"].map String.toList

/-- Its options. -/
def vgridArgs : Args := ⟨some "3".toList, some "10,200,1000".toList, some "10,20".toList, none, none, none, none⟩

private theorem vgridFits : Fits vgridExample vgridArgs (["10", "200", "1000"].map String.toList) := by
  refine ⟨?_, ?_, ?_, ?_, ?_, ?_, ?_, ?_, ?_, ?_⟩ <;> first | decide +kernel | skip
  intro w hw
  fin_cases hw <;> refine ⟨?_, ?_, ?_⟩ <;> decide +kernel

/-- The manual says that the first example makes 60 supergrid cells; it makes 30. -/
theorem C145_manual_wrong (atof : Word → ℝ) : ∃ r, main atof vgridExample vgridArgs = .ok r ∧ r.zeta.length = 30 + 1 := by
  have h := C145_spline_partial (atof := atof) (zs := ["10", "20"].map String.toList) vgridFits (by
    intro w hw
    fin_cases hw <;> refine ⟨?_, ?_, ?_⟩ <;> decide +kernel) (by decide +kernel) (by decide +kernel) (by decide +kernel) rfl
  obtain ⟨r, hr⟩ := h.1.mpr (by
    refine ⟨by decide, ?_, .inl (by decide +kernel)⟩
    intro l hl
    have : l < 2 := by simp at hl; omega
    interval_cases l <;> decide +kernel)
  refine ⟨r, hr, ?_⟩
  have := (h.2 r hr).2.2.1
  have e : ((["10", "20"].map String.toList).map atoi).sum = 30 := by decide +kernel
  rw [e] at this
  omega

end Verif
