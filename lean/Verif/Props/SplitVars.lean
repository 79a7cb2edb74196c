/-
C106 to C110: split_ncvars.pl.
-/
import Verif.Lemmas.SplitVarsNames
import Mathlib.Tactic.IntervalCases
namespace Verif
open SplitVars Spec.SplitVars
variable {α : Type}

/-- **C106** Input files of one series in the order of the command line, each with all variables of the list: at the end there is an output for
each variable and each tile that occurs, and it holds, after what was there before, the records of all input files of this tile, in
order and each once. This holds for the variable itself and for those copied with it (averages, bounds of time). Other files stay. -/
theorem C106_records (o : Opts) (ho : Plain o) (ok : Nat → Bool) (hok : ∀ i, ok i = true) (vs : List String) (hne : vs ≠ []) (hn : vs.Nodup)
    (fs : List (Input α)) (hf : ∀ f ∈ fs, ∀ n ∈ vs, Fit (isCmip o f.head n) f n) (w : World α) :
    ∃ w', fileLoop o ok fs 0 (vs, w) = .ok (vs, w') ∧ w'.bad = w.bad ∧
      (∀ k : Key, (k.var ∉ vs ∨ k.ext ≠ "") → w'.out k = w.out k) ∧
      (∀ n ∈ vs, ∀ t, (w'.out ⟨n, t, ""⟩).isSome ↔ (w.out ⟨n, t, ""⟩).isSome ∨ ∃ f ∈ fs, f.tile = t) ∧
      ∀ n ∈ vs, ∀ x, (∀ f ∈ fs, (x = n ∨ Always (isCmip o f.head n) f.head n x) ∧ Record f.head x) →
        ∀ t, (∀ a, w.out ⟨n, t, ""⟩ = some a → ∃ l, a.get x = some (true, l)) →
          held w' n t x = held w n t x ++ (fs.filter fun f => f.tile = t).flatMap fun f => f.data x :=
  fileLoop_fit ho hok vs hne hn fs hf w 0

/-- **C106** A name with `.tile` and a digit belongs to the tile of this digit -/
theorem C106_tile (base rest : List Char) (hb : ¬ ".tile".toList <:+: base) (d : Char) (hd : d.isDigit = true) :
    tileOf (base ++ (".tile".toList ++ d :: rest)) = ".tile".toList ++ [d] := tileOf_spec base hb d hd rest

/-- **C106** But tiles of two digits go to the tile of the first digit -/
theorem C106_tile_wrong (base : List Char) (hb : ¬ ".tile".toList <:+: base) (d e : Char) (hd : d.isDigit = true) :
    tileOf (base ++ (".tile".toList ++ d :: e :: ".nc".toList)) = tileOf (base ++ (".tile".toList ++ d :: ".nc".toList)) := by
  rw [tileOf_spec base hb d hd, tileOf_spec base hb d hd]

/-- **C107** A run that ends with status 0 had no failure of `ncks` or `ncrcat`, and every output file that was there before is still there,
with the same variables, and its records are the beginning of the records now -/
theorem C107_status (o : Opts) (ok : Nat → Bool) (fs : List (Input α)) (vs : List String) (w : World α)
    (h : exitOk (fileLoop o ok fs 0 (vs, w)) = true) :
    ∃ vs' w', fileLoop o ok fs 0 (vs, w) = .ok (vs', w') ∧ w.bad = false ∧ (∀ i, w.calls ≤ i → i < w'.calls → ok i = true) ∧
      ∀ n t a, w.out ⟨n, t, ""⟩ = some a → ∃ g, w'.out ⟨n, t, ""⟩ = some g ∧ g.vars.map (·.1) = a.vars.map (·.1) ∧
        ∀ x r l, a.get x = some (r, l) → ∃ l', g.get x = some (r, l ++ l') := by
  cases hr : fileLoop o ok fs 0 (vs, w) with
  | error e => rw [hr] at h; cases h
  | ok s =>
    rw [hr] at h
    have hb : s.2.bad = false := by simpa [exitOk] using h
    obtain ⟨hs, _⟩ := fileLoop_sound hr
    exact ⟨s.1, s.2, rfl, hs.bad hb, hs.good hb, hs.kept hb⟩

/-- **C107** But if a call fails when records are added to an output file, then the file with all earlier records is removed -/
theorem C107_loss_wrong (ok : Nat → Bool) (f : Input α) (t n : String) (vl xl : List String) (w : World α) (a : Out α)
    (ha : w.out ⟨n, f.tile, ""⟩ = some a) (hf : ok w.calls = false ∨ ok (w.calls + 1) = false) :
    ∃ w', write ok f (some t) n vl xl w = .ok w' ∧ w'.out ⟨n, f.tile, ""⟩ = none := by
  unfold write
  simp only [ha, reduceCtorEq, if_false]
  cases h0 : ok w.calls with
  | false => exact ⟨_, rfl, by simp⟩
  | true =>
    have h1 : ok (w.calls + 1) = false := by
      rcases hf with h | h
      · rw [h0] at h; cases h
      · exact h
    cases hn : ncks f vl with
    | none => exact ⟨_, by simp only [hn, if_true]; rfl, by simp⟩
    | some b => exact ⟨_, by simp only [hn, if_true, h1, Bool.false_eq_true, if_false]; rfl, by simp⟩

/-- **C107** And input files that cannot be read are left out although the status is 0 -/
theorem C107_unreadable_wrong (o : Opts) (ok : Nat → Bool) (fs : List (Input α)) (hf : ∀ f ∈ fs, f.readable = false) (vs : List String)
    (w : World α) (hw : w.bad = false) (k : Nat) :
    fileLoop o ok fs k (vs, w) = .ok (vs, w) ∧ exitOk (fileLoop o ok fs k (vs, w)) = true := by
  have : fileLoop o ok fs k (vs, w) = .ok (vs, w) := by
    induction fs generalizing k with
    | nil => rfl
    | cons f fs ih =>
      unfold fileLoop oneFile
      simp only [hf f (List.mem_cons_self ..), Bool.not_false, if_true]
      exact ih (fun g hg => hf g (List.mem_cons_of_mem _ hg)) (k + 1)
  refine ⟨this, ?_⟩
  rw [this]
  simp [exitOk, hw]

/-- **C107** And variables that are not in the first file are left out, as the list of variables is made once -/
theorem C107_later_wrong (o : Opts) (ok : Nat → Bool) (f : Input α) (fs : List (Input α)) (w : World α) (hr : f.readable = true)
    (hl : f.listed ≠ []) {vs : List String} {w' : World α} (h : fileLoop o ok (f :: fs) 0 ([], w) = .ok (vs, w')) : vs = f.listed := by
  have key : ∀ (fs : List (Input α)) (k : Nat) (s s' : List String × World α), s.1 ≠ [] → fileLoop o ok fs k s = .ok s' → s'.1 = s.1 := by
    intro fs
    induction fs with
    | nil => intro k s s' _ hs; cases hs; rfl
    | cons g gs ih =>
      intro k s s' hne hs
      unfold fileLoop at hs
      cases h1 : oneFile o ok s g k with
      | error e => rw [h1] at hs; cases hs
      | ok s1 =>
        rw [h1] at hs
        have h2 : s1.1 = s.1 := by
          unfold oneFile at h1
          cases hg : g.readable with
          | false => simp only [hg, Bool.not_false, if_true] at h1; cases h1; rfl
          | true =>
            simp only [hg, Bool.not_true, Bool.false_eq_true, if_false, nextList, hne] at h1
            revert h1
            cases varLoop o ok g (if o.static = true then none else g.head.unlimited) s.1 (⟨coords g.head, []⟩, s.2) with
            | error e => intro h1; cases h1
            | ok p => intro h1; cases h1; rfl
        rw [ih (k + 1) s1 s' (by rw [h2]; exact hne) hs, h2]
  unfold fileLoop at h
  cases h1 : oneFile o ok ([], w) f 0 with
  | error e => rw [h1] at h; cases h
  | ok s1 =>
    rw [h1] at h
    have h2 : s1.1 = f.listed := by
      unfold oneFile at h1
      simp only [hr, Bool.not_true, Bool.false_eq_true, if_false, nextList, if_true] at h1
      revert h1
      cases varLoop o ok f (if o.static = true then none else f.head.unlimited) f.listed (⟨coords f.head, []⟩, w) with
      | error e => intro h1; cases h1
      | ok p => intro h1; cases h1; rfl
    rw [← h2]
    exact key fs 1 s1 (vs, w') (by rw [h2]; exact hl) h

/-- **C108** The output of a variable has exactly the variables that belong to it, whatever variables were processed before: at the first
time also what is copied once, later the records are added; nothing else in the directory is changed -/
theorem C108_variable (o : Opts) (ho : Plain o) (ok : Nat → Bool) (hok : ∀ i, ok i = true) (f : Input α) (before : List String) (n : String)
    (hn : (before ++ [n]).Nodup) (hf : ∀ v ∈ before ++ [n], Fit (isCmip o f.head v) f v) (w : World α) :
    ∃ w' l, varLoop o ok f f.head.unlimited (before ++ [n]) (⟨coords f.head, []⟩, w) = .ok (l, w') ∧
      Added (isCmip o f.head n) f n (w.out ⟨n, f.tile, ""⟩) (w'.out ⟨n, f.tile, ""⟩) ∧
      ∀ k : Key, (∀ v ∈ before ++ [n], k ≠ ⟨v, f.tile, ""⟩) → w'.out k = w.out k := by
  obtain ⟨w', h, _, _, hk, ha⟩ := varLoop_fit ho hok _ hn hf w
  exact ⟨w', _, h, ha n (by simp), hk⟩

/-- **C108** A variable is treated as one for CMIP if the option says so, or with `--auto` if it has a standard name -/
theorem C108_cmip (o : Opts) (h : Head) (n : String) :
    isCmip o h n = true ↔ o.cmip = true ∨ (o.auto = true ∧ ∃ ws, HasAtt h n "standard_name" ws) := by
  simp only [isCmip, decide_eq_true_eq, ← att_iff, Option.isSome_iff_exists]

/-- **C108** With the option for a single file the list has all variables asked for that are in the input, if none of them holds the bounds
of time -/
theorem C108_onefile (o : Opts) (ho : o.onefile = true) (ok : Nat → Bool) (f : Input α) (vs : List String) (w : World α)
    (hb : ∀ v ∈ vs, ¬ TimeBounds f.head v) :
    ∃ l, oneFileList o ok f vs w = some l ∧ ∀ v ∈ vs, f.head.has v = true → v ∈ l := by
  have step : ∀ (l : Lists) (v : String), ¬ TimeBounds f.head v → ∃ l', oneVar o ok f (if o.static = true then none else f.head.unlimited)
      (l, w) v = .ok (l', w) ∧ (∀ x ∈ l.v, x ∈ l'.v) ∧ (f.head.has v = true → v ∈ l'.v) := by
    intro l v hv
    unfold oneVar
    cases hh : f.head.has v with
    | false => exact ⟨l, by simp [hh], fun _ h => h, fun h => by cases h⟩
    | true =>
      obtain ⟨m, hm⟩ : ∃ m, extra o f.head (if o.static = true then none else f.head.unlimited) v = some m := by
        unfold extra
        cases o.static with
        | true => exact ⟨_, rfl⟩
        | false =>
          cases ht : f.head.unlimited with
          | none => exact ⟨_, rfl⟩
          | some t =>
            obtain ⟨m, hm, _⟩ := timeVars_some o f.head t v ht hv
            exact ⟨m, by simpa using hm⟩
      simp only [hh, Bool.not_true, Bool.false_eq_true, if_false, hm, ho, if_true]
      refine ⟨_, rfl, ?_, ?_⟩
      · intro x hx
        cases (w.out ⟨v, f.tile, ""⟩).isNone <;> cases psNeeded o f.head v <;> simp [hx]
      · intro _
        cases (w.out ⟨v, f.tile, ""⟩).isNone <;> cases psNeeded o f.head v <;> simp
  have key : ∀ (vs : List String) (l : Lists), (∀ v ∈ vs, ¬ TimeBounds f.head v) → ∃ l', varLoop o ok f
      (if o.static = true then none else f.head.unlimited) vs (l, w) = .ok (l', w) ∧ (∀ x ∈ l.v, x ∈ l'.v) ∧
      ∀ v ∈ vs, f.head.has v = true → v ∈ l'.v := by
    intro vs
    induction vs with
    | nil => intro l _; exact ⟨l, rfl, fun _ h => h, fun v hv => by cases hv⟩
    | cons v vs ih =>
      intro l hb
      obtain ⟨l1, h1, hk1, hv1⟩ := step l v (hb v (List.mem_cons_self ..))
      obtain ⟨l2, h2, hk2, hv2⟩ := ih l1 fun u hu => hb u (List.mem_cons_of_mem _ hu)
      refine ⟨l2, ?_, fun x hx => hk2 x (hk1 x hx), ?_⟩
      · unfold varLoop
        rw [h1]
        exact h2
      · intro u hu hh
        rcases List.mem_cons.1 hu with rfl | hu
        · exact hk2 _ (hv1 hh)
        · exact hv2 u hu hh
  obtain ⟨l, h, _, hv⟩ := key vs ⟨coords f.head, []⟩ hb
  unfold oneFileList
  rw [h]
  exact ⟨l.v, rfl, hv⟩

/-- **C108** But a variable with bounds of time makes the list forget all variables before it -/
theorem C108_onefile_wrong (o : Opts) (ho : o.static = false) (ok : Nat → Bool) (f : Input α) (vs : List String) (b : String) (w : World α)
    (hb : TimeBounds f.head b) (hh : f.head.has b = true) (l : List String) (h : oneFileList o ok f (vs ++ [b]) w = some l) :
    l = coords f.head := by
  obtain ⟨t, ht, hb'⟩ := hb
  have hstep : ∀ s : Lists × World α, oneVar o ok f (if o.static = true then none else f.head.unlimited) s b =
      .ok (⟨coords f.head, []⟩, s.2) := by
    intro s
    unfold oneVar
    have : extra o f.head (if o.static = true then none else f.head.unlimited) b = none := by
      rw [ho, ht]
      exact (timeVars_none o f.head t b ht).2 ⟨t, ht, hb'⟩
    simp only [hh, Bool.not_true, Bool.false_eq_true, if_false, this]
  have key : ∀ (vs : List String) (s s' : Lists × World α), varLoop o ok f (if o.static = true then none else f.head.unlimited) (vs ++ [b]) s
      = .ok s' → s'.1 = ⟨coords f.head, []⟩ := by
    intro vs
    induction vs with
    | nil =>
      intro s s' hs
      rw [List.nil_append] at hs
      unfold varLoop at hs
      rw [hstep s] at hs
      cases hs
      rfl
    | cons v vs ih =>
      intro s s' hs
      rw [List.cons_append] at hs
      unfold varLoop at hs
      cases h1 : oneVar o ok f (if o.static = true then none else f.head.unlimited) s v with
      | error e => rw [h1] at hs; cases hs
      | ok s1 =>
        rw [h1] at hs
        exact ih s1 s' hs
  unfold oneFileList at h
  cases h1 : varLoop o ok f (if o.static = true then none else f.head.unlimited) (vs ++ [b]) (⟨coords f.head, []⟩, w) with
  | error e => rw [h1] at h; cases h
  | ok s =>
    rw [h1] at h
    cases h
    rw [key vs _ _ h1]

/-- **C108** The surface pressure is added for variables with a vertical axis `pfull` or `phalf` and at least four axes, if no other array
has a name with the same end -/
theorem C108_pressure (o : Opts) (h : Head) (v : Var) (hv : h.find v.name = some v) (hd : v.dims ≠ [])
    (hs : ∀ u ∈ h.vars, u.dims ≠ [] → v.name.toList <:+ u.name.toList → u.name = v.name) :
    psNeeded o h v.name = true ↔ o.ps = true ∧
      4 ≤ (v.dims.filter fun d => (att h d "axis").isSome ∨ (att h d "cartesian_axis").isSome).length ∧
      ∃ d ∈ v.dims, ((∃ ws, HasAtt h d "axis" ws) ∨ ∃ ws, HasAtt h d "cartesian_axis" ws) ∧
        ("pfull".toList <:+: d.toList ∨ "phalf".toList <:+: d.toList) := by
  have hfind : h.vars.find? (fun u => decide (u.dims ≠ [] ∧ v.name.toList <:+ u.name.toList)) = some v := by
    unfold Head.find at hv
    obtain ⟨hp, as, bs, hl, hb⟩ := List.find?_eq_some_iff_append.1 hv
    rw [List.find?_eq_some_iff_append]
    refine ⟨by simp [hd], as, bs, hl, fun a ha => ?_⟩
    have h1 := hb a ha
    simp only [Bool.not_eq_true', decide_eq_false_iff_not] at h1 ⊢
    rintro ⟨h2, h3⟩
    exact h1 (hs a (by rw [hl]; simp [ha]) h2 h3)
  have hax : axisDims h v.name = v.dims.filter fun d => (att h d "axis").isSome ∨ (att h d "cartesian_axis").isSome := by
    unfold axisDims
    rw [hfind]
  unfold psNeeded
  simp only [hax, decide_eq_true_eq, List.any_eq_true, List.mem_filter, Option.isSome_iff_exists, att_iff, and_assoc]

/-- **C109** The attributes of a dimension after the corrections for CMIP, if no attribute is empty: the axis is named by `axis`, units "none"
are 1, latitude and longitude have a standard name, and other attributes stay -/
theorem C109_cleaned (lc : String → String) (dim : String) (l : Atts) (hl : ∀ a, l.get a ≠ some "") :
    (cleaned lc dim l).get "cartesian_axis" = none ∧
    ((cleaned lc dim l).get "axis" = match l.get "axis", l.get "cartesian_axis" with
      | some a, _ => some a
      | none, some c => if c = "N" then none else some c
      | none, none => none) ∧
    ((cleaned lc dim l).get "units" = (l.get "units").map fun u => if lc u = "none" then "1" else u) ∧
    ((cleaned lc dim l).get "standard_name" = match l.get "standard_name" with
      | some s => some s
      | none => if dim = "latitude" ∨ dim = "lat" then some "latitude" else if dim = "longitude" ∨ dim = "lon" then some "longitude" else none) ∧
    (cleaned lc dim l).get "calendar_type" = none ∧
    ∀ a, a ∉ ["cartesian_axis", "axis", "units", "standard_name", "calendar_type", "calendar"] → (cleaned lc dim l).get a = l.get a := by
  have ht : ∀ a, l.text a = l.get a := by
    intro a
    unfold Atts.text
    cases h : l.get a with
    | none => rfl
    | some c => simp [Option.filter, show c ≠ "" from fun h0 => hl a (h0 ▸ h)]
  refine ⟨?_, ?_, ?_, ?_, ?_, ?_⟩
  · rw [cleaned_get, skip_stdn _ _ (by decide), skip_units _ _ (by decide), skip_calt _ (by decide), skip_cal _ _ (by decide)]
    unfold cart
    rw [ht]
    cases h : l.get "cartesian_axis" with
    | none => rfl
    | some c =>
      rw [List.foldl_append]
      simp [after1]
  · rw [cleaned_get, skip_stdn _ _ (by decide), skip_units _ _ (by decide), skip_calt _ (by decide), skip_cal _ _ (by decide)]
    unfold cart
    rw [ht, ht]
    cases h : l.get "cartesian_axis" with
    | none => cases h2 : l.get "axis" <;> rfl
    | some c =>
      rw [List.foldl_append]
      cases h2 : l.get "axis" with
      | some a => simp [after1]
      | none => by_cases hc : c = "N" <;> simp [after1, hc]
  · rw [cleaned_get, skip_stdn _ _ (by decide), skip_calt _ (by decide), skip_cal _ _ (by decide), skip_cart _ (by decide) (by decide)]
    unfold units
    rw [ht]
    cases h : l.get "units" with
    | none => rfl
    | some c => by_cases hc : lc c = "none" <;> simp [after1, hc]
  · rw [cleaned_get, skip_units _ _ (by decide), skip_calt _ (by decide), skip_cal _ _ (by decide), skip_cart _ (by decide) (by decide)]
    unfold stdn
    rw [ht]
    cases h : l.get "standard_name" with
    | some c => simp [after1]
    | none =>
      by_cases h1 : dim = "latitude" ∨ dim = "lat"
      · rcases h1 with rfl | rfl <;> simp [after1]
      · by_cases h2 : dim = "longitude" ∨ dim = "lon"
        · rcases h2 with rfl | rfl <;> simp [after1]
        · simp [h1, h2]
  · rw [cleaned_get, skip_stdn _ _ (by decide), skip_units _ _ (by decide), skip_cal _ _ (by decide), skip_cart _ (by decide) (by decide)]
    unfold calt
    rw [ht]
    cases h : l.get "calendar_type" <;> simp [after1]
  · intro a ha
    simp only [List.mem_cons, List.not_mem_nil, or_false, not_or] at ha
    obtain ⟨h1, h2, h3, h4, h5, h6⟩ := ha
    rw [cleaned_get, skip_stdn _ _ h4, skip_units _ _ h3, skip_calt _ h5, skip_cal _ _ h6, skip_cart _ h2 h1]

/-- **C109** A calendar is kept, in small letters -/
theorem C109_calendar_partial (lc : String → String) (dim : String) (l : Atts) (hl : ∀ a, l.get a ≠ some "") (c : String)
    (hc : l.get "calendar" = some c) : (cleaned lc dim l).get "calendar" = some (lc c) := by
  rw [cleaned_calendar lc dim l hl, hc]

/-- **C109** But a calendar that is only in `calendar_type` is lost: the new attribute `calendar` is empty and the old one is removed -/
theorem C109_calendar_wrong (lc : String → String) (h0 : lc "" = "") (dim : String) (l : Atts) (hl : ∀ a, l.get a ≠ some "") (c : String)
    (hc : l.get "calendar" = none) (ht : l.get "calendar_type" = some c) :
    (cleaned lc dim l).get "calendar" = some "" ∧ (cleaned lc dim l).get "calendar_type" = none := by
  refine ⟨?_, (C109_cleaned lc dim l hl).2.2.2.2.1⟩
  rw [cleaned_calendar lc dim l hl, hc, ht]
  simp [h0]

/-- **C110** No input file is removed, also if the script stops, unless the input directory is in the archive -/
theorem C110_inputs (o : Opts) (ho : o.archive = false) (ok : Nat → Bool) (fs : List (Input α)) (vs : List String) (w : World α) :
    (∀ e, fileLoop o ok fs 0 (vs, w) = .error e → e.removed = w.removed) ∧
    ∀ s, fileLoop o ok fs 0 (vs, w) = .ok s → s.2.removed = w.removed := by
  refine ⟨fun e h => fileLoop_error ho h, fun s h => ?_⟩
  rw [(fileLoop_sound h).2, ho]
  simp

/-- **C110** But if it is in the archive, every input file that could be read is removed there -/
theorem C110_archive_wrong (o : Opts) (ho : o.archive = true) (ok : Nat → Bool) (fs : List (Input α)) (vs : List String) (w : World α)
    (s : List String × World α) (h : fileLoop o ok fs 0 (vs, w) = .ok s) (i : Nat) (f : Input α) (hi : fs[i]? = some f)
    (hr : f.readable = true) : i ∈ s.2.removed := by
  rw [(fileLoop_sound h).2, ho, if_pos rfl, List.mem_append]
  refine .inr (List.mem_map.2 ⟨(f, i), List.mem_filter.2 ⟨?_, hr⟩, rfl⟩)
  rw [List.mk_mem_zipIdx_iff_getElem?]
  exact hi

end Verif
