import Verif.Model.PlevelMeta
import Mathlib.Tactic.Linarith
import Mathlib.Tactic.FieldSimp
/-
C156: attributes and missing values of plevel.
-/
noncomputable section
namespace Verif
open PlevelMeta

private theorem get_put (n m : String) (v : Val) : ∀ as : Atts, att n (put m v as) = if n = m then some v else att n as
  | [] => by
    show (if m = n then some v else none) = _
    by_cases h : n = m
    · rw [if_pos h.symm, if_pos h]
    · rw [if_neg (fun q => h q.symm), if_neg h]; rfl
  | a :: as => by
    rw [put]
    by_cases ha : a.1 = m
    · rw [if_pos ha, att, att]
      by_cases h : n = m
      · rw [if_pos h.symm, if_pos h]
      · rw [if_neg (fun q => h q.symm), if_neg h, if_neg (fun q => h (by rw [← q, ha]))]
    · rw [if_neg ha, att, att, get_put n m v as]
      by_cases h : a.1 = n
      · rw [if_pos h, if_neg (fun q => ha (by rw [h, q])), if_pos h]
      · rw [if_neg h, if_neg h]

private theorem get_missing (n : String) (m : ℝ) (out : Atts) :
    att n (putMissing m out) = if n = "_FillValue" then some (.num m) else if n = "missing_value" then some (.num m) else att n out := by
  unfold putMissing; rw [get_put, get_put]

private theorem get_none {n : String} : ∀ {as : Atts}, n ∉ as.map (·.1) → att n as = none
  | [], _ => rfl
  | a :: as, h => by
    rw [List.map_cons, List.mem_cons, not_or] at h
    rw [att, if_neg (fun q => h.1 q.symm), get_none h.2]

private theorem get_mem {n : String} {v : Val} : ∀ {as : Atts}, att n as = some v → n ∈ as.map (·.1)
  | [], h => by cases h
  | a :: as, h => by
    rw [att] at h
    rw [List.map_cons, List.mem_cons]
    by_cases q : a.1 = n
    · exact .inl q.symm
    · rw [if_neg q] at h; exact .inr (get_mem h)

private theorem loop_other {miss : Option ℝ} {n : String} (h1 : n ≠ "missing_value") (h2 : n ≠ "_FillValue") :
    ∀ (as out : Atts) (no : Bool), (as.map (·.1)).Nodup → att n (copyLoop miss as out no).1 = match att n as with | some v => some v | none => att n out
  | [], _, _, _ => rfl
  | a :: as, out, no, hn => by
    rw [List.map_cons, List.nodup_cons] at hn
    have key : ∀ o no', att n o = (if n = a.1 then some a.2 else att n out) → att n (copyLoop miss as o no').1 = match att n (a :: as) with | some v => some v | none => att n out := by
      intro o no' ho
      rw [loop_other h1 h2 as o no' hn.2, att]
      by_cases q : a.1 = n
      · rw [if_pos q, get_none (by rw [← q]; exact hn.1), ho, if_pos q.symm]
      · rw [if_neg q, ho, if_neg (fun z => q z.symm)]
    cases miss with
    | none => rw [copyLoop]; exact key _ _ (get_put _ _ _ _)
    | some m =>
      rw [copyLoop]
      by_cases c : a.1 = "missing_value"
      · rw [if_pos c]
        exact key _ _ (by rw [get_missing, if_neg h2, if_neg h1, if_neg (by rw [c]; exact h1)])
      · rw [if_neg c]; exact key _ _ (get_put _ _ _ _)

private theorem copy_some (m : ℝ) (as : Atts) : copyAtts (some m) as = if (copyLoop (some m) as [] true).2 = true then putMissing m (copyLoop (some m) as [] true).1 else (copyLoop (some m) as [] true).1 := by
  unfold copyAtts
  generalize copyLoop (some m) as [] true = p
  obtain ⟨o, b⟩ := p
  cases b <;> rfl

private theorem copy_none (as : Atts) : copyAtts none as = (copyLoop none as [] true).1 := rfl

/-- All attributes but the two of missing values are copied, and no other one is added. -/
theorem C156_attributes (miss : Option ℝ) (as : Atts) (hn : (as.map (·.1)).Nodup) (n : String) (h1 : n ≠ "missing_value") (h2 : n ≠ "_FillValue") : att n (copyAtts miss as) = att n as := by
  have key : att n (copyLoop miss as [] true).1 = att n as := by
    rw [loop_other h1 h2 as [] true hn]
    cases att n as <;> rfl
  cases miss with
  | none => exact key
  | some m =>
    rw [copy_some]
    by_cases c : (copyLoop (some m) as [] true).2 = true
    · rw [if_pos c, get_missing, if_neg h2, if_neg h1]; exact key
    · rw [if_neg c]; exact key

private theorem put_new {n : String} {v : Val} : ∀ {out : Atts}, n ∉ out.map (·.1) → put n v out = out ++ [(n, v)]
  | [], _ => rfl
  | a :: as, h => by
    rw [List.map_cons, List.mem_cons, not_or] at h
    rw [put, if_neg (fun q => h.1 q.symm), put_new h.2]; rfl

private theorem loop_none : ∀ (as out : Atts) (no : Bool), ((out ++ as).map (·.1)).Nodup → (copyLoop none as out no).1 = out ++ as
  | [], out, _, _ => (List.append_nil out).symm
  | a :: as, out, no, h => by
    have hn : a.1 ∉ out.map (·.1) := by
      rw [List.map_append, List.map_cons, List.nodup_append] at h
      intro q
      exact h.2.2 _ q _ List.mem_cons_self rfl
    rw [copyLoop]
    rw [put_new hn, loop_none as _ no (by rw [List.append_assoc]; exact h), List.append_assoc]
    rfl

/-- Without a missing value the attributes are copied as they are. -/
theorem C156_no_missing (as : Atts) (hn : (as.map (·.1)).Nodup) : copyAtts none as = as := by
  rw [copy_none, loop_none as [] true hn]; rfl

private theorem loop_flag (m : ℝ) : ∀ (as out : Atts) (no : Bool), ("missing_value" ∈ as.map (·.1) → (copyLoop (some m) as out no).2 = false) ∧
    ("missing_value" ∉ as.map (·.1) → (copyLoop (some m) as out no).2 = no)
  | [], _, _ => ⟨fun h => by simp at h, fun _ => rfl⟩
  | a :: as, out, no => by
    rw [copyLoop]
    rw [List.map_cons, List.mem_cons]
    by_cases c : a.1 = "missing_value"
    · rw [if_pos c]
      refine ⟨fun _ => ?_, fun h => absurd (.inl c.symm) h⟩
      by_cases d : "missing_value" ∈ as.map (·.1)
      · exact (loop_flag m as _ _).1 d
      · exact (loop_flag m as _ _).2 d
    · rw [if_neg c]
      refine ⟨fun h => (loop_flag m as _ _).1 (h.resolve_left fun q => c q.symm), fun h => (loop_flag m as _ _).2 fun q => h (.inr q)⟩

private theorem loop_missing (m : ℝ) : ∀ (as out : Atts) (no : Bool), att "missing_value" (copyLoop (some m) as out no).1 = if "missing_value" ∈ as.map (·.1) then some (.num m) else att "missing_value" out
  | [], _, _ => by simp [copyLoop]
  | a :: as, out, no => by
    rw [copyLoop]
    rw [List.map_cons]
    by_cases c : a.1 = "missing_value"
    · rw [if_pos c, loop_missing m as, if_pos (show "missing_value" ∈ a.1 :: as.map (·.1) by rw [c]; exact List.mem_cons_self), get_missing,
        if_neg (show ¬"missing_value" = "_FillValue" by decide), if_pos (rfl : "missing_value" = "missing_value")]
      by_cases d : "missing_value" ∈ as.map (·.1)
      · rw [if_pos d]
      · rw [if_neg d]
    · rw [if_neg c, loop_missing m as, get_put, if_neg (show ¬"missing_value" = a.1 from fun q => c q.symm)]
      have : ("missing_value" ∈ a.1 :: as.map (·.1)) ↔ "missing_value" ∈ as.map (·.1) := by
        rw [List.mem_cons]; exact ⟨fun h => h.resolve_left fun q => c q.symm, .inr⟩
      by_cases d : "missing_value" ∈ as.map (·.1)
      · rw [if_pos d, if_pos (this.2 d)]
      · rw [if_neg d, if_neg (fun q => d (this.1 q))]

/-- `missing_value` is the missing value given. -/
theorem C156_missing_value (m : ℝ) (as : Atts) : att "missing_value" (copyAtts (some m) as) = some (.num m) := by
  rw [copy_some]
  by_cases d : "missing_value" ∈ as.map (·.1)
  · rw [(loop_flag m as [] true).1 d, if_neg (by decide), loop_missing, if_pos d]
  · rw [(loop_flag m as [] true).2 d, if_pos rfl, get_missing, if_neg (by decide), if_pos rfl]

private theorem loop_fill (m : ℝ) : ∀ (as out : Atts) (no : Bool), "missing_value" ∉ as.map (·.1) → (as.map (·.1)).Nodup →
    att "_FillValue" (copyLoop (some m) as out no).1 = match att "_FillValue" as with | some v => some v | none => att "_FillValue" out
  | [], _, _, _, _ => rfl
  | a :: as, out, no, h, hn => by
    rw [List.map_cons, List.nodup_cons] at hn
    rw [List.map_cons, List.mem_cons, not_or] at h
    rw [copyLoop]
    rw [if_neg (fun q => h.1 q.symm), loop_fill m as _ _ h.2 hn.2, att]
    by_cases q : a.1 = "_FillValue"
    · rw [if_pos q, get_none (by rw [← q]; exact hn.1), get_put, if_pos q.symm]
    · rw [if_neg q, get_put, if_neg (fun z => q z.symm)]

private theorem loop_append (m : ℝ) : ∀ (as bs out : Atts) (no : Bool), copyLoop (some m) (as ++ bs) out no = copyLoop (some m) bs (copyLoop (some m) as out no).1 (copyLoop (some m) as out no).2
  | [], _, _, _ => rfl
  | a :: as, bs, out, no => by
    rw [List.cons_append, copyLoop, copyLoop]
    by_cases c : a.1 = "missing_value"
    · rw [if_pos c, if_pos c]; exact loop_append m as bs _ _
    · rw [if_neg c, if_neg c]; exact loop_append m as bs _ _

private theorem fill_after (m : ℝ) (pre post : Atts) (w : Val) (hn : ((pre ++ ("missing_value", w) :: post).map (·.1)).Nodup) :
    att "_FillValue" (copyAtts (some m) (pre ++ ("missing_value", w) :: post)) = match att "_FillValue" post with | some v => some v | none => some (.num m) := by
  rw [List.map_append, List.map_cons, List.nodup_append, List.nodup_cons] at hn
  rw [copy_some, (loop_flag m _ [] true).1 (by simp), if_neg (by decide), loop_append, copyLoop]
  rw [if_pos (show (("missing_value", w) : String × Val).1 = "missing_value" from rfl), loop_fill m post _ _ hn.2.1.1 hn.2.1.2, get_missing, if_pos rfl]

/-- So is `_FillValue`, unless the input has it behind `missing_value`. -/
theorem C156_fill_partial (m : ℝ) (as : Atts) (hn : (as.map (·.1)).Nodup) (h : ∀ pre w post, as = pre ++ ("missing_value", w) :: post → "_FillValue" ∉ post.map (·.1)) :
    att "_FillValue" (copyAtts (some m) as) = some (.num m) := by
  by_cases d : "missing_value" ∈ as.map (·.1)
  · obtain ⟨⟨n, w⟩, ha, rfl⟩ := List.mem_map.1 d
    obtain ⟨pre, post, rfl⟩ := List.append_of_mem ha
    rw [fill_after m pre post w hn, get_none (h pre w post rfl)]
  · rw [copy_some, (loop_flag m as [] true).2 d, if_pos rfl, get_missing, if_pos rfl]

/-- Then `_FillValue` of the input comes back: the two attributes of the output differ. -/
theorem C156_fill_wrong (m : ℝ) (pre post : Atts) (w v : Val) (hn : ((pre ++ ("missing_value", w) :: post).map (·.1)).Nodup) (hp : att "_FillValue" post = some v) (hv : v ≠ .num m) :
    att "_FillValue" (copyAtts (some m) (pre ++ ("missing_value", w) :: post)) = some v ∧
    att "_FillValue" (copyAtts (some m) (pre ++ ("missing_value", w) :: post)) ≠ att "missing_value" (copyAtts (some m) (pre ++ ("missing_value", w) :: post)) := by
  have e : att "_FillValue" (copyAtts (some m) (pre ++ ("missing_value", w) :: post)) = some v := by rw [fill_after m pre post w hn, hp]
  refine ⟨e, ?_⟩
  rw [e, C156_missing_value]
  exact fun q => hv (Option.some.inj q)

private theorem nint_int (k : Int) : nint (k : ℝ) = k := by
  unfold nint
  have f : ∀ j : Int, ⌊(j : ℝ) + 1 / 2⌋ = j := fun j => by rw [Int.floor_eq_iff]; constructor <;> linarith
  by_cases h : 0 ≤ (k : ℝ)
  · rw [if_pos h, f]
  · rw [if_neg h]
    have : -(k : ℝ) = ((-k : Int) : ℝ) := by push_cast; rfl
    rw [this, f]; push_cast; ring

/-- A field can be packed: its scale is not zero and the value is a whole number. -/
def C156Stored (f : FieldInfo) (v : ℝ) : Prop := f.doPack = true → f.scale ≠ 0 ∧ ∃ k : Int, v = k

private theorem pack_back {f : FieldInfo} {v : ℝ} (h : f.scale ≠ 0) (k : Int) (hk : v = k) : nint ((v * f.scale + f.offset - f.offset) / f.scale) = v := by
  rw [add_sub_cancel_right, mul_div_cancel_right₀ _ h, hk, nint_int]

private theorem read_value {f : FieldInfo} {v : ℝ} (hp : f.doPack = true) : readValue f v = v * f.scale + f.offset := by
  unfold readValue unpackedIn
  rw [if_pos hp]
  by_cases hm : f.doMiss = true
  · rw [if_pos hm]
    by_cases c : v = f.missIn
    · rw [if_neg (not_not.2 c), if_pos (by simp [hm, hp]), c]
    · rw [if_pos c]
  · rw [if_neg hm]

/-- Values of fields without a vertical axis are copied, missing or not, if the missing value of the input is kept. -/
theorem C156_copied_partial (f : FieldInfo) (v : ℝ) (h : C156Stored f v) (hd : f.missOut = f.missIn) : copied f v = v := by
  unfold copied
  by_cases hp : f.doPack = true
  · obtain ⟨hs, k, hk⟩ := h hp
    rw [read_value hp]
    unfold writeValue
    rw [if_pos hp]
    by_cases hm : f.doMiss = true
    · rw [if_pos hm]
      by_cases c : v * f.scale + f.offset ≠ unpackedOut f
      · rw [if_pos c, pack_back hs k hk]
      · rw [if_neg c]
        have c' := not_not.1 c
        unfold unpackedOut at c'
        rw [if_pos (by simp [hm, hp])] at c'
        have : v = f.missOut := mul_right_cancel₀ hs (add_right_cancel c')
        exact this.symm
    · rw [if_neg hm, pack_back hs k hk]
  · unfold writeValue readValue; rw [if_neg hp, if_neg hp]

/-- With `use_default_missing_value` the missing values of such a field stay as they are, while `missing_value` of the output is the default. -/
theorem C156_default_wrong (d : ℝ) (as : Atts) (m : ℝ) (hm : number "missing_value" as = some m) (hd : m ≠ d) (hs : C156Stored (fieldOf (some d) as) m) :
    att "missing_value" (outAtts (some d) false as) = some (.num d) ∧ copied (fieldOf (some d) as) m = m ∧ m ≠ d := by
  have e1 : (fieldOf (some d) as).doMiss = true := by unfold fieldOf; simp only; rw [hm]
  have e2 : (fieldOf (some d) as).missIn = m := by unfold fieldOf; simp only; rw [hm]
  have e3 : (fieldOf (some d) as).missOut = d := rfl
  refine ⟨?_, ?_, hd⟩
  · unfold outAtts missValue
    rw [if_pos (by simp [e1]), e3, C156_missing_value]
  · generalize fieldOf (some d) as = f at *
    unfold copied
    by_cases hp : f.doPack = true
    · obtain ⟨hs, k, hk⟩ := hs hp
      rw [read_value hp]
      unfold writeValue
      rw [if_pos hp, if_pos e1, if_pos, pack_back hs k hk]
      unfold unpackedOut
      rw [if_pos (by simp [e1, hp]), e3]
      intro q
      exact hd (mul_right_cancel₀ hs (add_right_cancel q))
    · unfold writeValue readValue; rw [if_neg hp, if_neg hp]

/-- Without option -m the missing value of the input, from `missing_value` or else from `_FillValue`, is that of the output, for all fields. -/
theorem C156_kept (vertical : Bool) (as : Atts) (m : ℝ) (h : number "missing_value" as = some m ∨ (number "missing_value" as = none ∧ number "_FillValue" as = some m)) :
    att "missing_value" (outAtts none vertical as) = some (.num m) := by
  have e : (fieldOf none as).doMiss = true ∧ (fieldOf none as).missOut = m := by
    unfold fieldOf
    rcases h with q | ⟨q1, q2⟩
    · simp only; rw [q]; exact ⟨rfl, rfl⟩
    · simp only; rw [q1, q2]; exact ⟨rfl, rfl⟩
  unfold outAtts missValue
  rw [e.1, e.2, Bool.or_true, if_pos rfl, C156_missing_value]

/-- Below the ground a field with a missing value has the value of the attribute `missing_value` of the output. -/
theorem C156_masked_partial (useDefault : Option ℝ) (as : Atts) (x : ℝ) (hm : number "missing_value" as ≠ none ∨ number "_FillValue" as ≠ none) :
    att "missing_value" (outAtts useDefault true as) = some (.num (level (fieldOf useDefault as) true true x)) := by
  have h : (fieldOf useDefault as).doMiss = true := by
    unfold fieldOf
    simp only
    cases e1 : number "missing_value" as with
    | some m => rfl
    | none =>
      cases e2 : number "_FillValue" as with
      | some m => rfl
      | none =>
        rcases hm with q | q
        · exact absurd e1 q
        · exact absurd e2 q
  unfold outAtts missValue
  rw [if_pos (by rfl), C156_missing_value]
  congr 2
  generalize fieldOf useDefault as = f at *
  unfold level
  rw [if_pos (show (f.doMiss && true && true) = true by rw [h]; rfl)]
  unfold writeValue
  by_cases hp : f.doPack = true
  · rw [if_pos hp, if_pos h, if_neg (not_not.2 rfl)]
  · rw [if_neg hp]
    unfold unpackedOut
    rw [if_neg (by simp [hp])]

/-- A field without a missing value (and without packing): 0 is declared as its missing value in the output, although 0 may be a value of it, and values below the ground are not masked. -/
theorem C156_zero_wrong (as : Atts) (h1 : number "missing_value" as = none) (h2 : number "_FillValue" as = none) (h3 : number "scale_factor" as = none) (x : ℝ) :
    att "missing_value" (outAtts none true as) = some (.num 0) ∧ (∀ mask, level (fieldOf none as) true mask x = x) := by
  have e1 : (fieldOf none as).doMiss = false := by unfold fieldOf; simp only; rw [h1, h2]
  have e2 : (fieldOf none as).missOut = 0 := by unfold fieldOf; simp only; rw [h1, h2]
  have e3 : (fieldOf none as).doPack = false := by unfold fieldOf; simp only; rw [h3]
  constructor
  · unfold outAtts missValue
    rw [if_pos (by rfl), e2, C156_missing_value]
  · intro mask
    unfold level writeValue
    rw [if_neg (by simp [e3]), if_neg (by simp [e1])]

/-- The edges of an axis are written with it. -/
theorem C156_edges_partial (dims : List String) (axis e : String) (as : Atts) (h : att "edges" as = some (.text e)) (hb : att "bounds" as = none ∨ att "bounds" as = some (.text e))
    (ha : axis ∈ dims) (he : e ∈ dims) : axes dims axis as = some [axis, e] := by
  have : edgeName as = some e := by
    unfold edgeName
    rcases hb with q | q
    · rw [h, q]
    · rw [h, q]; simp only; rw [if_neg (not_not.2 rfl)]
  unfold axes
  rw [if_pos ha, this]
  simp only
  rw [if_pos he]

/-- If an axis has `bounds` only, they are not written, although the attribute is copied. -/
theorem C156_bounds_wrong (dims : List String) (axis b : String) (as : Atts) (h : att "edges" as = none) (_hb : att "bounds" as = some (.text b)) (ha : axis ∈ dims) :
    axes dims axis as = some [axis] := by
  unfold axes edgeName
  rw [if_pos ha, h]

/-- If it has `edges` and `bounds`, the bounds are looked for among the dimensions; they have two and are none, so the program ends. -/
theorem C156_both_wrong (dims : List String) (axis e b : String) (as : Atts) (h : att "edges" as = some (.text e)) (hb : att "bounds" as = some (.text b)) (hne : e ≠ b) (hd : b ∉ dims) :
    axes dims axis as = none := by
  unfold axes edgeName
  rw [h, hb]
  simp only
  rw [if_pos hne]
  simp only
  rw [if_neg hd]
  by_cases ha : axis ∈ dims
  · rw [if_pos ha]
  · rw [if_neg ha]

/-- A field of a model of the atmosphere -/
def c156Atts : Atts := [("units", .text "K"), ("missing_value", .num (-999)), ("_FillValue", .num (-999))]

/-- `_FillValue` is -999 and `missing_value` is 9. -/
example : att "_FillValue" (copyAtts (some 9) c156Atts) = some (.num (-999)) :=
  (C156_fill_wrong 9 [("units", .text "K")] [("_FillValue", .num (-999))] (.num (-999)) (.num (-999)) (by decide) rfl
    (by intro q; injection q with q; norm_num at q)).1

example : att "units" (copyAtts (some 9) c156Atts) = some (.text "K") := C156_attributes _ _ (by decide) _ (by decide) (by decide)

/-- Order of attributes the other way round -/
example : att "_FillValue" (copyAtts (some 9) [("_FillValue", .num (-999)), ("missing_value", .num (-999))]) = some (.num 9) := by
  refine C156_fill_partial 9 _ (by decide) fun pre w post h => ?_
  rcases pre with _ | ⟨a, _ | ⟨b, pre⟩⟩
  · simp at h
  · simp only [List.cons_append, List.nil_append, List.cons.injEq] at h
    rw [← h.2.2]; decide
  · simp at h

example : copied (fieldOf (some 9) c156Atts) (-999) = -999 :=
  (C156_default_wrong 9 c156Atts (-999) rfl (by norm_num) (fun q => by cases q)).2.1

/-- Packed data -/
example : copied ⟨true, 0.5, 20, true, -1, -1⟩ 7 = 7 := C156_copied_partial _ _ (fun _ => ⟨by norm_num, 7, by norm_num⟩) rfl

example (x : ℝ) : att "missing_value" (outAtts none true c156Atts) = some (.num (level (fieldOf none c156Atts) true true x)) := C156_masked_partial none _ x (.inl (by simp [number, att, c156Atts]))

example : att "missing_value" (outAtts none true [("units", .text "kg/kg")]) = some (.num 0) := (C156_zero_wrong _ rfl rfl rfl 0).1

example : axes ["lon", "lonb"] "lon" [("edges", .text "lonb")] = some ["lon", "lonb"] := C156_edges_partial _ _ _ _ rfl (.inl rfl) (by decide) (by decide)
example : axes ["lon", "bnds"] "lon" [("bounds", .text "lon_bnds")] = some ["lon"] := C156_bounds_wrong _ _ "lon_bnds" _ rfl rfl (by decide)
example : axes ["lon", "lonb", "bnds"] "lon" [("edges", .text "lonb"), ("bounds", .text "lon_bnds")] = none := C156_both_wrong _ _ "lonb" "lon_bnds" _ rfl rfl (by decide) (by decide)

example : att "missing_value" (outAtts none false [("units", .text "K"), ("_FillValue", .num 5)]) = some (.num 5) := C156_kept false _ 5 (.inr (by simp [number, att]))

end Verif
