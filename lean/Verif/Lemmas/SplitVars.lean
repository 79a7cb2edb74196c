import Verif.Spec.SplitVars
import Mathlib.Tactic.Linarith
namespace Verif.SplitVars
open Verif.Spec.SplitVars
variable {α : Type}

theorem att_iff (h : Head) (n a : String) (ws : List String) : att h n a = some ws ↔ HasAtt h n a ws := by
  unfold att HasAtt
  cases hf : h.find n with
  | none => simp
  | some v =>
    simp only [Option.filter_eq_some_iff, Option.map_eq_some_iff]
    constructor
    · rintro ⟨⟨e, he, rfl⟩, h2⟩
      exact ⟨by simpa using h2, v, rfl, e, he, rfl⟩
    · rintro ⟨h1, v', hv, e, he, rfl⟩
      cases hv
      exact ⟨⟨e, he, rfl⟩, by simpa using h1⟩

theorem attName_iff (h : Head) (n a b : String) : attName h n a = some b ↔ HasAtt h n a [b] := by
  rw [← att_iff]
  unfold attName
  cases hh : att h n a with
  | none => simp
  | some l =>
    match l with
    | [] => simp
    | [w] => simp
    | _ :: _ :: _ => simp

theorem hasDims_iff (h : Head) (n : String) : h.hasDims n = true ↔ ∃ d, Along h n d := by
  unfold Head.hasDims Along
  cases hf : h.find n with
  | none => simp
  | some v =>
    simp only [decide_eq_true_eq]
    constructor
    · intro hne
      obtain ⟨d, hd⟩ := List.exists_mem_of_ne_nil _ hne
      exact ⟨d, v, rfl, hd⟩
    · rintro ⟨d, v', hv, hd⟩ h0
      cases hv
      rw [h0] at hd
      cases hd

theorem has_of_along {h : Head} {n d : String} (ha : Along h n d) : h.has n = true := by
  obtain ⟨v, hv, _⟩ := ha
  simp [Head.has, hv]

theorem isStatic_iff (h : Head) (n : String) : isStatic h n = true ↔ (∃ d, Along h n d) ∧ ¬ Record h n := by
  rw [← hasDims_iff]
  unfold isStatic Head.hasDims Record Along
  cases hf : h.find n with
  | none => simp
  | some v => simp

theorem record_iff (h : Head) (n : String) : (!isStatic h n && h.hasDims n) = true ↔ Record h n := by
  have h1 := isStatic_iff h n
  have h2 := hasDims_iff h n
  have h3 : Record h n → ∃ d, Along h n d := fun ⟨t, _, ha⟩ => ⟨t, ha⟩
  simp only [Bool.and_eq_true, Bool.not_eq_true', ← Bool.not_eq_true]
  tauto

theorem dimBounds_iff (h : Head) (d b : String) : b ∈ dimBounds h d ↔ BoundsOf h d b := by
  unfold dimBounds BoundsOf
  simp only [List.mem_filter, List.mem_append, Option.mem_toList, attName_iff, hasDims_iff]

theorem varBounds_iff (h : Head) (n b : String) :
    b ∈ varBounds h n ↔ ∃ d, Along h n d ∧ h.unlimited ≠ some d ∧ BoundsOf h d b := by
  unfold varBounds Along
  cases hf : h.find n with
  | none => simp
  | some v =>
    simp only [List.mem_flatMap, List.mem_filter, dimBounds_iff, decide_eq_true_eq, ne_eq, Option.some.injEq, exists_eq_left', and_assoc,
      eq_comm (b := h.unlimited)]

theorem fromAtt_iff (h : Head) (n a c : String) : c ∈ fromAtt h n a ↔ ∃ ws, HasAtt h n a ws ∧ c ∈ ws ∧ h.has c := by
  unfold fromAtt
  simp only [← att_iff]
  cases hh : att h n a with
  | none => simp
  | some l => simp

theorem foldl_addNew (l s : List String) (x : String) : x ∈ l.foldl addNew s ↔ x ∈ s ∨ x ∈ l := by
  induction l generalizing s with
  | nil => simp
  | cons a l ih =>
    rw [List.foldl_cons, ih]
    unfold addNew
    by_cases ha : a ∈ s
    · rw [if_pos ha, List.mem_cons]
      constructor
      · rintro (h | h) <;> tauto
      · rintro (h | rfl | h) <;> tauto
    · rw [if_neg ha]
      simp only [List.mem_append, List.mem_cons, List.not_mem_nil, or_false]
      tauto

theorem mem_terms (t : String) (ws : List String) : t ∈ terms ws ↔ Term ws t := by
  fun_induction terms ws with
  | case1 w x l hw ih =>
    rw [List.mem_cons, ih]
    constructor
    · rintro (rfl | h)
      · exact .here hw
      · exact .later hw h
    · intro h
      cases h with
      | here _ => exact Or.inl rfl
      | later _ h => exact Or.inr h
      | pass hn _ => exact absurd hw hn
  | case2 w x l hw ih =>
    rw [ih]
    constructor
    · exact fun h => .pass hw h
    · intro h
      cases h with
      | here hl => exact absurd hl hw
      | later hl _ => exact absurd hl hw
      | pass _ h => exact h
  | case3 l hl =>
    constructor
    · intro h; simp at h
    · intro h
      cases h with
      | here _ => exact absurd rfl (hl _ _ _)
      | later _ _ => exact absurd rfl (hl _ _ _)
      | @pass w _ l _ h =>
        cases l with
        | nil => cases h
        | cons x l => exact absurd rfl (hl _ _ _)

theorem terms_att (h : Head) (d t : String) : t ∈ terms ((att h d "formula_terms").getD []) ↔ TermOf h d t := by
  unfold TermOf
  simp only [← att_iff]
  cases hh : att h d "formula_terms" with
  | none => simp [terms]
  | some l => simp [mem_terms]

theorem allTerms_iff (h : Head) (n t : String) :
    t ∈ allTerms h n ↔ ∃ d, Along h n d ∧ (TermOf h d t ∨ ∃ b, HasAtt h d "bounds" [b] ∧ TermOf h b t) := by
  unfold allTerms Along
  cases hf : h.find n with
  | none => simp
  | some v =>
    simp only [foldl_addNew, List.not_mem_nil, false_or, List.mem_flatMap, List.mem_append, terms_att]
    have key : ∀ d, t ∈ (((attName h d "bounds").map fun b => terms ((att h b "formula_terms").getD [])).getD []) ↔ ∃ b, HasAtt h d "bounds" [b] ∧ TermOf h b t := by
      intro d
      simp only [← attName_iff]
      cases hb : attName h d "bounds" with
      | none => simp
      | some b => simp [terms_att]
    simp only [key]
    constructor
    · rintro ⟨d, hd, h1⟩
      exact ⟨d, ⟨v, rfl, hd⟩, h1⟩
    · rintro ⟨d, ⟨v', hv, hd⟩, h1⟩
      cases hv
      exact ⟨d, hd, h1⟩

theorem firstTime_iff (h : Head) (n x : String) : x ∈ firstTime h n ↔ Once h n x := by
  unfold firstTime fTerms
  simp only [List.mem_append, List.mem_flatMap, List.mem_filter, varBounds_iff, fromAtt_iff, dimBounds_iff, allTerms_iff, isStatic_iff]
  constructor
  · rintro (((⟨d, h1, h2, h3⟩ | ⟨ws, h1, h2, h3⟩) | ⟨c, ⟨ws, h1, h2, h3⟩, h4⟩) | ⟨⟨d, h1, h2⟩, h3, h4⟩)
    · exact .bounds h1 h2 h3
    · exact .coordinate h1 h2 h3
    · exact .coordinateBounds h1 h2 h3 h4
    · exact .term h1 h2 h3 h4
  · rintro (⟨h1, h2, h3⟩ | ⟨h1, h2, h3⟩ | ⟨h1, h2, h3, h4⟩ | ⟨h1, h2, h3, h4⟩)
    · exact .inl (.inl (.inl ⟨_, h1, h2, h3⟩))
    · exact .inl (.inl (.inr ⟨_, h1, h2, h3⟩))
    · exact .inl (.inr ⟨_, ⟨_, h1, h2, h3⟩, h4⟩)
    · exact .inr ⟨⟨_, h1, h2⟩, h3, h4⟩

theorem coords_iff (h : Head) (c : String) : c ∈ coords h ↔ Geographic h c := by
  unfold coords Geographic
  rw [List.mem_filter, hasDims_iff]

theorem once_has {h : Head} {n x : String} (ho : Once h n x) : h.has x = true := by
  cases ho with
  | bounds h1 h2 h3 => exact has_of_along h3.2.choose_spec
  | coordinate h1 h2 h3 => exact h3
  | coordinateBounds h1 h2 h3 h4 => exact has_of_along h4.2.choose_spec
  | term h1 h2 h3 h4 => exact has_of_along h3.choose_spec

theorem timeVars_none (o : Opts) (h : Head) (t n : String) (ht : h.unlimited = some t) : timeVars o h t n = none ↔ TimeBounds h n := by
  have hm : n ∈ (attName h t "bounds").toList ++ (attName h t "climatology").toList ↔
      (HasAtt h t "bounds" [n] ∨ HasAtt h t "climatology" [n]) := by
    simp only [List.mem_append, Option.mem_toList, attName_iff]
  unfold timeVars TimeBounds
  dsimp only
  constructor
  · intro hn
    by_contra hc
    rw [if_neg (by intro h1; exact hc ⟨t, ht, hm.1 h1⟩)] at hn
    cases hn
  · rintro ⟨t', ht', h1⟩
    rw [ht] at ht'
    cases ht'
    rw [if_pos (hm.2 h1)]

theorem timeVars_some (o : Opts) (h : Head) (t n : String) (ht : h.unlimited = some t) (hn : ¬ TimeBounds h n) :
    ∃ m, timeVars o h t n = some m ∧ ∀ x, x ∈ m ↔ Always (isCmip o h n) h n x := by
  have hb : n ∉ (attName h t "bounds").toList ++ (attName h t "climatology").toList := by
    simp only [List.mem_append, Option.mem_toList, attName_iff]
    intro h1
    exact hn ⟨t, ht, h1⟩
  unfold timeVars
  dsimp only
  rw [if_neg hb]
  refine ⟨_, rfl, fun x => ?_⟩
  simp only [List.mem_append, Option.mem_toList, attName_iff]
  have ha : x ∈ (if isCmip o h n then [] else (att h n "time_avg_info").getD []) ↔
      isCmip o h n = false ∧ ∃ ws, HasAtt h n "time_avg_info" ws ∧ x ∈ ws := by
    cases hc : isCmip o h n with
    | true => simp
    | false =>
      simp only [← att_iff]
      cases hh : att h n "time_avg_info" with
      | none => simp
      | some l => simp
  rw [ha]
  constructor
  · rintro (⟨h1, ws, h2, h3⟩ | h1 | h1)
    · exact .average h1 h2 h3
    · exact .bounds ht h1
    · exact .climatology ht h1
  · rintro (⟨h1, h2, h3⟩ | ⟨h1, h2⟩ | ⟨h1, h2⟩)
    · exact .inl ⟨h1, _, h2, h3⟩
    · rw [ht] at h1; cases h1; exact .inr (.inl h2)
    · rw [ht] at h1; cases h1; exact .inr (.inr h2)

/-- `get` of what `ncks` writes -/
theorem ncks_get {f : Input α} {l : List String} {b : List (String × Bool × List α)} (h : ncks f l = some b) {x : String} (hx : x ∈ l) :
    b.find? (fun e => e.1 = x) = some (x, !isStatic f.head x && f.head.hasDims x, f.data x) := by
  unfold ncks at h
  split at h
  · cases h
    rw [List.find?_map]
    have : (l.find? ((fun e : String × Bool × List α => decide (e.1 = x)) ∘ fun n => (n, !isStatic f.head n && f.head.hasDims n, f.data n)))
        = some x := by
      show l.find? (fun n => decide (n = x)) = some x
      clear ‹∀ n ∈ l, f.head.has n = true›
      induction l with
      | nil => cases hx
      | cons a l ih =>
        rw [List.find?_cons]
        by_cases ha : a = x
        · simp [ha]
        · simp only [ha, decide_false]
          exact ih ((List.mem_cons.1 hx).resolve_left (Ne.symm ha))
    rw [this]
    rfl
  · cases h

theorem ncks_some {f : Input α} {l : List String} (h : ∀ x ∈ l, f.head.has x = true) : ∃ b, ncks f l = some b := by
  unfold ncks
  rw [if_pos h]
  exact ⟨_, rfl⟩

theorem ncks_names {f : Input α} {l : List String} {b : List (String × Bool × List α)} (h : ncks f l = some b) : b.map (·.1) = l := by
  unfold ncks at h
  split at h
  · cases h
    rw [List.map_map]
    exact (List.map_congr_left fun _ _ => rfl).trans (List.map_id l)
  · cases h

/-- `get` of what `ncrcat` writes -/
theorem ncrcat_get (a : Out α) (b : List (String × Bool × List α)) (x : String) : (ncrcat a b).get x =
    (a.get x).map fun e => if e.1 then (true, e.2 ++ (((b.find? fun e' => e'.1 = x).map (·.2.2)).getD [])) else e := by
  unfold ncrcat Out.get
  dsimp only
  rw [List.find?_map]
  have : ((fun e : String × Bool × List α => decide (e.1 = x)) ∘ fun e : String × Bool × List α => if e.2.1 then
      (e.1, true, e.2.2 ++ (((b.find? fun e' => e'.1 = e.1).map (·.2.2)).getD [])) else e) = fun e => decide (e.1 = x) := by
    funext e
    show decide ((if e.2.1 = true then _ else e).1 = x) = _
    by_cases he : e.2.1 = true
    · rw [if_pos he]
    · rw [if_neg he]
  rw [this]
  cases hf : a.vars.find? (fun e => decide (e.1 = x)) with
  | none => rfl
  | some e =>
    have hx : e.1 = x := by simpa using List.find?_some hf
    simp only [Option.map_some]
    by_cases he : e.2.1 = true
    · rw [if_pos he, if_pos he, hx]
    · rw [if_neg he, if_neg he]

end Verif.SplitVars
