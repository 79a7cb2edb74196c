import Verif.Lemmas.SplitVarsRun
import Mathlib.Data.List.Infix
namespace Verif.SplitVars
open Verif.Spec.SplitVars
variable {α : Type}

/-! ### Worlds at a stop -/

theorem write_error {ok : Nat → Bool} {f : Input α} {time : Option String} {n : String} {vl xl : List String} {w e : World α}
    (h : write ok f time n vl xl w = .error e) : e.removed = w.removed := by
  unfold write at h
  dsimp only at h
  cases hk : w.out ⟨n, f.tile, ""⟩ with
  | some a =>
    rw [hk] at h
    dsimp only at h
    by_cases ht : time = none
    · rw [if_pos ht] at h
      cases h
      rfl
    · rw [if_neg ht] at h
      revert h
      cases (if ok w.calls = true then ncks f vl else none) with
      | none => intro h; cases h
      | some b =>
        intro h
        dsimp only at h
        cases hok2 : ok (w.calls + 1) <;> simp [hok2] at h
  | none =>
    rw [hk] at h
    dsimp only at h
    revert h
    cases (if ok w.calls = true then ncks f vl else none) with
    | none => intro h; cases h
    | some b => intro h; cases h

theorem oneVar_error {o : Opts} {ok : Nat → Bool} {f : Input α} {time : Option String} {s : Lists × World α} {n : String} {e : World α}
    (h : oneVar o ok f time s n = .error e) : e.removed = s.2.removed := by
  obtain ⟨l, w⟩ := s
  unfold oneVar at h
  dsimp only at h
  cases hh : f.head.has n with
  | false =>
    simp only [hh, Bool.not_false, if_true] at h
    cases h
  | true =>
    simp only [hh, Bool.not_true, Bool.false_eq_true, if_false] at h
    cases hm : extra o f.head time n with
    | none =>
      simp only [hm] at h
      cases h
    | some m =>
      simp only [hm] at h
      cases ho : o.onefile with
      | true =>
        simp only [ho, if_true] at h
        cases h
      | false =>
        simp only [ho, Bool.false_eq_true, if_false] at h
        revert h
        generalize hw : write ok f time n _ _ w = r
        intro h
        cases r with
        | error e =>
          cases h
          exact write_error hw
        | ok w2 => cases h

theorem varLoop_error {o : Opts} {ok : Nat → Bool} {f : Input α} {time : Option String} {vs : List String} {s : Lists × World α} {e : World α}
    (h : varLoop o ok f time vs s = .error e) : e.removed = s.2.removed := by
  induction vs generalizing s with
  | nil => cases h
  | cons v vs ih =>
    unfold varLoop at h
    cases h1 : oneVar o ok f time s v with
    | error e' =>
      rw [h1] at h
      cases h
      exact oneVar_error h1
    | ok s1 =>
      rw [h1] at h
      exact (ih h).trans (oneVar_sound h1).2

theorem fileLoop_error {o : Opts} (ho : o.archive = false) {ok : Nat → Bool} {fs : List (Input α)} {k : Nat} {s : List String × World α}
    {e : World α} (h : fileLoop o ok fs k s = .error e) : e.removed = s.2.removed := by
  induction fs generalizing s k with
  | nil => cases h
  | cons f fs ih =>
    unfold fileLoop at h
    cases h1 : oneFile o ok s f k with
    | error e' =>
      rw [h1] at h
      cases h
      unfold oneFile at h1
      cases hr : f.readable with
      | false =>
        simp only [hr, Bool.not_false, if_true] at h1
        cases h1
      | true =>
        simp only [hr, Bool.not_true, Bool.false_eq_true, if_false] at h1
        cases h2 : varLoop o ok f (if o.static = true then none else f.head.unlimited) (nextList s.1 f) (⟨coords f.head, []⟩, s.2) with
        | error e2 =>
          rw [h2] at h1
          cases h1
          exact varLoop_error h2
        | ok s2 =>
          rw [h2] at h1
          cases h1
    | ok s1 =>
      rw [h1] at h
      rw [ih h, (oneFile_sound h1).2, ho]
      simp

/-! ### Names -/

theorem tile_prefix (base : List Char) (hb : ¬ ".tile".toList <:+: base) (hne : base ≠ []) (q : List Char) :
    ".tile".toList.isPrefixOf (base ++ (".tile".toList ++ q)) = false := by
  rw [← Bool.not_eq_true, List.isPrefixOf_iff_prefix]
  intro hp
  have htl : ".tile".toList = ['.', 't', 'i', 'l', 'e'] := by decide
  rw [htl] at hb hp
  by_cases hl : 5 ≤ base.length
  · exact hb ((List.prefix_of_prefix_length_le hp (List.prefix_append base _) hl).isInfix)
  · match base, hne, hl with
    | [a], _, _ => simp [List.cons_prefix_cons] at hp
    | [a, b], _, _ => simp [List.cons_prefix_cons] at hp
    | [a, b, c], _, _ => simp [List.cons_prefix_cons] at hp
    | [a, b, c, d], _, _ => simp [List.cons_prefix_cons] at hp
    | _ :: _ :: _ :: _ :: _ :: _, _, hl => simp at hl

theorem tileOf_spec (base : List Char) (hb : ¬ ".tile".toList <:+: base) (d : Char) (hd : d.isDigit = true) (q : List Char) :
    tileOf (base ++ (".tile".toList ++ d :: q)) = ".tile".toList ++ [d] := by
  have htl : ".tile".toList = ['.', 't', 'i', 'l', 'e'] := by decide
  induction base with
  | nil =>
    rw [htl]
    simp only [List.nil_append, List.cons_append]
    unfold tileOf
    rw [htl]
    simp [List.isPrefixOf, hd]
  | cons c base ih =>
    have h1 := tile_prefix (c :: base) hb (by simp) (d :: q)
    rw [List.cons_append] at h1 ⊢
    unfold tileOf
    rw [h1]
    exact ih fun h => hb (h.trans (List.suffix_cons c base).isInfix)

/-! ### Attributes -/

theorem get_create (l : Atts) (a v b : String) :
    Atts.get (Cmd.run l (.create a v)) b = if b = a then some ((l.get a).getD v) else l.get b := by
  unfold Cmd.run
  dsimp only
  cases h : l.get a with
  | some c =>
    simp only [Option.isSome_some, if_true, Option.getD_some]
    by_cases hb : b = a
    · rw [if_pos hb, hb, h]
    · rw [if_neg hb]
  | none =>
    simp only [Option.isSome_none, Bool.false_eq_true, if_false, Option.getD_none]
    unfold Atts.get at h ⊢
    rw [List.find?_append]
    by_cases hb : b = a
    · subst hb
      rw [Option.map_eq_none_iff] at h
      rw [h]
      simp
    · rw [if_neg hb]
      simp [Ne.symm hb]

theorem get_change (l : Atts) (a v b : String) :
    Atts.get (Cmd.run l (.change a v)) b = if b = a then (l.get a).map fun _ => v else l.get b := by
  unfold Cmd.run Atts.get
  dsimp only
  induction l with
  | nil => simp
  | cons e l ih =>
    rw [List.map_cons, List.find?_cons]
    by_cases he : e.1 = a
    · rw [if_pos he]
      by_cases hb : b = a
      · subst hb
        simp [he]
      · have hab : ¬ a = b := Ne.symm hb
        simp only [hab, decide_false, if_neg hb]
        rw [ih, if_neg hb, List.find?_cons]
        simp [he, hab]
    · rw [if_neg he]
      by_cases hb : b = a
      · subst hb
        simp only [he, decide_false]
        rw [ih, if_pos rfl, if_pos trivial, List.find?_cons]
        simp [he]
      · rw [if_neg hb, List.find?_cons]
        by_cases hc : e.1 = b
        · simp [hc]
        · simp only [hc, decide_false]
          rw [ih, if_neg hb]

theorem get_delete (l : Atts) (a b : String) : Atts.get (Cmd.run l (.delete a)) b = if b = a then none else l.get b := by
  unfold Cmd.run Atts.get
  dsimp only
  by_cases hb : b = a
  · subst hb
    rw [if_pos rfl, Option.map_eq_none_iff, List.find?_eq_none]
    intro e he
    simpa using (List.mem_filter.1 he).2
  · rw [if_neg hb]
    congr 1
    induction l with
    | nil => rfl
    | cons e l ih =>
      rw [List.filter_cons]
      by_cases he : e.1 = a
      · rw [if_neg (by simp [he]), ih, List.find?_cons]
        have : ¬ e.1 = b := fun h => hb (h.symm.trans he)
        simp [this]
      · rw [if_pos (by simp [he]), List.find?_cons, List.find?_cons, ih]

/-- The effect of a list of commands on one attribute -/
def after1 (b : String) (x : Option String) : Cmd → Option String
  | .create a v => if b = a then some (x.getD v) else x
  | .change a v => if b = a then x.map fun _ => v else x
  | .delete a => if b = a then none else x

theorem get_run (c : List Cmd) (l : Atts) (b : String) : Atts.get (c.foldl Cmd.run l) b = c.foldl (after1 b) (l.get b) := by
  induction c generalizing l with
  | nil => rfl
  | cons c cs ih =>
    rw [List.foldl_cons, List.foldl_cons, ih]
    congr 1
    cases c with
    | create a v =>
      rw [get_create]
      unfold after1
      by_cases h : b = a
      · subst h; rfl
      · simp [h]
    | change a v =>
      rw [get_change]
      unfold after1
      by_cases h : b = a
      · subst h; rfl
      · simp [h]
    | delete a =>
      rw [get_delete]
      rfl

/-- The attribute of a command -/
def Cmd.att : Cmd → String
  | .create a _ => a
  | .change a _ => a
  | .delete a => a

theorem untouched (b : String) (c : List Cmd) (h : ∀ e ∈ c, b ≠ e.att) (x : Option String) : c.foldl (after1 b) x = x := by
  induction c generalizing x with
  | nil => rfl
  | cons e c ih =>
    rw [List.foldl_cons]
    have he : after1 b x e = x := by
      have := h e (List.mem_cons_self ..)
      cases e <;> simp [after1, Cmd.att] at this ⊢ <;> simp [this]
    rw [he]
    exact ih (fun e he => h e (List.mem_cons_of_mem _ he)) x

def cart (l : Atts) : List Cmd := match l.text "cartesian_axis" with
  | some c => (if c ≠ "N" ∧ (l.text "axis").isNone then [.create "axis" c] else []) ++ [.delete "cartesian_axis"]
  | none => []
def cal (lc : String → String) (l : Atts) : List Cmd := match l.text "calendar" with
  | some c => if c ≠ lc c then [.change "calendar" (lc c)] else []
  | none => if (l.text "calendar_type").isSome then [.create "calendar" (lc "")] else []
def calt (l : Atts) : List Cmd := if (l.text "calendar_type").isSome then [.delete "calendar_type"] else []
def units (lc : String → String) (l : Atts) : List Cmd := match l.text "units" with
  | some u => if lc u = "none" then [.change "units" "1"] else []
  | none => []
def stdn (dim : String) (l : Atts) : List Cmd := [("latitude", "lat"), ("longitude", "lon")].flatMap fun p =>
  if (dim = p.1 ∨ dim = p.2) ∧ (l.text "standard_name").isNone then [.create "standard_name" p.1] else []

theorem cleanup_eq (lc : String → String) (dim : String) (l : Atts) :
    cleanup lc dim l = cart l ++ cal lc l ++ calt l ++ units lc l ++ stdn dim l := rfl

theorem cart_att (l : Atts) : ∀ e ∈ cart l, e.att = "axis" ∨ e.att = "cartesian_axis" := by
  unfold cart
  cases l.text "cartesian_axis" with
  | none => simp
  | some c =>
    intro e he
    rcases List.mem_append.1 he with h | h
    · by_cases hc : c ≠ "N" ∧ (l.text "axis").isNone
      · rw [if_pos hc, List.mem_singleton] at h
        subst h
        exact .inl rfl
      · rw [if_neg hc] at h
        cases h
    · rw [List.mem_singleton] at h
      subst h
      exact .inr rfl

theorem cal_att (lc : String → String) (l : Atts) : ∀ e ∈ cal lc l, e.att = "calendar" := by
  unfold cal
  cases l.text "calendar" with
  | none =>
    intro e he
    cases h : (l.text "calendar_type").isSome <;> simp [h] at he
    subst he
    rfl
  | some c =>
    intro e he
    by_cases hc : c ≠ lc c
    · simp only [if_pos hc, List.mem_singleton] at he
      subst he
      rfl
    · simp only [if_neg hc] at he
      cases he

theorem calt_att (l : Atts) : ∀ e ∈ calt l, e.att = "calendar_type" := by
  unfold calt
  intro e he
  cases h : (l.text "calendar_type").isSome <;> simp [h] at he
  subst he
  rfl

theorem units_att (lc : String → String) (l : Atts) : ∀ e ∈ units lc l, e.att = "units" := by
  unfold units
  cases l.text "units" with
  | none => simp
  | some c =>
    intro e he
    by_cases hc : lc c = "none"
    · simp only [if_pos hc, List.mem_singleton] at he
      subst he
      rfl
    · simp only [if_neg hc] at he
      cases he

theorem stdn_att (dim : String) (l : Atts) : ∀ e ∈ stdn dim l, e.att = "standard_name" := by
  unfold stdn
  intro e he
  obtain ⟨p, _, hp⟩ := List.mem_flatMap.1 he
  by_cases hc : (dim = p.1 ∨ dim = p.2) ∧ (l.text "standard_name").isNone
  · rw [if_pos hc, List.mem_singleton] at hp
    subst hp
    rfl
  · rw [if_neg hc] at hp
    cases hp

theorem cleaned_get (lc : String → String) (dim : String) (l : Atts) (b : String) : (cleaned lc dim l).get b =
    (stdn dim l).foldl (after1 b) ((units lc l).foldl (after1 b) ((calt l).foldl (after1 b) ((cal lc l).foldl (after1 b)
      ((cart l).foldl (after1 b) (l.get b))))) := by
  unfold cleaned
  rw [get_run, cleanup_eq]
  simp only [List.foldl_append]

theorem skip_cart {b : String} (l : Atts) (h1 : b ≠ "axis") (h2 : b ≠ "cartesian_axis") (x : Option String) :
    (cart l).foldl (after1 b) x = x := untouched b _ (fun e he => by rcases cart_att l e he with h | h <;> rw [h] <;> assumption) x
theorem skip_cal {b : String} (lc : String → String) (l : Atts) (h : b ≠ "calendar") (x : Option String) :
    (cal lc l).foldl (after1 b) x = x := untouched b _ (fun e he => by rw [cal_att lc l e he]; exact h) x
theorem skip_calt {b : String} (l : Atts) (h : b ≠ "calendar_type") (x : Option String) :
    (calt l).foldl (after1 b) x = x := untouched b _ (fun e he => by rw [calt_att l e he]; exact h) x
theorem skip_units {b : String} (lc : String → String) (l : Atts) (h : b ≠ "units") (x : Option String) :
    (units lc l).foldl (after1 b) x = x := untouched b _ (fun e he => by rw [units_att lc l e he]; exact h) x
theorem skip_stdn {b : String} (dim : String) (l : Atts) (h : b ≠ "standard_name") (x : Option String) :
    (stdn dim l).foldl (after1 b) x = x := untouched b _ (fun e he => by rw [stdn_att dim l e he]; exact h) x

theorem cleaned_calendar (lc : String → String) (dim : String) (l : Atts) (hl : ∀ a, l.get a ≠ some "") :
    (cleaned lc dim l).get "calendar" = match l.get "calendar" with
      | some c => some (lc c)
      | none => (l.get "calendar_type").map fun _ => lc "" := by
  have ht : ∀ a, l.text a = l.get a := by
    intro a
    unfold Atts.text
    cases h : l.get a with
    | none => rfl
    | some c => simp [Option.filter, show c ≠ "" from fun h0 => hl a (h0 ▸ h)]
  rw [cleaned_get, skip_stdn _ _ (by decide), skip_units _ _ (by decide), skip_calt _ (by decide), skip_cart _ (by decide) (by decide)]
  unfold cal
  rw [ht, ht]
  cases h : l.get "calendar" with
  | some c =>
    by_cases hc : c = lc c
    · simp [← hc]
    · simp [after1, hc]
  | none => cases h2 : l.get "calendar_type" <;> simp [after1]

end Verif.SplitVars
