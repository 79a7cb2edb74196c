import Verif.Model.TimavgScript
import Verif.Spec.TimavgScript
import Mathlib.Data.List.Basic
import Mathlib.Data.List.Infix
namespace Verif.TimavgScript
open Verif.Spec.Timavg (Group)

theorem kind_flag {c : Char} (h : c ∈ ['a', 'b', 'd', 'm', 'W']) : kind c = some false := by
  unfold kind; rw [if_pos]; simp only [List.mem_cons, List.not_mem_nil, or_false] at h ⊢; rcases h with h | h | h | h | h <;> simp [h]

theorem kind_arg {c : Char} (h : c ∈ ['o', 'w', 'z', 's']) : kind c = some true := by
  simp only [List.mem_cons, List.not_mem_nil, or_false] at h
  rcases h with h | h | h | h <;> subst h <;> decide

theorem getopts_flags (fl : List Char) (h : ∀ c ∈ fl, c ∈ ['a', 'b', 'd', 'm', 'W']) (tail : Word) (args : List Word) :
    getopts (fl ++ tail) args = (fl.map (fun c => Ev.opt c []) ++ (getopts tail args).1, (getopts tail args).2) := by
  induction fl with
  | nil => simp
  | cons c fl ih =>
    rw [List.cons_append, getopts.eq_def]
    simp only [kind_flag (h c (by simp)), ih (fun d hd => h d (by simp [hd])), List.map_cons, List.cons_append]

theorem dash_word (c : Char) (cs : Word) (rest : List Word) (h : c ≠ '-') : getopts [] (('-' :: c :: cs) :: rest) = getopts (c :: cs) rest := by
  rw [getopts]; rw [if_neg]; intro e; injection e with e1; exact h e1

theorem flag_ne_dash {c : Char} (h : c ∈ ['a', 'b', 'd', 'm', 'W'] ∨ c ∈ ['o', 'w', 'z', 's']) : c ≠ '-' := by
  rintro rfl; revert h; decide

/-- An option of the command line as an event. -/
def ev (p : Char × Word) : Ev := .opt p.1 p.2

theorem getopts_group (g : Group) (hg : g.WF) (rest : List Word) :
    getopts [] (g.words ++ rest) = (g.opts.map ev ++ (getopts [] rest).1, (getopts [] rest).2) := by
  obtain ⟨fl, arg⟩ := g
  obtain ⟨h1, h2, h3⟩ := hg
  simp only at h1 h2 h3
  have start : ∀ tail : Word, (fl ++ tail ≠ []) → (∀ c, tail.head? = some c → c ∈ ['o', 'w', 'z', 's']) → ∀ rest,
      getopts [] (('-' :: (fl ++ tail)) :: rest) = (fl.map (fun c => Ev.opt c []) ++ (getopts tail rest).1, (getopts tail rest).2) := by
    intro tail hne ht rest
    rw [← getopts_flags fl h1 tail rest]
    cases fl with
    | nil =>
      cases tail with
      | nil => simp at hne
      | cons c t => exact dash_word c t rest (flag_ne_dash (Or.inr (ht c rfl)))
    | cons c fl => exact dash_word c (fl ++ tail) rest (flag_ne_dash (Or.inl (h1 c (by simp))))
  match arg, h2, h3 with
  | none, h2, _ =>
    have := start [] (by simpa using fun e => h2 e) (by simp) rest
    simp only [List.append_nil] at this
    simp only [Group.words, Group.opts, List.singleton_append, this, List.append_nil, List.map_map]
    rfl
  | some (c, x, true), _, h3 =>
    obtain ⟨hc, hx⟩ := h3 c x true rfl
    have := start (c :: x) (by simp) (by simpa using hc) rest
    simp only [Group.words, Group.opts, List.singleton_append, this]
    rw [getopts.eq_def]
    simp only [kind_arg hc, ne_eq, hx rfl, not_false_eq_true, if_true, List.map_append, List.map_map, List.map_cons, List.map_nil, List.append_assoc]
    rfl
  | some (c, x, false), _, h3 =>
    obtain ⟨hc, -⟩ := h3 c x false rfl
    have := start [c] (by simp) (by simpa using hc) (x :: rest)
    simp only [Group.words, Group.opts, List.cons_append, List.nil_append, this]
    rw [getopts.eq_def]
    simp only [kind_arg hc, ne_eq, not_true_eq_false, if_false, List.map_append, List.map_map, List.map_cons, List.map_nil, List.append_assoc]
    rfl

theorem getopts_groups (gs : List Group) (hg : ∀ g ∈ gs, g.WF) (rest : List Word) :
    getopts [] (Spec.Timavg.words gs ++ rest) = ((Spec.Timavg.opts gs).map ev ++ (getopts [] rest).1, (getopts [] rest).2) := by
  induction gs with
  | nil => simp [Spec.Timavg.words, Spec.Timavg.opts]
  | cons g gs ih =>
    have := ih fun g' h => hg g' (by simp [h])
    simp only [Spec.Timavg.words, Spec.Timavg.opts, List.flatMap_cons, List.append_assoc, List.map_append] at this ⊢
    rw [getopts_group g (hg g (by simp)), this]

theorem getopts_files (f : Word) (fs : List Word) (h : f.head? ≠ some '-') : getopts [] (f :: fs) = ([], f :: fs) := by
  rw [getopts]
  rintro c cs rfl
  simp at h

theorem getopts_dashes (fs : List Word) : getopts [] (['-', '-'] :: fs) = ([], fs) := by
  rw [getopts]; simp

/-! ### options -/

/-- The last value wins. -/
def last (c : Char) (l : List (Char × Word)) (d : Word) : Word := l.foldl (fun d p => if p.1 = c then p.2 else d) d

theorem last_eq (c : Char) (l : List (Char × Word)) (d : Word) : last c l d = ((l.filter fun p => p.1 == c).getLast?.map Prod.snd).getD d := by
  induction l generalizing d with
  | nil => rfl
  | cons p l ih =>
    have h0 : last c (p :: l) d = last c l (if p.1 = c then p.2 else d) := rfl
    rw [h0, ih, List.filter_cons]
    by_cases h : p.1 = c
    · rw [if_pos h, if_pos (by simp [h])]
      cases hl : l.filter fun p => p.1 == c with
      | nil => rfl
      | cons q t => rw [List.getLast?_cons_cons, List.getLast?_eq_some_getLast (by simp)]; rfl
    · rw [if_neg h, if_neg (by simp [h])]

theorem options_ok (l : List (Char × Word)) (hl : ∀ p ∈ l, p.1 ∈ ['a', 'b', 'd', 'm', 'W'] ∨ p.1 ∈ ['o', 'w', 'z', 's']) (o : Opts) :
    options o (l.map ev) = .ok ⟨last 'o' l o.ofile, o.etime && !(l.any fun p => p.1 == 'm'), o.verbose || (l.any fun p => p.1 == 'd'),
      o.bounds || (l.any fun p => p.1 == 'b'), o.errors || (l.any fun p => p.1 == 'a'), o.noWarning || (l.any fun p => p.1 == 'W'),
      last 'w' l o.weight, last 'z' l o.deflation, last 's' l o.shuffle⟩ := by
  induction l generalizing o with
  | nil => simp [options, last]
  | cons p l ih =>
    obtain ⟨c, x⟩ := p
    have ih := ih fun q hq => hl q (by simp [hq])
    have hc := hl (c, x) (by simp)
    simp only [List.mem_cons, List.not_mem_nil, or_false] at hc
    have fl : ∀ (k : Char) (d : Word), last k ((c, x) :: l) d = last k l (if c = k then x else d) := fun _ _ => rfl
    simp only [List.map_cons, options, ev, fl, List.any_cons]
    rcases hc with (h | h | h | h | h) | (h | h | h | h) <;> subst h <;> simp [option, ih]

/-! ### words -/

theorem split_word (w : Word) (hw : w ≠ []) (h : ∀ c ∈ w, blank c = false) : split w = [w] := by
  induction w with
  | nil => exact absurd rfl hw
  | cons c w ih =>
    cases w with
    | nil => simp [split, h c (by simp)]
    | cons d t =>
      have e := ih (by simp) fun e he => h e (by simp [he])
      rw [split.eq_def]
      simp only [h c (by simp), Bool.false_eq_true, if_false, h d (by simp), e]

theorem split_append (w r : Word) (hw : w ≠ []) (h : ∀ c ∈ w, blank c = false) : split (w ++ ' ' :: r) = w :: split r := by
  induction w with
  | nil => exact absurd rfl hw
  | cons c w ih =>
    cases w with
    | nil =>
      have : split (' ' :: r) = split r := by rw [split.eq_def]; rfl
      rw [List.singleton_append, split.eq_def]
      simp only [h c (by simp), Bool.false_eq_true, if_false, show blank ' ' = true from rfl, if_true, this]
    | cons d t =>
      have e := ih (by simp) fun e he => h e (by simp [he])
      rw [List.cons_append] at e
      rw [List.cons_append, List.cons_append, split.eq_def]
      simp only [h c (by simp), Bool.false_eq_true, if_false, h d (by simp), e]

theorem split_join (ws : List Word) (h : ∀ w ∈ ws, w ≠ [] ∧ ∀ c ∈ w, blank c = false) : split (join ws) = ws := by
  induction ws with
  | nil => rfl
  | cons w ws ih =>
    have hw := h w (by simp)
    cases ws with
    | nil => exact split_word w hw.1 hw.2
    | cons v vs =>
      rw [join, split_append w _ hw.1 hw.2, ih fun u hu => h u (by simp [hu])]
      simp

/-! ### sed and tr -/

theorem sed_word (a : Bool) (m w : Word) (h : ∀ c ∈ w, graph c = true) : sed a (some m) w = '"' :: (m ++ w) ++ ['"'] := by
  induction w generalizing m with
  | nil => simp [sed]
  | cons c w ih => rw [sed, if_pos (h c (by simp)), ih _ fun d hd => h d (by simp [hd])]; simp

theorem sed_append (a : Bool) (m w r : Word) (h : ∀ c ∈ w, graph c = true) :
    sed a (some m) (w ++ ' ' :: r) = '"' :: (m ++ w) ++ '"' :: ' ' :: sed false none r := by
  induction w generalizing m with
  | nil => rw [List.nil_append, sed, if_neg (by decide)]; simp
  | cons c w ih => rw [List.cons_append, sed, if_pos (h c (by simp)), ih _ fun d hd => h d (by simp [hd])]; simp

theorem sed_join (ws : List Word) (hne : ws ≠ []) (h : ∀ w ∈ ws, w ≠ [] ∧ ∀ c ∈ w, graph c = true) :
    sed false none (join ws) = join (ws.map fun w => '"' :: w ++ ['"']) := by
  induction ws with
  | nil => exact absurd rfl hne
  | cons w ws ih =>
    obtain ⟨hw, hg⟩ := h w (by simp)
    obtain ⟨c, t, rfl⟩ := List.exists_cons_of_ne_nil hw
    have ht : ∀ d ∈ t, graph d = true := fun d hd => hg d (by simp [hd])
    cases ws with
    | nil => simp only [join, List.map]; rw [sed, if_pos (hg c (by simp)), sed_word _ _ _ ht]; simp
    | cons v vs =>
      have e := ih (by simp) fun u hu => h u (by simp [hu])
      simp only [List.map_cons, join] at e ⊢
      rw [List.cons_append, sed, if_pos (hg c (by simp)), sed_append _ _ _ _ ht, e]
      simp

theorem tr_word (w r : Word) (l : Bool) (hb : ∀ c ∈ w, c ≠ ' ') (hl : l = true → w.head? ≠ some ',') (hc : ¬ [',', ','] <:+: w) :
    tr l (w ++ '"' :: r) = w ++ '"' :: tr false r := by
  induction w generalizing l with
  | nil => rw [List.nil_append, tr, if_neg (by decide)]; rfl
  | cons c w ih =>
    rw [List.infix_cons_iff, not_or] at hc
    have hb' : ∀ d ∈ w, d ≠ ' ' := fun d hd => hb d (by simp [hd])
    rw [List.cons_append, tr]
    by_cases h : c = ','
    · subst h
      have : l = false := by cases l with | false => rfl | true => exact absurd rfl (hl rfl)
      subst this
      rw [if_pos (Or.inr rfl), if_neg (by decide), ih true hb' _ hc.2]
      · rfl
      · intro _ e
        apply hc.1
        cases w with
        | nil => simp at e
        | cons d t => simp only [List.head?_cons, Option.some.injEq] at e; subst e; exact ⟨t, rfl⟩
    · rw [if_neg (by rintro (e | e); exact hb c (by simp) e; exact h e), ih false hb' (by simp) hc.2]
      rfl

/-- The text of the namelist, with a comma before it. -/
def text (ws : List Word) : Word := ws.flatMap fun w => ',' :: '"' :: w ++ ['"']

theorem tr_join (ws : List Word) (hne : ws ≠ []) (h : ∀ w ∈ ws, (∀ c ∈ w, c ≠ ' ') ∧ ¬ [',', ','] <:+: w) :
    ',' :: tr false (join (ws.map fun w => '"' :: w ++ ['"'])) = text ws := by
  induction ws with
  | nil => exact absurd rfl hne
  | cons w ws ih =>
    obtain ⟨hb, hc⟩ := h w (by simp)
    have q : ∀ r, tr false ('"' :: (w ++ '"' :: r)) = '"' :: (w ++ '"' :: tr false r) := by
      intro r; rw [tr, if_neg (by decide), tr_word w r false hb (by simp) hc]
    cases ws with
    | nil =>
      have := q []
      simp only [List.map, join, text, List.flatMap_cons, List.flatMap_nil, List.append_nil, List.cons_append]
      rw [this]; simp [tr]
    | cons v vs =>
      have e := ih (by simp) fun u hu => h u (by simp [hu])
      simp only [List.map_cons, join, text, List.flatMap_cons, List.cons_append, List.append_assoc, List.nil_append] at e ⊢
      rw [q, tr, if_pos (Or.inl rfl), if_neg (by decide)]
      have e2 : ∀ w' : Word, tr true ('"' :: w') = tr false ('"' :: w') := fun w' => by rw [tr, tr, if_neg (by decide), if_neg (by decide)]
      have : tr true (join (('"' :: (v ++ ['"'])) :: List.map (fun w => '"' :: (w ++ ['"'])) vs)) =
          tr false (join (('"' :: (v ++ ['"'])) :: List.map (fun w => '"' :: (w ++ ['"'])) vs)) := by
        cases vs with
        | nil => exact e2 _
        | cons u us => exact e2 _
      rw [this, e]

/-! ### reading -/

theorem readString_word (acc w r : Word) (h : '"' ∉ w) : readString acc (w ++ '"' :: ',' :: r) = some (acc ++ w, ',' :: r) := by
  induction w generalizing acc with
  | nil => rw [List.nil_append, readString, if_pos (Or.inl rfl)] <;> simp
  | cons c w ih =>
    have hc : c ≠ '"' := by rintro rfl; simp at h
    rw [List.cons_append, readString, ih _ (by simp at h; exact h.2)]
    · simp
    all_goals (intros; simp_all)

theorem readStrings_text (ws : List Word) (h : ∀ w ∈ ws, '"' ∉ w) (fuel n : Nat) (hf : ws.length ≤ fuel) :
    readStrings fuel n (text ws ++ [',']) = (ws.take n, decide (n < ws.length)) := by
  induction ws generalizing fuel n with
  | nil => simp [text, readStrings]
  | cons w ws ih =>
    obtain ⟨fuel, rfl⟩ := Nat.exists_eq_succ_of_ne_zero (n := fuel) (by simp at hf; omega)
    have e : text (w :: ws) ++ [','] = ',' :: '"' :: (w ++ '"' :: (text ws ++ [','])) := by simp [text]
    rw [e, readStrings.eq_def]
    cases n with
    | zero => simp
    | succ n =>
      have : ∃ r, text ws ++ [','] = ',' :: r := by cases ws with | nil => exact ⟨[], rfl⟩ | cons v vs => exact ⟨_, rfl⟩
      obtain ⟨r, hr⟩ := this
      have hs := readString_word [] w r (h w (by simp))
      rw [← hr] at hs
      simp only [hs, ih (fun u hu => h u (by simp [hu])) fuel n (by simpa using hf), List.nil_append, List.take_succ_cons, List.length_cons, Nat.succ_lt_succ_iff]
    

theorem cut_id (w : Word) (h1 : w.length ≤ LEN) (h2 : w.getLast? ≠ some ' ') : cut w = w := by
  unfold cut
  rw [List.take_of_length_le h1]
  have : w.reverse.dropWhile (fun c => c == ' ') = w.reverse := by
    rw [← List.head?_reverse] at h2
    cases h : w.reverse with
    | nil => rfl
    | cons c t => rw [h] at h2; rw [List.dropWhile_cons_of_neg]; simpa using h2
  rw [this, List.reverse_reverse]

end Verif.TimavgScript
