import Verif.Model.ScatterOptions
import Verif.Model.CombineDriver
import Verif.Spec.ScatterOptions
import Verif.Props.Regional
import Verif.Lemmas.CombineDriver
import Mathlib.Data.List.Nodup
import Mathlib.Data.List.Basic
import Mathlib.Data.List.Dedup
/-
C138: options of mppncscatter and names of its files. The model is in Model/ScatterOptions, the command lines in Spec/ScatterOptions, mppnccombine in Model/CombineDriver (C13, C14).
-/
namespace Verif
open ScatterOptions
open Spec.ScatterOptions (Item words opts files given value valued)

/-! ### Options -/

namespace ScatterOptions

def ev (p : Char × List Char) : Ev := .opt p.1 p.2

theorem kind_flag {c : Char} (h : c = 'n' ∨ c = 'V') : kind c = some false := by rcases h with rfl | rfl <;> decide

theorem kind_valued {c : Char} (h : c ∈ valued.map Prod.fst) : kind c = some true := by
  simp only [valued, List.map_cons, List.map_nil, List.mem_cons, List.not_mem_nil, or_false] at h
  rcases h with h | h | h | h | h | h | h | h | h <;> subst h <;> decide

theorem getopt_flags (fl : List Char) (h : ∀ c ∈ fl, c = 'n' ∨ c = 'V') (tail : Word) (args : List Word) :
    getopt (fl ++ tail) args = (fl.map (fun c => Ev.opt c []) ++ (getopt tail args).1, (getopt tail args).2) := by
  induction fl with
  | nil => simp
  | cons c fl ih =>
    rw [List.cons_append, getopt.eq_def]
    simp only [kind_flag (h c (by simp)), ih (fun d hd => h d (by simp [hd])), List.map_cons, List.cons_append]

theorem dash_word (c : Char) (cs : Word) (rest : List Word) (h : c ≠ '-') : getopt [] (('-' :: c :: cs) :: rest) = getopt (c :: cs) rest := by
  rw [getopt.eq_def]
  dsimp only
  split <;> simp_all

theorem valued_ne_dash {c : Char} (h : c ∈ valued.map Prod.fst) : c ≠ '-' := by rintro rfl; revert h; decide

theorem find_long {c : Char} {name : Word} (h : (c, name) ∈ valued) (t : Word) :
    (name ++ '=' :: t).takeWhile (· ≠ '=') = name ∧ (name ++ '=' :: t).dropWhile (· ≠ '=') = '=' :: t ∧ name.takeWhile (· ≠ '=') = name ∧ name.dropWhile (· ≠ '=') = [] ∧
      findLong name = some c ∧ name ≠ [] := by
  simp only [valued, List.mem_cons, List.not_mem_nil, or_false, Prod.mk.injEq] at h
  rcases h with ⟨rfl, rfl⟩ | ⟨rfl, rfl⟩ | ⟨rfl, rfl⟩ | ⟨rfl, rfl⟩ | ⟨rfl, rfl⟩ | ⟨rfl, rfl⟩ | ⟨rfl, rfl⟩ | ⟨rfl, rfl⟩ | ⟨rfl, rfl⟩ <;>
    exact ⟨rfl, rfl, rfl, rfl, by decide, by decide⟩

theorem getopt_item (i : Item) (hi : i.WF) (rest : List Word) :
    getopt [] (i.words ++ rest) = (i.opts.map ev ++ (getopt [] rest).1, i.files ++ (getopt [] rest).2) := by
  cases i with
  | file f =>
    have hf : f.head? ≠ some '-' := hi
    simp only [Item.words, Item.opts, Item.files, List.singleton_append, List.map_nil, List.nil_append]
    rw [getopt.eq_def]
    dsimp only
    split <;> first | rfl | simp_all
  | long c name x joined =>
    obtain ⟨h1, h2, h3, h4, h5, h6⟩ := find_long hi x
    have hk := kind_valued (List.mem_map.2 ⟨_, hi, rfl⟩ : c ∈ valued.map Prod.fst)
    obtain ⟨a, b, rfl⟩ := List.exists_cons_of_ne_nil h6
    cases joined with
    | true =>
      simp only [Item.words, Item.opts, Item.files, List.singleton_append, List.nil_append, List.map_cons, List.map_nil]
      rw [getopt.eq_def]
      simp only [List.cons_append] at h1 h2 ⊢
      simp only [h1, h2, h5, hk]
      rfl
    | false =>
      simp only [Item.words, Item.opts, Item.files, List.cons_append, List.nil_append, List.map_cons, List.map_nil]
      rw [getopt.eq_def]
      simp only [h3, h4, h5, hk]
      rfl
  | short fl arg =>
    obtain ⟨h1, h2, h3⟩ := hi
    have start : ∀ tail : Word, (fl ++ tail ≠ []) → (∀ c, tail.head? = some c → c ∈ valued.map Prod.fst) → ∀ rest,
        getopt [] (('-' :: (fl ++ tail)) :: rest) = (fl.map (fun c => Ev.opt c []) ++ (getopt tail rest).1, (getopt tail rest).2) := by
      intro tail hne ht rest
      rw [← getopt_flags fl h1 tail rest]
      cases fl with
      | nil =>
        cases tail with
        | nil => simp at hne
        | cons c t => exact dash_word c t rest (valued_ne_dash (ht c rfl))
      | cons c fl => exact dash_word c (fl ++ tail) rest (by rcases h1 c (by simp) with rfl | rfl <;> decide)
    match arg, h2, h3 with
    | none, h2, _ =>
      have := start [] (by simpa using fun e => h2 e) (by simp) rest
      simp only [List.append_nil] at this
      simp only [Item.words, Item.opts, Item.files, List.singleton_append, this, List.map_map, List.nil_append]
      rfl
    | some (c, x, true), _, h3 =>
      obtain ⟨hc, hx⟩ := h3 c x true rfl
      have := start (c :: x) (by simp) (by simpa using hc) rest
      simp only [Item.words, Item.opts, Item.files, List.singleton_append, this]
      rw [getopt.eq_def]
      simp only [kind_valued hc, ne_eq, hx rfl, not_false_eq_true, if_true, List.map_append, List.map_map, List.map_cons, List.map_nil, List.append_assoc, List.nil_append]
      rfl
    | some (c, x, false), _, h3 =>
      obtain ⟨hc, -⟩ := h3 c x false rfl
      have := start [c] (by simp) (by simpa using hc) (x :: rest)
      simp only [Item.words, Item.opts, Item.files, List.cons_append, List.nil_append, this]
      rw [getopt.eq_def]
      simp only [kind_valued hc, ne_eq, not_true_eq_false, if_false, List.map_append, List.map_map, List.map_cons, List.map_nil, List.append_assoc]
      rfl

theorem getopt_items (l : List Item) (hl : ∀ i ∈ l, i.WF) (rest : List Word) :
    getopt [] (words l ++ rest) = ((opts l).map ev ++ (getopt [] rest).1, files l ++ (getopt [] rest).2) := by
  induction l with
  | nil => simp [words, opts, files]
  | cons i l ih =>
    have := ih fun j hj => hl j (by simp [hj])
    simp only [words, opts, files, List.flatMap_cons, List.append_assoc, List.map_append] at this ⊢
    rw [getopt_item i (hl i (by simp)), this]

/-- The last value, if there is one. -/
def last {β : Type} (p : Char → Bool) (g : List Char → β) (l : List (Char × List Char)) (d : β) : β := l.foldl (fun d q => if p q.1 then g q.2 else d) d

theorem last_eq {β : Type} (p : Char → Bool) (g : List Char → β) (l : List (Char × List Char)) (d : β) :
    last p g l d = ((l.filter fun q => p q.1).getLast?.map fun q => g q.2).getD d := by
  induction l generalizing d with
  | nil => rfl
  | cons q l ih =>
    have h0 : last p g (q :: l) d = last p g l (if p q.1 then g q.2 else d) := rfl
    rw [h0, ih, List.filter_cons]
    by_cases h : p q.1 = true
    · rw [if_pos h, if_pos h]
      cases hl : l.filter fun q => p q.1 with
      | nil => rfl
      | cons r t => rw [List.getLast?_cons_cons, List.getLast?_eq_some_getLast (by simp)]; rfl
    · rw [if_neg h, if_neg h]

theorem letters {l : List Item} (hl : ∀ i ∈ l, i.WF) : ∀ p ∈ opts l, (p.1 = 'n' ∨ p.1 = 'V') ∨ p.1 ∈ valued.map Prod.fst := by
  intro p hp
  obtain ⟨i, hi, hp⟩ := List.mem_flatMap.1 hp
  have hw := hl i hi
  match i, hw, hp with
  | .file f, _, hp => simp [Item.opts] at hp
  | .long c name x j, hw, hp => simp [Item.opts] at hp; subst hp; exact Or.inr (List.mem_map.2 ⟨_, hw, rfl⟩)
  | .short fl none, hw, hp =>
    simp only [Item.opts] at hp
    obtain ⟨c, hc, rfl⟩ := List.mem_map.1 hp
    exact Or.inl (hw.1 c hc)
  | .short fl (some (c, x, j)), hw, hp =>
    simp only [Item.opts] at hp
    rcases List.mem_append.1 hp with h | h
    · obtain ⟨c, hc, rfl⟩ := List.mem_map.1 h
      exact Or.inl (hw.1 c hc)
    · simp at h; subst h; exact Or.inr (hw.2.2 c x j rfl).1

theorem fold_step (l : List (Char × List Char)) (hl : ∀ p ∈ l, (p.1 = 'n' ∨ p.1 = 'V') ∨ p.1 ∈ valued.map Prod.fst) (o : Opts) :
    (l.map ev).foldl step o = ⟨o.dryrun || l.any (fun p => p.1 == 'n'), o.help, o.version, o.verbose || l.any (fun p => p.1 == 'V'),
      last (· == 'x') atoi l o.nx, last (· == 'y') atoi l o.ny, last (· == 'i') atoi l o.nxio, last (· == 'j') atoi l o.nyio, last (· == 'p') some l o.pre,
      last (fun c => c == 's' || c == 'p') atoi l o.start, last (· == 'w') atoi l o.width, last (· == 'X') some l o.xdims, last (· == 'Y') some l o.ydims⟩ := by
  induction l generalizing o with
  | nil => simp [last]
  | cons p l ih =>
    obtain ⟨c, x⟩ := p
    have ih := ih fun q hq => hl q (by simp [hq])
    have hc := hl (c, x) (by simp)
    simp only [valued, List.map_cons, List.map_nil, List.mem_cons, List.not_mem_nil, or_false] at hc
    have fl : ∀ {β : Type} (k : Char → Bool) (g : List Char → β) (d : β), last k g ((c, x) :: l) d = last k g l (if k c then g x else d) := fun _ _ _ => rfl
    simp only [List.map_cons, List.foldl_cons, ev, fl, List.any_cons, ih]
    rcases hc with (h | h) | (h | h | h | h | h | h | h | h | h) <;> subst h <;> simp [step]

end ScatterOptions

/-- What the options mean, with the given first number. -/
def c138_meaning (l : List Item) (start : Int) : Opts :=
  { dryrun := given l 'n', verbose := given l 'V', nx := ((value l 'x').map atoi).getD 0, ny := ((value l 'y').map atoi).getD 0, nxio := ((value l 'i').map atoi).getD 0,
    nyio := ((value l 'j').map atoi).getD 0, pre := value l 'p', start := start, width := ((value l 'w').map atoi).getD 4, xdims := value l 'X', ydims := value l 'Y' }

theorem c138_fold (l : List Item) (hl : ∀ i ∈ l, i.WF) :
    ((opts l).map ScatterOptions.ev).foldl step {} =
      c138_meaning l ((((opts l).filter fun p => p.1 == 's' || p.1 == 'p').getLast?.map fun p => atoi p.2).getD 0) := by
  rw [fold_step _ (letters hl)]
  have hs : ∀ c, (((opts l).filter fun p => p.1 == c).getLast?.map fun p => some p.2).getD none = value l c := by
    intro c; unfold value; cases ((opts l).filter fun p => p.1 == c).getLast? <;> rfl
  simp only [last_eq, c138_meaning, Bool.false_or, given, hs]
  unfold value
  simp only [Option.map_map]
  rfl

/-- C138: options may be written in short or long form, in one word or two, before or after the input file; of an option given several times the last one counts; the first operand is
the input file. Partial: without `-p`. -/
theorem C138_options_partial (l : List Item) (hl : ∀ i ∈ l, i.WF) {f : List Char} {fs : List (List Char)} (hf : files l = f :: fs) (hp : given l 'p' = false) :
    getmnsopts (words l) = some (c138_meaning l (((value l 's').map atoi).getD 0), f) := by
  have h := getopt_items l hl []
  have h0 : getopt [] [] = ([], []) := by rw [getopt]
  simp only [h0, List.append_nil] at h
  unfold getmnsopts
  have he : (opts l).filter (fun p => p.1 == 's' || p.1 == 'p') = (opts l).filter fun p => p.1 == 's' := by
    apply List.filter_congr
    intro p hp'
    have := List.any_eq_false.1 hp p hp'
    simp only [Bool.not_eq_true] at this
    simp [this]
  simp only [h, c138_fold l hl, hf, he]
  unfold value
  simp only [Option.map_map]
  rfl

/-- C138: with `-p` all the other options keep their meaning, but the first number is that of the last of the options `-s` and `-p`: the path is read as a number. -/
theorem C138_start (l : List Item) (hl : ∀ i ∈ l, i.WF) {f : List Char} {fs : List (List Char)} (hf : files l = f :: fs) :
    getmnsopts (words l) = some (c138_meaning l ((((opts l).filter fun p => p.1 == 's' || p.1 == 'p').getLast?.map fun p => atoi p.2).getD 0), f) := by
  have h := getopt_items l hl []
  have h0 : getopt [] [] = ([], []) := by rw [getopt]
  simp only [h0, List.append_nil] at h
  unfold getmnsopts
  simp only [h, c138_fold l hl, hf]
  rfl

/-- C138: without an input file nothing is done. -/
theorem C138_no_file (l : List Item) (hl : ∀ i ∈ l, i.WF) (hf : files l = []) : getmnsopts (words l) = none := by
  have h := getopt_items l hl []
  have h0 : getopt [] [] = ([], []) := by rw [getopt]
  simp only [h0, List.append_nil] at h
  unfold getmnsopts
  simp only [h, hf]
  split <;> rfl

theorem c138_help_keeps (es : List Ev) (o : Opts) (h : o.help = true) : (es.foldl step o).help = true := by
  induction es generalizing o with
  | nil => exact h
  | cons e es ih =>
    apply ih
    cases e with
    | bad => rfl
    | opt c x =>
      simp only [step, apply_ite Opts.help, h, ite_self]

/-- C138: an unknown letter, or an option whose value is missing, ends the call before anything is written. -/
theorem C138_refused (l : List Item) (hl : ∀ i ∈ l, i.WF) (c : Char) (tail : List Char) (rest : List (List Char))
    (h : (c ∉ ['h', 'n', 'v', 'V', 'i', 'j', 'p', 's', 'w', 'x', 'y', 'X', 'Y', '-']) ∨ (c ∈ valued.map Prod.fst ∧ tail = [] ∧ rest = [])) :
    getmnsopts (words l ++ ('-' :: c :: tail) :: rest) = none := by
  have hd : c ≠ '-' := by
    rcases h with h | h
    · rintro rfl; simp at h
    · exact valued_ne_dash h.1
  have hb : ∃ es, (getopt (c :: tail) rest).1 = .bad :: es := by
    rcases h with h | ⟨h, rfl, rfl⟩
    · have hk : kind c = none := by
        simp only [List.mem_cons, List.not_mem_nil, or_false, not_or] at h
        unfold kind
        rw [if_neg, if_neg] <;> simp only [List.mem_cons, List.not_mem_nil, or_false] <;> tauto
      rw [getopt.eq_def]; simp [hk]
    · rw [getopt.eq_def]; simp [kind_valued h]
  obtain ⟨es, he⟩ := hb
  unfold getmnsopts
  rw [getopt_items l hl, ScatterOptions.dash_word c tail rest hd]
  simp only [he]
  rw [List.foldl_append]
  have := c138_help_keeps es (step (((opts l).map ScatterOptions.ev).foldl step {}) .bad) rfl
  rw [List.foldl_cons, this]
  rfl

/-- C138: so does a long option which is unknown, which is the beginning of options of different letters without being one itself, or which has a value although it takes none. -/
theorem C138_long_refused (l : List Item) (hl : ∀ i ∈ l, i.WF) (name tail : List Char) (rest : List (List Char)) (hne : name ≠ []) (heq : '=' ∉ name)
    (h : (¬ ∃ p ∈ longOptions, name <+: p.1) ∨ ((∀ p ∈ longOptions, p.1 ≠ name) ∧ ∃ p ∈ longOptions, ∃ q ∈ longOptions, name <+: p.1 ∧ name <+: q.1 ∧ p.2 ≠ q.2) ∨
      ((∃ x, tail = '=' :: x) ∧ name ∈ ["help".toList, "usage".toList, "dry-run".toList, "version".toList, "verbose".toList])) (htail : tail = [] ∨ ∃ x, tail = '=' :: x) :
    getmnsopts (words l ++ ('-' :: '-' :: (name ++ tail)) :: rest) = none := by
  have htw : (name ++ tail).takeWhile (· ≠ '=') = name := by
    rw [List.takeWhile_append_of_pos (by simpa using fun (a : Char) (ha : a ∈ name) (e : a = '=') => heq (e ▸ ha))]
    rcases htail with rfl | ⟨x, rfl⟩ <;> simp
  have hdw : (name ++ tail).dropWhile (· ≠ '=') = tail := by
    have := List.takeWhile_append_dropWhile (p := fun c => decide (c ≠ '=')) (l := name ++ tail)
    rw [htw] at this
    exact List.append_cancel_left this
  have hb : ∃ es, (getopt [] (('-' :: '-' :: (name ++ tail)) :: rest)).1 = .bad :: es := by
    obtain ⟨a, b, rfl⟩ := List.exists_cons_of_ne_nil hne
    have hfind : findLong (a :: b) = none ∨ ∃ x c, tail = '=' :: x ∧ findLong (a :: b) = some c ∧ kind c = some false := by
      rcases h with h | ⟨hn, p, hp, q, hq, h1, h2, h3⟩ | ⟨⟨x, hx⟩, hm⟩
      · left
        unfold findLong
        have e1 : longOptions.find? (fun p => p.1 == a :: b) = none := by
          rw [List.find?_eq_none]
          intro p hp hpe
          exact h ⟨p, hp, by rw [eq_of_beq hpe]⟩
        have e2 : longOptions.filter (fun p => (a :: b).isPrefixOf p.1) = [] := by
          rw [List.filter_eq_nil_iff]
          intro p hp hpe
          exact h ⟨p, hp, List.isPrefixOf_iff_prefix.1 hpe⟩
        rw [e1, e2]
        rfl
      · left
        unfold findLong
        have e1 : longOptions.find? (fun p => p.1 == a :: b) = none := by
          rw [List.find?_eq_none]
          intro p hp hpe
          exact hn p hp (eq_of_beq hpe)
        rw [e1]
        simp only
        have mem : ∀ r ∈ longOptions, (a :: b) <+: r.1 → r.2 ∈ ((longOptions.filter fun p => (a :: b).isPrefixOf p.1).map Prod.snd).dedup := by
          intro r hr hpre
          rw [List.mem_dedup]
          exact List.mem_map.2 ⟨r, List.mem_filter.2 ⟨hr, List.isPrefixOf_iff_prefix.2 hpre⟩, rfl⟩
        have m1 := mem p hp h1
        have m2 := mem q hq h2
        generalize ((longOptions.filter fun p => (a :: b).isPrefixOf p.1).map Prod.snd).dedup = L at m1 m2
        match L, m1, m2 with
        | [], m1, _ => simp at m1
        | [c], m1, m2 => exact absurd ((List.mem_singleton.1 m1).trans (List.mem_singleton.1 m2).symm) h3
        | _ :: _ :: _, _, _ => rfl
      · right
        simp only [List.mem_cons, List.not_mem_nil, or_false] at hm
        rcases hm with hm | hm | hm | hm | hm <;> rw [hm]
        · exact ⟨x, 'h', hx, by decide, by decide⟩
        · exact ⟨x, 'h', hx, by decide, by decide⟩
        · exact ⟨x, 'n', hx, by decide, by decide⟩
        · exact ⟨x, 'v', hx, by decide, by decide⟩
        · exact ⟨x, 'V', hx, by decide, by decide⟩
    rw [getopt.eq_def]
    simp only [List.cons_append] at htw hdw ⊢
    rcases hfind with hf | ⟨x, c, rfl, hf, hk⟩
    · simp only [htw, hdw, hf]
      exact ⟨_, rfl⟩
    · simp only [htw, hdw, hf, hk, if_true]
      exact ⟨_, rfl⟩
  obtain ⟨es, he⟩ := hb
  unfold getmnsopts
  rw [getopt_items l hl]
  simp only [he]
  rw [List.foldl_append]
  have := c138_help_keeps es (step (((opts l).map ScatterOptions.ev).foldl step {}) .bad) rfl
  rw [List.foldl_cons, this]
  rfl

/-- `--ver` may be `--version` or `--verbose`. -/
example : getmnsopts ["--ver".toList, "in.nc".toList] = none := by
  refine C138_long_refused [] (by simp) "ver".toList [] ["in.nc".toList] (by simp) (by decide) (Or.inr (Or.inl ⟨by decide, ?_⟩)) (Or.inl rfl)
  exact ⟨("version".toList, 'v'), by decide, ("verbose".toList, 'V'), by decide, by decide, by decide, by decide⟩

theorem c138_version_keeps (es : List Ev) (o : Opts) (h : o.version = true) : (es.foldl step o).version = true := by
  induction es generalizing o with
  | nil => exact h
  | cons e es ih =>
    apply ih
    cases e with
    | bad => exact h
    | opt c x =>
      simp only [step, apply_ite Opts.version, h, ite_self]

/-- C138: with `-h` or `-v` nothing is scattered, whatever else is given. -/
theorem C138_help_version (l : List Item) (hl : ∀ i ∈ l, i.WF) (c : Char) (hc : c = 'h' ∨ c = 'v') (tail : List Char) (rest : List (List Char)) :
    getmnsopts (words l ++ ('-' :: c :: tail) :: rest) = none := by
  have hk : kind c = some false := by rcases hc with rfl | rfl <;> decide
  have hb : (getopt (c :: tail) rest).1 = .opt c [] :: (getopt tail rest).1 := by rw [getopt.eq_def]; simp [hk]
  unfold getmnsopts
  rw [getopt_items l hl, ScatterOptions.dash_word c tail rest (by rcases hc with rfl | rfl <;> decide)]
  simp only [hb]
  rw [List.foldl_append, List.foldl_cons]
  rcases hc with rfl | rfl
  · have := c138_help_keeps (getopt tail rest).1 (step (((opts l).map ScatterOptions.ev).foldl step {}) (.opt 'h' [])) rfl
    rw [this]; rfl
  · have := c138_version_keeps (getopt tail rest).1 (step (((opts l).map ScatterOptions.ev).foldl step {}) (.opt 'v' [])) rfl
    rw [this, Bool.or_true]; rfl

/-- C138: a value written in decimal digits, with or without `-` before it, has this value. -/
theorem C138_number (n : Nat) : atoi (Nat.toDigits 10 n) = n ∧ atoi ('-' :: Nat.toDigits 10 n) = -n := by
  have hv : ∀ (w : List Char) (k : Nat), (∀ c ∈ w, c.isDigit = true) → digitsVal k w = Nat.ofDigitChars 10 w k := by
    intro w
    induction w with
    | nil => intro k _; rfl
    | cons c w ih =>
      intro k h
      rw [digitsVal, if_pos (h c (by simp)), Nat.ofDigitChars_cons, ih _ fun d hd => h d (by simp [hd])]
  have hd : ∀ c ∈ Nat.toDigits 10 n, c.isDigit = true := fun c hc => Nat.isDigit_of_mem_toDigits (by omega) (by omega) hc
  have e : digitsVal 0 (Nat.toDigits 10 n) = n := by rw [hv _ _ hd]; exact Nat.ofDigitChars_toDigits (by omega) (by omega)
  constructor
  · unfold atoi
    cases hw : Nat.toDigits 10 n with
    | nil => rw [hw] at e; simpa using e
    | cons c t =>
      have hc := hd c (by rw [hw]; simp)
      have ne : ∀ d : Char, d.isDigit = false → c ≠ d := by rintro d hd' rfl; rw [hc] at hd'; cases hd'
      rw [List.dropWhile_cons_of_neg (by simp [ne ' ' (by decide), ne '\t' (by decide), ne '\n' (by decide)])]
      split
      · rename_i h; injection h with h; exact absurd h (ne '-' (by decide))
      · rename_i h; injection h with h; exact absurd h (ne '+' (by decide))
      · rw [← hw, e]
  · have : atoi ('-' :: Nat.toDigits 10 n) = -(digitsVal 0 (Nat.toDigits 10 n) : Int) := rfl
    rw [this, e]

/-- C138, wrong: in `-s 3 -p out in.nc` the first number 3 is lost, in `-p out -s 3 in.nc` it is kept; `-p 2024/jan in.nc` begins with file 2024. -/
theorem C138_prefix_wrong :
    (getmnsopts ["-s".toList, "3".toList, "-p".toList, "out".toList, "in.nc".toList]).map (fun r => r.1.start) = some 0 ∧
      (getmnsopts ["-p".toList, "out".toList, "-s".toList, "3".toList, "in.nc".toList]).map (fun r => r.1.start) = some 3 ∧
      (getmnsopts ["-p".toList, "2024/jan".toList, "in.nc".toList]).map (fun r => r.1.start) = some 2024 := by
  refine ⟨?_, ?_, ?_⟩
  · have := C138_start [.short [] (some ('s', "3".toList, false)), .short [] (some ('p', "out".toList, false)), .file "in.nc".toList]
      (by intro i hi; simp only [List.mem_cons, List.not_mem_nil, or_false] at hi
          rcases hi with rfl | rfl | rfl
          · exact ⟨by simp, by simp, by rintro c x j h; cases h; exact ⟨by decide, by simp⟩⟩
          · exact ⟨by simp, by simp, by rintro c x j h; cases h; exact ⟨by decide, by simp⟩⟩
          · exact (by decide : "in.nc".toList.head? ≠ some '-')) (f := "in.nc".toList) (fs := []) rfl
    refine Eq.trans (congrArg (Option.map fun r => r.1.start) this) ?_
    decide
  · have := C138_start [.short [] (some ('p', "out".toList, false)), .short [] (some ('s', "3".toList, false)), .file "in.nc".toList]
      (by intro i hi; simp only [List.mem_cons, List.not_mem_nil, or_false] at hi
          rcases hi with rfl | rfl | rfl
          · exact ⟨by simp, by simp, by rintro c x j h; cases h; exact ⟨by decide, by simp⟩⟩
          · exact ⟨by simp, by simp, by rintro c x j h; cases h; exact ⟨by decide, by simp⟩⟩
          · exact (by decide : "in.nc".toList.head? ≠ some '-')) (f := "in.nc".toList) (fs := []) rfl
    refine Eq.trans (congrArg (Option.map fun r => r.1.start) this) ?_
    decide
  · have := C138_start [.short [] (some ('p', "2024/jan".toList, false)), .file "in.nc".toList]
      (by intro i hi; simp only [List.mem_cons, List.not_mem_nil, or_false] at hi
          rcases hi with rfl | rfl
          · exact ⟨by simp, by simp, by rintro c x j h; cases h; exact ⟨by decide, by simp⟩⟩
          · exact (by decide : "in.nc".toList.head? ≠ some '-')) (f := "in.nc".toList) (fs := []) rfl
    refine Eq.trans (congrArg (Option.map fun r => r.1.start) this) ?_
    decide

/-! ### Names -/

namespace ScatterOptions
open CString

/-- Value of a decimal text. -/
def val (w : List Char) : Nat := Nat.ofDigitChars 10 w 0

theorem val_zeros (k : Nat) (d : List Char) : val (List.replicate k '0' ++ d) = val d := by
  induction k with
  | zero => rfl
  | succ k ih => rw [List.replicate_succ, List.cons_append]; unfold val at ih ⊢; rw [Nat.ofDigitChars_cons]; simpa using ih

theorem val_digits (n : Nat) : val (digits n) = n := Nat.ofDigitChars_toDigits (by omega) (by omega)

theorem number_nat (w n : Nat) : number (w : Int) (n : Int) = List.replicate (w - (digits n).length) '0' ++ digits n := by
  unfold number
  rw [if_neg (by omega), if_neg (by omega)]
  simp

theorem val_number (w n : Nat) : val (number (w : Int) (n : Int)) = n := by rw [number_nat, val_zeros, val_digits]

theorem number_length (w n : Nat) : (number (w : Int) (n : Int)).length = max w (digits n).length := by
  rw [number_nat]; simp; omega

theorem digits_mono {n m : Nat} (h : n ≤ m) : (digits n).length ≤ (digits m).length := by
  unfold digits
  by_contra hc
  have hp := Nat.length_toDigits_pos (b := 10) (n := m)
  have h1 := (Nat.length_toDigits_le_iff (b := 10) (n := m) (by omega) hp).1 le_rfl
  have h2 := (Nat.length_toDigits_le_iff (b := 10) (n := n) (by omega) hp).2 (lt_of_le_of_lt h h1)
  omega

/-- If two widths give the same text for a number, they do so for all larger ones. -/
theorem number_eq {w v n m : Nat} (h : number (w : Int) (n : Int) = number (v : Int) (n : Int)) (hm : n ≤ m) : number (w : Int) (m : Int) = number (v : Int) (m : Int) := by
  have hl := congrArg List.length h
  rw [number_length, number_length] at hl
  have := digits_mono hm
  rw [number_nat, number_nat]
  congr 2
  omega

theorem number_inj {w v n m : Nat} (h : number (w : Int) (n : Int) = number (v : Int) (m : Int)) : n = m := by
  rw [← val_number w n, ← val_number v m, h]

end ScatterOptions

theorem ScatterOptions.number_neg (w n : Nat) (hn : 0 < n) : number (w : Int) (-(n : Int)) = '-' :: (List.replicate (w - (1 + (CString.digits n).length)) '0' ++ CString.digits n) := by
  unfold number
  have a : (-(n : Int)) < 0 := by omega
  have b : ¬ (w : Int) < 0 := by omega
  simp only [a, b, if_true, if_false, List.length_singleton, Int.natAbs_neg, Int.natAbs_natCast, List.singleton_append, List.cons_append, List.nil_append]

/-- The prefix as it stands in a name: nothing, or the directory and `/`. -/
def C138Dir (pre : Option (List Char)) (dir : List Char) : Prop := ((pre = none ∨ pre = some []) ∧ dir = []) ∨ ∃ p, p ≠ [] ∧ pre = some p ∧ dir = p ++ ['/']

/-- Number of files: that of the io layout if both of its numbers are given, that of the layout otherwise. -/
def C138Count (nx ny nxio nyio : Int) (n : Nat) : Prop := (nxio ≠ 0 ∧ nyio ≠ 0 ∧ (n : Int) = nxio * nyio) ∨ ((nxio = 0 ∨ nyio = 0) ∧ (n : Int) = nx * ny)

theorem c138_dir {o : Opts} {dir : List Char} (h : C138Dir o.pre dir) : lead o = dir := by
  unfold lead
  rcases h with ⟨h | h, e⟩ | ⟨p, hp, h, e⟩
  · rw [h, e]
  · rw [h, e]; rfl
  · rw [h, e]; exact if_neg hp

theorem c138_count {o : Opts} {n : Nat} (h : C138Count o.nx o.ny o.nxio o.nyio n) : numFiles o = n := by
  unfold numFiles
  rcases h with ⟨h1, h2, h3⟩ | ⟨h1, h2⟩
  · rw [if_pos ⟨h1, h2⟩, h3]
  · rw [if_neg (by tauto), h2]

/-- C138: file `i` of a run is called prefix, name of the input without its path, a point and the number `start + i` with at least as many digits as the width says. The names are all
different, and none has more than 255 characters. -/
theorem C138_names {o : Opts} {f : List Char} {ns : List (List Char)} (h : names o f = some ns) {n w s : Nat} (hcount : C138Count o.nx o.ny o.nxio o.nyio n) {dir : List Char}
    (hdir : C138Dir o.pre dir) (hw : o.width = w) (hs : o.start = s) :
    ns.length = n ∧ ns.Nodup ∧ (∀ x ∈ ns, x.length < 256) ∧ ∀ i : Nat, i < n → ∃ d : List Char,
      ns[i]? = some (dir ++ base f ++ '.' :: d) ∧ d.length = max w (Nat.toDigits 10 (s + i)).length ∧ Nat.ofDigitChars 10 d 0 = s + i := by
  have hn := c138_count hcount
  rw [← c138_dir hdir]
  unfold names at h
  simp only at h
  split at h
  · cases h
  · rename_i hroom
    cases h
    push Not at hroom
    refine ⟨?_, ?_, hroom.2.2, ?_⟩
    all_goals
      rw [hn, hw, hs]
      have e : ∀ i : Nat, ((i : Int) + (s : Int)) = ((s + i : Nat) : Int) := fun i => by push_cast; omega
      simp only [e]
    · simp
    · refine List.Nodup.map_on ?_ List.nodup_range
      intro a _ b _ hab
      have := List.append_cancel_left hab
      injection this with _ h2
      have := ScatterOptions.number_inj h2
      omega
    · intro i hi
      refine ⟨number (w : Int) ((s + i : Nat) : Int), ?_, ScatterOptions.number_length w (s + i), ScatterOptions.val_number w (s + i)⟩
      simp [hi]

/-- C138: with a negative `start` the first files have the sign before the number, the width counts it. -/
theorem C138_negative {o : Opts} {f : List Char} {ns : List (List Char)} (h : names o f = some ns) {n w s : Nat} (hcount : C138Count o.nx o.ny o.nxio o.nyio n) {dir : List Char}
    (hdir : C138Dir o.pre dir) (hw : o.width = w) (hs : o.start = -(s : Int)) {i : Nat} (hi : i < n) (his : i < s) : ∃ d : List Char,
      ns[i]? = some (dir ++ base f ++ '.' :: '-' :: d) ∧ 1 + d.length = max w (1 + (Nat.toDigits 10 (s - i)).length) ∧ Nat.ofDigitChars 10 d 0 = s - i := by
  have hn := c138_count hcount
  rw [← c138_dir hdir]
  unfold names at h
  simp only at h
  split at h
  · cases h
  · cases h
    rw [hn, hw, hs]
    refine ⟨List.replicate (w - (1 + (CString.digits (s - i)).length)) '0' ++ CString.digits (s - i), ?_, ?_, ?_⟩
    · have e : ((i : Int) + -(s : Int)) = -((s - i : Nat) : Int) := by omega
      simp only [Int.toNat_natCast, List.getElem?_map, List.getElem?_range hi, Option.map_some, e, ScatterOptions.number_neg w (s - i) (by omega)]
    · unfold CString.digits
      simp only [List.length_append, List.length_replicate]
      omega
    · exact (ScatterOptions.val_zeros _ _).trans (ScatterOptions.val_digits _)

/-- C138: the name of the input without its path is what stands behind the last `/`. -/
theorem C138_base (dir name : List Char) (h : '/' ∉ name) : base name = name ∧ base (dir ++ '/' :: name) = name := by
  have hr : ∀ r : List Char, (name.reverse ++ '/' :: r).takeWhile (· ≠ '/') = name.reverse := by
    intro r
    rw [List.takeWhile_append_of_pos (by simpa using fun (a : Char) (ha : a ∈ name) (e : a = '/') => h (e ▸ ha)), List.takeWhile_cons_of_neg (by simp)]
    simp
  constructor
  · unfold base
    have := List.takeWhile_append_of_pos (p := fun x => decide (x ≠ '/')) (l₁ := name.reverse) (l₂ := []) (by simpa using fun (a : Char) (ha : a ∈ name) (e : a = '/') => h (e ▸ ha))
    simp only [List.append_nil, List.takeWhile_nil] at this
    rw [this, List.reverse_reverse]
  · unfold base
    rw [List.reverse_append, List.reverse_cons, List.append_assoc, List.singleton_append, hr, List.reverse_reverse]

/-! ### mppnccombine finds the files -/

open Driver

/-- The files handed to `process_file`, with the block, in the order of the calls. -/
def c138_handled {F : Type} (tr : List (Event F)) : List (Nat × F) :=
  tr.reverse.filterMap fun e => match e with
    | .proc b x _ _ => some (b, x)
    | .flush _ => none

theorem c138_handled_proc {F : Type} (b : Nat) (x : F) (rc : UInt8) (fl : Bool) (tr : List (Event F)) : c138_handled (.proc b x rc fl :: tr) = c138_handled tr ++ [(b, x)] := by
  simp [c138_handled]

theorem c138_handled_flush {F : Type} (E : Env F) (b : Nat) (st : DSt F) : c138_handled (doFlush E b st).trace = c138_handled st.trace := by
  unfold c138_handled doFlush
  rw [List.reverse_append, List.filterMap_append]
  have : List.filterMap (fun e : Event F => match e with | .proc b x _ _ => some (b, x) | .flush _ => none) ((E.flush b).map Event.flush).reverse.reverse = [] := by
    rw [List.reverse_reverse, List.filterMap_map]; simp [List.filterMap_eq_nil_iff]
  rw [this, List.append_nil]

section
variable {F : Type} (E : Env F) (v : Nat) (n : Int)

theorem c138_one (hproc : ∀ b x f k, E.onDisk x = true → (E.proc b x f k).nfiles = n) (b : Nat) (a : Int) (st : DSt F) (hd : E.onDisk (E.name v a) = true)
    (hw : findWidth E st.width a = some v) :
    ∃ st', oneFile E b a st = .ok (some st') ∧ st'.width = some v ∧ st'.nfiles = n ∧ c138_handled st'.trace = c138_handled st.trace ++ [(b, E.name v a)] := by
  refine ⟨callProc E b (E.name v a) { st with width := some v }, ?_, rfl, ?_, ?_⟩
  · simp [oneFile, hw, handleFile, hd, Except.map]
  · simp [callProc, hd, hproc _ _ _ _ hd]
  · simp [callProc, hd, c138_handled_proc]

theorem c138_flush (b : Nat) (a nend : Int) (st : DSt F) :
    (noEndFlush E b a nend st).width = st.width ∧ (noEndFlush E b a nend st).nfiles = st.nfiles ∧ c138_handled (noEndFlush E b a nend st).trace = c138_handled st.trace := by
  unfold noEndFlush
  split
  · exact ⟨rfl, rfl, c138_handled_flush E b st⟩
  · exact ⟨rfl, rfl, rfl⟩

theorem c138_rest (hproc : ∀ b x f k, E.onDisk x = true → (E.proc b x f k).nfiles = n) (b : Nat) (nend : Int) (as : List Int) (st : DSt F) (hst : st.width = some v)
    (hd : ∀ a ∈ as, E.onDisk (E.name v a) = true) :
    ∃ st', noEndRest E b nend as st = .ok st' ∧ st'.width = some v ∧ c138_handled st'.trace = c138_handled st.trace ++ as.map fun a => (b, E.name v a) := by
  induction as generalizing st with
  | nil => exact ⟨st, rfl, hst, by simp⟩
  | cons a as ih =>
    obtain ⟨s1, h1, h2, h3, h4⟩ := c138_one E v n hproc b a st (hd a (by simp)) (by simp [findWidth, hst])
    obtain ⟨g1, g2, g3⟩ := c138_flush E b a nend s1
    obtain ⟨s2, k1, k2, k3⟩ := ih (noEndFlush E b a nend s1) (g1.trans h2) fun a' ha => hd a' (by simp [ha])
    refine ⟨s2, ?_, k2, ?_⟩
    · rw [noEndRest, h1]; exact k1
    · rw [k3, g3, h4]; simp

theorem c138_numbers (s n : Int) (hn : 0 < n) : numbers s (s + n) = s :: numbers (s + 1) (s + n) := by
  unfold numbers
  obtain ⟨k, rfl⟩ : ∃ k : Nat, n = k + 1 := ⟨(n - 1).toNat, by omega⟩
  rw [show (s + ((k : Int) + 1) - s).toNat = k + 1 by omega, show (s + ((k : Int) + 1) - (s + 1)).toNat = k by omega, List.range_succ_eq_map]
  simp only [List.map_cons, List.map_map, Nat.cast_zero, add_zero, List.cons.injEq, true_and]
  apply List.map_congr_left
  intro i _
  simp only [Function.comp_apply]
  push_cast
  omega

theorem c138_block (hn : 0 < n) (hproc : ∀ b x f k, E.onDisk x = true → (E.proc b x f k).nfiles = n) (b : Nat) (s nend : Int) (st : DSt F)
    (hw : findWidth E st.width s = some v) (hd : ∀ a ∈ numbers s (s + n), E.onDisk (E.name v a) = true) :
    ∃ st', noEndBlock E b s nend st = .ok (st', s + n) ∧ st'.width = some v ∧
      c138_handled st'.trace = c138_handled st.trace ++ (numbers s (s + n)).map fun a => (b, E.name v a) := by
  rw [c138_numbers s n hn] at hd ⊢
  obtain ⟨s1, h1, h2, h3, h4⟩ := c138_one E v n hproc b s { st with f := 0 } (hd s (by simp)) hw
  obtain ⟨g1, g2, g3⟩ := c138_flush E b s (s + n) s1
  obtain ⟨s2, k1, k2, k3⟩ := c138_rest E v n hproc b (s + n) (numbers (s + 1) (s + n)) (noEndFlush E b s (s + n) s1) (g1.trans h2) fun a ha => hd a (by simp [ha])
  refine ⟨s2, ?_, k2, ?_⟩
  · rw [noEndBlock, h1]
    simp only [h3, if_pos hn, k1]
    rfl
  · rw [k3, g3, h4]; simp

theorem c138_blocks (hn : 0 < n) (hproc : ∀ b x f k, E.onDisk x = true → (E.proc b x f k).nfiles = n) (s : Int)
    (hd : ∀ a ∈ numbers s (s + n), E.onDisk (E.name v a) = true) (bs : List Nat) (nend : Int) (st : DSt F) (hw : findWidth E st.width s = some v) :
    ∃ st' nend', noEndBlocks E s bs nend st = .ok (st', nend') ∧
      c138_handled st'.trace = c138_handled st.trace ++ bs.flatMap fun b => (numbers s (s + n)).map fun a => (b, E.name v a) := by
  induction bs generalizing nend st with
  | nil => exact ⟨st, nend, rfl, by simp⟩
  | cons b bs ih =>
    obtain ⟨s1, h1, h2, h3⟩ := c138_block E v n hn hproc b s nend st hw hd
    obtain ⟨s2, ne, k1, k2⟩ := ih (s + n) s1 (by simp [findWidth, h2])
    refine ⟨s2, ne, ?_, ?_⟩
    · rw [noEndBlocks, h1]; exact k1
    · rw [k2, h3]; simp

end

theorem c138_first {o : Opts} {f : List Char} {ns : List (List Char)} (h : names o f = some ns) {n s w : Nat} (hn : numFiles o = n) (hn0 : 0 < n) (hs : o.start = s)
    (hw : o.width = w) (E : Env (List Char)) (hname : ∀ (w : Nat) (a : Int), E.name w a = lead o ++ base f ++ '.' :: number w a) (hdisk : ∀ x, E.onDisk x = decide (x ∈ ns))
    (v : Nat) : E.onDisk (E.name v s) = true ↔ number (v : Int) s = number (w : Int) s := by
  have hns : ns = (List.range n).map fun (i : Nat) => lead o ++ base f ++ '.' :: number o.width (i + o.start) := by
    unfold names at h
    simp only at h
    split at h
    · cases h
    · cases h; rw [hn]; rfl
  rw [hdisk, decide_eq_true_eq, hname, hns, List.mem_map, hs, hw]
  constructor
  · rintro ⟨i, hi, e⟩
    have := List.append_cancel_left e
    injection this with _ h2
    rw [show (i : Int) + s = ((i + s : Nat) : Int) by push_cast; rfl] at h2
    have := ScatterOptions.number_inj h2
    have hi0 : i = 0 := by omega
    subst hi0
    rw [← h2, Nat.zero_add]
  · intro e
    exact ⟨0, List.mem_range.2 hn0, by rw [e]; simp⟩

/-- C138: with width 4 or 6, `mppnccombine -n start` with the name under which the files were written takes exactly these files, in the order in which they were written, once for
each block of records. -/
theorem C138_found {o : Opts} {f : List Char} {ns : List (List Char)} (h : names o f = some ns) {n s : Nat} (hn : numFiles o = n) (hn0 : 0 < n) (hs : o.start = s)
    (hw : o.width = 4 ∨ o.width = 6) (E : Env (List Char)) (hname : ∀ (w : Nat) (a : Int), E.name w a = lead o ++ base f ++ '.' :: number w a)
    (hdisk : ∀ x, E.onDisk x = decide (x ∈ ns)) (hproc : ∀ b x k m, E.onDisk x = true → (E.proc b x k m).nfiles = n) (rm : Bool) (nb : Nat) :
    c138_handled (run E rm nb (.noEnd s)).trace = (List.range nb).flatMap fun b => ns.map fun x => (b, x) := by
  have hns : ns = (List.range n).map fun (i : Nat) => lead o ++ base f ++ '.' :: number o.width (i + o.start) := by
    unfold names at h
    simp only at h
    split at h
    · cases h
    · cases h; rw [hn]; rfl
  obtain ⟨w, hw'⟩ : ∃ w : Nat, o.width = w := by rcases hw with h | h <;> exact ⟨_, h⟩
  have key : ∀ v : Nat, number (v : Int) s = number o.width s → findWidth E none (s : Int) = some v →
      c138_handled (run E rm nb (.noEnd s)).trace = (List.range nb).flatMap fun b => ns.map fun x => (b, x) := by
    intro v hv hf
    rw [hw'] at hv
    have hall : (numbers (s : Int) (s + n)).map (E.name v) = ns := by
      rw [hns, hw', hs]
      unfold numbers
      rw [show ((s : Int) + n - s).toNat = n by omega, List.map_map]
      apply List.map_congr_left
      intro i _
      simp only [Function.comp_apply, hname]
      have := ScatterOptions.number_eq hv (Nat.le_add_right s i)
      push_cast at this
      rw [this, Int.add_comm]
    have hd : ∀ a ∈ numbers (s : Int) (s + n), E.onDisk (E.name v a) = true := by
      intro a ha
      rw [hdisk, decide_eq_true_eq, ← hall]
      exact List.mem_map_of_mem ha
    obtain ⟨st, nend, h1, h2⟩ := c138_blocks E v n (by omega) hproc s hd (List.range nb) (s + 1) DSt.init hf
    rw [run, h1, finish_trace, h2]
    have : c138_handled (DSt.init : DSt (List Char)).trace = [] := rfl
    rw [this, List.nil_append]
    congr 1
    funext b
    rw [← hall, List.map_map]
    rfl
  have hin := c138_first h hn hn0 hs hw' E hname hdisk
  rw [← hw'] at hin
  by_cases h4 : E.onDisk (E.name 4 s) = true
  · exact key 4 ((hin 4).1 h4) (by simp [findWidth, h4])
  · have h6 : o.width = 6 := by
      rcases hw with h | h
      · exact absurd ((hin 4).2 (by rw [h]; rfl)) h4
      · exact h
    have := (hin 6).2 (by rw [h6]; rfl)
    exact key 6 (by rw [h6]; rfl) (by simp [findWidth, h4, this])

/-- C138, wrong: with any other width mppnccombine finds no file (first number below 1000), and nevertheless ends with status 0. -/
theorem C138_width_wrong {o : Opts} {f : List Char} {ns : List (List Char)} (h : names o f = some ns) {n s w : Nat} (hn : numFiles o = n) (hn0 : 0 < n) (hs : o.start = s)
    (hs' : s < 1000) (hw : o.width = w) (hw4 : w ≠ 4) (hw6 : w ≠ 6) (E : Env (List Char))
    (hname : ∀ (w : Nat) (a : Int), E.name w a = lead o ++ base f ++ '.' :: number w a) (hdisk : ∀ x, E.onDisk x = decide (x ∈ ns)) (hsync : E.syncErr = false)
    (hclose : E.closeErr = false) (rm : Bool) (nb : Nat) : (run E rm nb (.noEnd s)).trace = [] ∧ (run E rm nb (.noEnd s)).status = 0 := by
  have hin := c138_first h hn hn0 hs hw E hname hdisk
  have hno : ∀ v : Nat, v ≠ w → 3 < v → E.onDisk (E.name v s) = false := by
    intro v hv h3
    rw [← Bool.not_eq_true]
    intro hd
    have e := congrArg List.length ((hin v).1 hd)
    rw [ScatterOptions.number_length, ScatterOptions.number_length] at e
    have := (Nat.length_toDigits_le_iff (b := 10) (n := s) (k := 3) (by omega) (by omega)).2 (by omega)
    unfold CString.digits at e
    omega
  have hf : findWidth E none (s : Int) = none := by simp [findWidth, hno 4 (by omega) (by omega), hno 6 (by omega) (by omega)]
  have hblock : ∀ (b : Nat) (st : DSt (List Char)), st.width = none → noEndBlock E b s (s + 1) st = .ok ({ st with f := 0 }, (s : Int) + 1) := by
    intro b st hst
    have : oneFile E b s { st with f := 0 } = .ok none := by simp [oneFile, hst, hf]
    rw [noEndBlock, this]
    simp [numbers, noEndRest, Except.map]
  have hblocks : ∀ (bs : List Nat) (st : DSt (List Char)), st.width = none → ∃ k, noEndBlocks E s bs (s + 1) st = .ok ({ st with f := k }, (s : Int) + 1) := by
    intro bs
    induction bs with
    | nil => intro st _; exact ⟨st.f, rfl⟩
    | cons b bs ih =>
      intro st hst
      obtain ⟨k, hk⟩ := ih { st with f := 0 } hst
      exact ⟨k, by rw [noEndBlocks, hblock b st hst]; exact hk⟩
  obtain ⟨k, hk⟩ := hblocks (List.range nb) DSt.init rfl
  rw [run, hk]
  simp [finish, closeOut, addErrs, DSt.init, hsync, hclose]

/-! ### Cases -/

/-- `in/ocean.nc -x 2 --npy=3 -Vs 7 -s 8` -/
def c138_items : List Item := [.file "in/ocean.nc".toList, .short [] (some ('x', "2".toList, false)), .long 'y' "npy".toList "3".toList true, .short ['V'] (some ('s', "7".toList, false)),
  .short [] (some ('s', "8".toList, true))]

theorem c138_items_wf : ∀ i ∈ c138_items, i.WF := by
  intro i hi
  simp only [c138_items, List.mem_cons, List.not_mem_nil, or_false] at hi
  rcases hi with rfl | rfl | rfl | rfl | rfl
  · exact (by decide : "in/ocean.nc".toList.head? ≠ some '-')
  · exact ⟨by simp, by simp, by rintro c x j h; cases h; exact ⟨by decide, by simp⟩⟩
  · exact (by decide : ('y', "npy".toList) ∈ valued)
  · exact ⟨by simp, by simp, by rintro c x j h; cases h; exact ⟨by decide, by simp⟩⟩
  · exact ⟨by simp, by simp, by rintro c x j h; cases h; exact ⟨by decide, by decide⟩⟩

/-- The hypotheses of `C138_options_partial` hold; six files `ocean.nc.0008` to `ocean.nc.0013`. -/
example : getmnsopts (words c138_items) = some ({ verbose := true, nx := 2, ny := 3, start := 8 }, "in/ocean.nc".toList) ∧
    names { verbose := true, nx := 2, ny := 3, start := 8 } "in/ocean.nc".toList =
      some ["ocean.nc.0008".toList, "ocean.nc.0009".toList, "ocean.nc.0010".toList, "ocean.nc.0011".toList, "ocean.nc.0012".toList, "ocean.nc.0013".toList] := by
  refine ⟨(C138_options_partial c138_items c138_items_wf (f := "in/ocean.nc".toList) (fs := []) rfl (by decide)).trans (by decide), by decide +kernel⟩

/-- mppnccombine in the directory of these files: the hypotheses of `C138_found` can be met. -/
example : ∃ E : Env (List Char), (∀ (w : Nat) (a : Int), E.name w a = "ocean.nc".toList ++ '.' :: number w a) ∧
    c138_handled (run E false 1 (.noEnd 8)).trace = (List.range 6).map fun i => (0, "ocean.nc".toList ++ '.' :: number 4 (8 + i)) := by
  have hns : names { verbose := true, nx := 2, ny := 3, start := 8 } "in/ocean.nc".toList =
      some ["ocean.nc.0008".toList, "ocean.nc.0009".toList, "ocean.nc.0010".toList, "ocean.nc.0011".toList, "ocean.nc.0012".toList, "ocean.nc.0013".toList] := by
    decide +kernel
  have := C138_found hns (n := 6) (s := 8) rfl (by decide) rfl (Or.inl rfl)
    ⟨fun x => decide (x ∈ ["ocean.nc.0008".toList, "ocean.nc.0009".toList, "ocean.nc.0010".toList, "ocean.nc.0011".toList, "ocean.nc.0012".toList, "ocean.nc.0013".toList]),
      fun w a => "ocean.nc".toList ++ '.' :: number w a, false, fun _ _ _ _ => ⟨false, [], 6⟩, fun _ => [], false, false⟩
    (fun _ _ => rfl) (fun _ => rfl) (fun _ _ _ _ _ => rfl) false 1
  refine ⟨_, fun _ _ => rfl, this.trans (by decide +kernel)⟩

end Verif
