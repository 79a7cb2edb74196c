import Verif.Lemmas.TimavgScript
/-
C137: what timavg averages. The model is in Model/TimavgScript, the specification of calls in Spec/TimavgScript.
-/
namespace Verif
open TimavgScript
open Spec.Timavg (Group words opts given value Plain OutName)

variable {K : Type} [Zero K] (sh : Shell) (rd : Reader K)

/-- `timavg.nc` -/
def c137_out : List Char := ['t', 'i', 'm', 'a', 'v', 'g', '.', 'n', 'c']

/-- A word without pattern characters stands for itself. -/
def C137Glob (sh : Shell) : Prop := ∀ w : List Char, (∀ c ∈ w, c ∉ ['*', '?', '[', '\\']) → sh.glob w = [w]

/-- A call: groups of options, perhaps `--`, the files. -/
def c137_call (gs : List Group) (dashes : Bool) (files : List (List Char)) : List (List Char) :=
  words gs ++ (if dashes then [['-', '-']] else []) ++ files

theorem c137_getopts (gs : List Group) (hg : ∀ g ∈ gs, g.WF) (dashes : Bool) (files : List (List Char)) (hne : files ≠ [])
    (hfirst : ∀ f, files.head? = some f → f.head? ≠ some '-') :
    getopts [] (c137_call gs dashes files) = ((opts gs).map ev, files) := by
  obtain ⟨f, fs, rfl⟩ := List.exists_cons_of_ne_nil hne
  have h := getopts_files f fs (hfirst f rfl)
  unfold c137_call
  rw [List.append_assoc, getopts_groups gs hg]
  cases dashes with
  | false => simp [h]
  | true => simp [getopts_dashes]

theorem c137_letters (gs : List Group) (hg : ∀ g ∈ gs, g.WF) : ∀ p ∈ opts gs, p.1 ∈ ['a', 'b', 'd', 'm', 'W'] ∨ p.1 ∈ ['o', 'w', 'z', 's'] := by
  intro p hp
  obtain ⟨g, hgs, hp⟩ := List.mem_flatMap.1 hp
  obtain ⟨h1, -, h3⟩ := hg g hgs
  rcases List.mem_append.1 hp with h | h
  · obtain ⟨c, hc, rfl⟩ := List.mem_map.1 h
    exact Or.inl (h1 c hc)
  · generalize ha : g.arg = a at h
    match a, h with
    | some (c, x, j), h => simp at h; subst h; exact Or.inr (h3 c x j ha).1

theorem c137_options (gs : List Group) (hg : ∀ g ∈ gs, g.WF) :
    options {} ((opts gs).map ev) = .ok ⟨value gs 'o' c137_out, !given gs 'm', given gs 'd', given gs 'b', given gs 'a', given gs 'W',
      value gs 'w' ['0', '.', '0'], value gs 'z' ['-', '1'], value gs 's' ['-', '1']⟩ := by
  rw [options_ok _ (c137_letters gs hg)]
  simp only [last_eq, Bool.true_and, Bool.false_or]
  rfl

theorem c137_graph {f : List Char} (h : Plain f) : ∀ c ∈ f, graph c = true ∧ blank c = false ∧ c ≠ ' ' ∧ c ≠ '"' ∧ c ∉ ['*', '?', '[', '\\'] := by
  intro c hc
  obtain ⟨h1, h2, h3⟩ := h.2.2.1 c hc
  have hb : ∀ d : Char, ¬ ('!' ≤ d) → c ≠ d := fun d hd e => hd (e ▸ h1)
  refine ⟨by simp [graph, h1, h2], ?_, hb ' ' (by decide), fun e => h3 (by simp [e]), fun e => h3 (List.mem_cons_of_mem _ e)⟩
  simp [blank, hb ' ' (by decide), hb '\t' (by decide), hb '\n' (by decide)]

theorem c137_expand {sh : Shell} (hglob : C137Glob sh) (files : List (List Char)) (hp : ∀ f ∈ files, Plain f) : expand sh (join files) = files := by
  unfold expand
  rw [split_join files fun f hf => ⟨(hp f hf).1, fun c hc => (c137_graph (hp f hf) c hc).2.1⟩]
  induction files with
  | nil => rfl
  | cons f fs ih =>
    rw [List.flatMap_cons, hglob f fun c hc => (c137_graph (hp f (by simp)) c hc).2.2.2.2, ih fun g hg => hp g (by simp [hg])]
    rfl

theorem c137_fileNames {sh : Shell} (hglob : C137Glob sh) (files : List (List Char)) (hne : files ≠ []) (hp : ∀ f ∈ files, Plain f)
    (hfirst : ∀ f, files.head? = some f → f.head? ≠ some '-') : ',' :: fileNames sh (join files) = text files := by
  unfold fileNames
  rw [c137_expand hglob files hp]
  have : files.dropWhile echoFlag = files := by
    obtain ⟨f, fs, rfl⟩ := List.exists_cons_of_ne_nil hne
    rw [List.dropWhile_cons_of_neg]
    have := hfirst f rfl
    unfold echoFlag
    split
    · simp at this
    · simp
  rw [this, sed_join files hne fun f hf => ⟨(hp f hf).1, fun c hc => (c137_graph (hp f hf) c hc).1⟩]
  exact tr_join files hne fun f hf => ⟨fun c hc => (c137_graph (hp f hf) c hc).2.2.1, (hp f hf).2.2.2⟩

theorem c137_text_length (files : List (List Char)) : files.length ≤ (text files).length := by
  induction files with
  | nil => simp
  | cons f fs ih => simp [text] at ih ⊢; omega

/-- The state after the two names. -/
def c137_names (out : List Char) (files : List (List Char)) : Input K := { (start : Input K) with out := out, files := files.take 200 }

theorem c137_read {sh : Shell} (hglob : C137Glob sh) (o : Opts) (hout : OutName o.ofile) (files : List (List Char)) (hne : files ≠ []) (hp : ∀ f ∈ files, Plain f)
    (hfirst : ∀ f, files.head? = some f → f.head? ≠ some '-') :
    readNamelist rd start (namelist sh o (join files)) =
      if 200 < files.length then c137_names o.ofile files
      else readNamelist rd (c137_names o.ofile files) ((namelist sh o (join files)).drop 2) := by
  obtain ⟨h1, h2, h3, h4, h5⟩ := hout
  have e1 : assign rd (start : Input K) (.fileNameOut, '"' :: o.ofile ++ ['"', ',']) = ({ (start : Input K) with out := o.ofile }, false) := by
    simp only [assign, List.cons_append]
    rw [readString_word [] o.ofile [] h2]
    simp only [List.nil_append, cut_id _ h1 h5]
  have e2 : assign rd ({ (start : Input K) with out := o.ofile }) (.fileNames, fileNames sh (join files) ++ [',']) =
      (c137_names o.ofile files, decide (200 < files.length)) := by
    have et := c137_fileNames hglob files hne hp hfirst
    have : ',' :: (fileNames sh (join files) ++ [',']) = text files ++ [','] := by rw [← et]; rfl
    have hl : files.length ≤ (fileNames sh (join files) ++ [',']).length := by
      have := c137_text_length files
      rw [← et] at this
      simpa using this
    simp only [assign, this]
    rw [readStrings_text files (fun f hf hq => (c137_graph (hp f hf) _ hq).2.2.2.1 rfl) _ _ hl]
    have hm : (files.take MAX_FILES).map cut = files.take MAX_FILES := by
      conv_rhs => rw [← List.map_id (files.take MAX_FILES)]
      apply List.map_congr_left
      intro f hf
      have hf := List.mem_of_mem_take hf
      exact cut_id f (hp f hf).2.1 fun e => (c137_graph (hp f hf) ' ' (List.mem_of_getLast? e)).2.2.1 rfl
    simp only [hm]
    rfl
  simp only [namelist, readNamelist, e1, e2, Bool.false_eq_true, if_false, decide_eq_true_eq, List.drop_succ_cons, List.drop_zero]

theorem c137_first {files : List (List Char)} (hne : files ≠ []) (hp : ∀ f ∈ files, Plain f) (n : Nat) :
    first ((files.take (n + 1)).headD []) ≠ ' ' ∧ (files.take (n + 1)).takeWhile (fun w => first w ≠ ' ') = files.take (n + 1) := by
  have hf : ∀ f ∈ files, first f ≠ ' ' := by
    intro f hf e
    have := hp f hf
    obtain ⟨c, t, rfl⟩ := List.exists_cons_of_ne_nil this.1
    exact (c137_graph this c (by simp)).2.2.1 e
  constructor
  · obtain ⟨f, fs, rfl⟩ := List.exists_cons_of_ne_nil hne
    exact hf f (by simp)
  · have : ∀ l : List (List Char), (∀ f ∈ l, first f ≠ ' ') → l.takeWhile (fun w => first w ≠ ' ') = l := by
      intro l
      induction l with
      | nil => intro _; rfl
      | cons a l ih => intro h; rw [List.takeWhile_cons_of_pos (by simpa using h a (by simp)), ih fun f h' => h f (by simp [h'])]
    exact this _ fun f h => hf f (List.mem_of_mem_take h)

theorem c137_accept {s : Input K} {files : List (List Char)} (hs : s.files = files.take 200) (hne : files ≠ []) (hp : ∀ f ∈ files, Plain f) (hout : OutName s.out)
    (hz : -1 ≤ s.deflation ∧ s.deflation ≤ 9) (hsh : -1 ≤ s.shuffle ∧ s.shuffle ≤ 1) : accept s = some s := by
  obtain ⟨h1, h2⟩ := c137_first hne hp 199
  have ho : first s.out ≠ ' ' := by
    obtain ⟨-, -, h3, h4, -⟩ := hout
    obtain ⟨c, t, e⟩ := List.exists_cons_of_ne_nil h3
    rw [e] at h4 ⊢
    simpa [first] using h4
  unfold accept
  rw [if_neg]
  · rw [hs, h2, ← hs]
  · rw [hs]
    rintro (h | h | h | h | h | h)
    · exact h1 h
    · exact ho h
    all_goals omega

theorem c137_script {sh : Shell} (hglob : C137Glob sh) (gs : List Group) (hg : ∀ g ∈ gs, g.WF) (dashes : Bool) (files : List (List Char)) (hne : files ≠ [])
    (hfirst : ∀ f, files.head? = some f → f.head? ≠ some '-') (hp : ∀ f ∈ files, Plain f) :
    timavg sh rd (c137_call gs dashes files) =
      if files.any fun f => !sh.readable f then .exit 1
      else match accept (readNamelist rd start (namelist sh ⟨value gs 'o' c137_out, !given gs 'm', given gs 'd', given gs 'b', given gs 'a', given gs 'W',
        value gs 'w' ['0', '.', '0'], value gs 'z' ['-', '1'], value gs 's' ['-', '1']⟩ (join files))) with
      | none => .abort
      | some s => .run s := by
  unfold timavg
  rw [c137_getopts gs hg dashes files hne hfirst]
  simp only [c137_options gs hg, if_neg hne, c137_expand hglob files hp]
  rfl

theorem c137_readLogical (b : Bool) : readLogical (logical b ++ [',']) = some b := by cases b <;> rfl

/-- C137: a call with at most 200 readable files of plain names averages exactly these files in this order, writes to the file of the last `-o` and has the options of the call; of
an option given several times the last one counts. -/
theorem C137_job (hglob : C137Glob sh) (gs : List Group) (hg : ∀ g ∈ gs, g.WF) (dashes : Bool) (files : List (List Char)) (hne : files ≠ [])
    (hfirst : ∀ f, files.head? = some f → f.head? ≠ some '-') (hp : ∀ f ∈ files, Plain f) (hr : ∀ f ∈ files, sh.readable f = true) (hn : files.length ≤ 200)
    (hout : OutName (value gs 'o' c137_out)) {x : K} (hx : rd.real (value gs 'w' ['0', '.', '0'] ++ [',']) = some x)
    {z s : Int} (hz : rd.int (value gs 'z' ['-', '1'] ++ [',']) = some z) (hz' : -1 ≤ z ∧ z ≤ 9)
    (hs : rd.int (value gs 's' ['-', '1'] ++ [',']) = some s) (hs' : -1 ≤ s ∧ s ≤ 1) :
    timavg sh rd (c137_call gs dashes files) =
      .run ⟨value gs 'o' c137_out, files, !given gs 'm', given gs 'd', given gs 'b', given gs 'a', given gs 'W', x, z, s⟩ := by
  rw [c137_script rd hglob gs hg dashes files hne hfirst hp, if_neg (by simpa using hr), c137_read rd hglob _ hout files hne hp hfirst, if_neg (by omega)]
  simp only [namelist, List.drop_succ_cons, List.drop_zero, readNamelist, assign, c137_readLogical, hx, hz, hs, Bool.false_eq_true, if_false]
  rw [c137_accept (files := files) rfl hne hp hout hz' hs']
  simp [c137_names, List.take_of_length_le hn]

/-- C137: a deflation outside -1 to 9, or a shuffle outside -1 to 1, stops the program before anything is averaged. -/
theorem C137_range (hglob : C137Glob sh) (gs : List Group) (hg : ∀ g ∈ gs, g.WF) (dashes : Bool) (files : List (List Char)) (hne : files ≠ [])
    (hfirst : ∀ f, files.head? = some f → f.head? ≠ some '-') (hp : ∀ f ∈ files, Plain f) (hr : ∀ f ∈ files, sh.readable f = true) (hn : files.length ≤ 200)
    (hout : OutName (value gs 'o' c137_out)) {x : K} (hx : rd.real (value gs 'w' ['0', '.', '0'] ++ [',']) = some x)
    {z s : Int} (hz : rd.int (value gs 'z' ['-', '1'] ++ [',']) = some z) (hs : rd.int (value gs 's' ['-', '1'] ++ [',']) = some s)
    (h : z < -1 ∨ 9 < z ∨ s < -1 ∨ 1 < s) : timavg sh rd (c137_call gs dashes files) = .abort := by
  rw [c137_script rd hglob gs hg dashes files hne hfirst hp, if_neg (by simpa using hr), c137_read rd hglob _ hout files hne hp hfirst, if_neg (by omega)]
  simp only [namelist, List.drop_succ_cons, List.drop_zero, readNamelist, assign, c137_readLogical, hx, hz, hs, Bool.false_eq_true, if_false]
  unfold accept
  simp only
  rw [if_pos (by tauto)]

/-- C137: a file that cannot be read ends the call with status 1 before anything is averaged. So does an option after the files, unless there is a file of that name. -/
theorem C137_unreadable (hglob : C137Glob sh) (gs : List Group) (hg : ∀ g ∈ gs, g.WF) (dashes : Bool) (files : List (List Char)) (hne : files ≠ [])
    (hfirst : ∀ f, files.head? = some f → f.head? ≠ some '-') (hp : ∀ f ∈ files, Plain f) {f : List Char} (hf : f ∈ files) (hr : sh.readable f = false) :
    timavg sh rd (c137_call gs dashes files) = .exit 1 := by
  rw [c137_script rd hglob gs hg dashes files hne hfirst hp, if_pos]
  exact List.any_eq_true.2 ⟨f, hf, by simp [hr]⟩

theorem c137_stop (o : Opts) (l : List (Char × List Char)) (hl : ∀ p ∈ l, p.1 ∈ ['a', 'b', 'd', 'm', 'W'] ∨ p.1 ∈ ['o', 'w', 'z', 's']) (es : List Ev) :
    ∃ o', options o (l.map ev ++ es) = options o' es := by
  have h : ∀ (o : Opts) (l1 l2 : List Ev) (o' : Opts), options o l1 = .ok o' → options o (l1 ++ l2) = options o' l2 := by
    intro o l1
    induction l1 generalizing o with
    | nil => intro l2 o' h; cases h; rfl
    | cons e l1 ih =>
      intro l2 o' h
      simp only [options, List.cons_append] at h ⊢
      cases he : option o e with
      | error s => rw [he] at h; simp at h
      | ok o1 => rw [he] at h; exact ih o1 l2 o' h
  exact ⟨_, h _ _ _ _ (options_ok l hl o)⟩

theorem c137_flags (gs : List Group) (hg : ∀ g ∈ gs, g.WF) (flags : List Char) (hf : ∀ c ∈ flags, c ∈ ['a', 'b', 'd', 'm', 'W']) (c : Char) (hc : c ≠ '-')
    (tail : List Char) (rest : List (List Char)) :
    ∃ l : List (Char × List Char), (∀ p ∈ l, p.1 ∈ ['a', 'b', 'd', 'm', 'W'] ∨ p.1 ∈ ['o', 'w', 'z', 's']) ∧
      getopts [] (words gs ++ ('-' :: (flags ++ c :: tail)) :: rest) = (l.map ev ++ (getopts (c :: tail) rest).1, (getopts (c :: tail) rest).2) := by
  refine ⟨opts gs ++ flags.map fun c => (c, []), ?_, ?_⟩
  · intro p hp
    rcases List.mem_append.1 hp with h | h
    · exact c137_letters gs hg p h
    · obtain ⟨d, hd, rfl⟩ := List.mem_map.1 h
      exact Or.inl (hf d hd)
  · rw [getopts_groups gs hg]
    have : getopts [] (('-' :: (flags ++ c :: tail)) :: rest) = getopts (flags ++ c :: tail) rest := by
      cases flags with
      | nil => exact dash_word c tail rest hc
      | cons d fl => exact dash_word d (fl ++ c :: tail) rest (flag_ne_dash (Or.inl (hf d (by simp))))
    rw [this, getopts_flags flags hf]
    simp only [List.map_append, List.map_map, List.append_assoc]
    rfl

/-- C137: a call that ends with an option whose argument is missing does nothing and has status 1. -/
theorem C137_missing_argument (gs : List Group) (hg : ∀ g ∈ gs, g.WF) (flags : List Char) (hf : ∀ c ∈ flags, c ∈ ['a', 'b', 'd', 'm', 'W']) {c : Char}
    (hc : c ∈ ['o', 'w', 'z', 's']) : timavg sh rd (words gs ++ ['-' :: (flags ++ [c])]) = .exit 1 := by
  obtain ⟨l, hl, e⟩ := c137_flags gs hg flags hf c (flag_ne_dash (Or.inr hc)) [] []
  have h1 : getopts [c] [] = ([.missing c], []) := by rw [getopts.eq_def]; simp [kind_arg hc]
  obtain ⟨o', ho⟩ := c137_stop {} l hl [.missing c]
  unfold timavg
  rw [e, h1]
  simp only [ho, options, option, if_true]

/-- C137: an unknown letter ends the call with status 1, whatever comes after it. -/
theorem C137_unknown_option (gs : List Group) (hg : ∀ g ∈ gs, g.WF) (flags : List Char) (hf : ∀ c ∈ flags, c ∈ ['a', 'b', 'd', 'm', 'W']) {c : Char}
    (hc : c ∉ ['a', 'b', 'd', 'm', 'W', 'o', 'w', 'z', 's', 'h', 'V', '-']) (tail : List Char) (rest : List (List Char)) :
    timavg sh rd (words gs ++ ('-' :: (flags ++ c :: tail)) :: rest) = .exit 1 := by
  have hd : c ≠ '-' := by rintro rfl; simp at hc
  obtain ⟨l, hl, e⟩ := c137_flags gs hg flags hf c hd tail rest
  have hk : kind c = none := by
    simp only [List.mem_cons, List.not_mem_nil, or_false, not_or] at hc
    unfold kind
    rw [if_neg, if_neg] <;> simp only [List.mem_cons, List.not_mem_nil, or_false] <;> tauto
  have h1 : getopts (c :: tail) rest = (.bad c :: (getopts tail rest).1, (getopts tail rest).2) := by rw [getopts.eq_def]; simp [hk]
  obtain ⟨o', ho⟩ := c137_stop {} l hl (.bad c :: (getopts tail rest).1)
  unfold timavg
  rw [e, h1]
  simp only [ho, options, option]

/-- C137: `-h` and `-V` end the call with status 0, whatever comes after them. -/
theorem C137_help (gs : List Group) (hg : ∀ g ∈ gs, g.WF) (flags : List Char) (hf : ∀ c ∈ flags, c ∈ ['a', 'b', 'd', 'm', 'W']) {c : Char}
    (hc : c = 'h' ∨ c = 'V') (tail : List Char) (rest : List (List Char)) :
    timavg sh rd (words gs ++ ('-' :: (flags ++ c :: tail)) :: rest) = .exit 0 := by
  have hd : c ≠ '-' := by rintro rfl; simp at hc
  obtain ⟨l, hl, e⟩ := c137_flags gs hg flags hf c hd tail rest
  have hk : kind c = some false := by rcases hc with rfl | rfl <;> decide
  have h1 : getopts (c :: tail) rest = (.opt c [] :: (getopts tail rest).1, (getopts tail rest).2) := by rw [getopts.eq_def]; simp [hk]
  obtain ⟨o', ho⟩ := c137_stop {} l hl (.opt c [] :: (getopts tail rest).1)
  unfold timavg
  rw [e, h1]
  rcases hc with rfl | rfl <;> simp [ho, options, option]

/-- C137, wrong: with more than 200 files the call succeeds with the first 200 of them, and every option but `-o` is lost: the namelist has too many values for `file_names`,
and errors of the namelist are passed over (time_average.f90 100). -/
theorem C137_many_files_wrong (hglob : C137Glob sh) (gs : List Group) (hg : ∀ g ∈ gs, g.WF) (dashes : Bool) (files : List (List Char))
    (hfirst : ∀ f, files.head? = some f → f.head? ≠ some '-') (hp : ∀ f ∈ files, Plain f) (hr : ∀ f ∈ files, sh.readable f = true) (hn : 200 < files.length)
    (hout : OutName (value gs 'o' c137_out)) :
    timavg sh rd (c137_call gs dashes files) = .run ⟨value gs 'o' c137_out, files.take 200, true, false, false, false, false, 0, -1, -1⟩ := by
  have hne : files ≠ [] := by rintro rfl; simp at hn
  rw [c137_script rd hglob gs hg dashes files hne hfirst hp, if_neg (by simpa using hr), c137_read rd hglob _ hout files hne hp hfirst, if_pos hn]
  rw [c137_accept (files := files) rfl hne hp hout (by decide : -1 ≤ (-1 : Int) ∧ (-1 : Int) ≤ 9) (by decide : -1 ≤ (-1 : Int) ∧ (-1 : Int) ≤ 1)]
  rfl

/-- C137, wrong: a value of `-w` that is no number is passed over without a message, and with it `-z` and `-s`, whatever their values are. -/
theorem C137_bad_weight_wrong (hglob : C137Glob sh) (gs : List Group) (hg : ∀ g ∈ gs, g.WF) (dashes : Bool) (files : List (List Char)) (hne : files ≠ [])
    (hfirst : ∀ f, files.head? = some f → f.head? ≠ some '-') (hp : ∀ f ∈ files, Plain f) (hr : ∀ f ∈ files, sh.readable f = true) (hn : files.length ≤ 200)
    (hout : OutName (value gs 'o' c137_out)) (hx : rd.real (value gs 'w' ['0', '.', '0'] ++ [',']) = none) :
    timavg sh rd (c137_call gs dashes files) =
      .run ⟨value gs 'o' c137_out, files, !given gs 'm', given gs 'd', given gs 'b', given gs 'a', given gs 'W', 0, -1, -1⟩ := by
  rw [c137_script rd hglob gs hg dashes files hne hfirst hp, if_neg (by simpa using hr), c137_read rd hglob _ hout files hne hp hfirst, if_neg (by omega)]
  simp only [namelist, List.drop_succ_cons, List.drop_zero, readNamelist, assign, c137_readLogical, hx, Bool.false_eq_true, if_false, if_true]
  rw [c137_accept (files := files) rfl hne hp hout (by decide : -1 ≤ (-1 : Int) ∧ (-1 : Int) ≤ 9) (by decide : -1 ≤ (-1 : Int) ∧ (-1 : Int) ≤ 1)]
  simp [c137_names, start, List.take_of_length_le hn]

/-! ### Names that do not come through -/

/-- A shell without pattern expansion in which all files are readable. -/
def c137_sh : Shell := ⟨fun _ => true, fun w => [w]⟩

/-- Reads `0.0` and `-1` only. -/
def c137_rd : Reader Int := ⟨fun w => if w = ['0', '.', '0', ','] then some 0 else none, fun w => if w = ['-', '1', ','] then some (-1) else none⟩

/-- C137, wrong: one file `a b` is averaged as two files `a` and `b`. -/
theorem C137_blank_wrong : timavg c137_sh c137_rd [['a', ' ', 'b']] = .run ⟨c137_out, [['a'], ['b']], true, false, false, false, false, 0, -1, -1⟩ := by
  rw [timavg, getopts_files _ _ (by decide)]; rfl

/-- C137, wrong: instead of the file `a,,b` the file `a,b` is averaged, which has not been looked for. -/
theorem C137_commas_wrong : timavg c137_sh c137_rd [['a', ',', ',', 'b']] = .run ⟨c137_out, [['a', ',', 'b']], true, false, false, false, false, 0, -1, -1⟩ := by
  rw [timavg, getopts_files _ _ (by decide)]; rfl

/-- C137, wrong: of the files `-n` and `a` only the second is averaged. -/
theorem C137_dash_wrong : timavg c137_sh c137_rd [['-', '-'], ['-', 'n'], ['a']] = .run ⟨c137_out, [['a']], true, false, false, false, false, 0, -1, -1⟩ := by
  rw [timavg, getopts_dashes]; rfl

/-- C137, wrong: a double quote in the name of the output file makes the program stop for want of files. -/
theorem C137_quote_wrong : timavg c137_sh c137_rd [['-', 'o', 'x', '"', 'y'], ['a']] = .abort := by
  have := getopts_group ⟨[], some ('o', ['x', '"', 'y'], true)⟩ ⟨by simp, by simp, by rintro c x j h; cases h; simp⟩ [['a']]
  have h2 := getopts_files ['a'] [] (by decide)
  rw [h2] at this
  have e : getopts [] [['-', 'o', 'x', '"', 'y'], ['a']] = _ := this
  rw [timavg, e]; rfl

/-! ### Cases -/

/-- `timavg -bm -o out.nc -w0.0 -o r.nc a.nc b,c.nc` -/
def c137_gs : List Group := [⟨['b', 'm'], none⟩, ⟨[], some ('o', ['o', 'u', 't', '.', 'n', 'c'], false)⟩, ⟨[], some ('w', ['0', '.', '0'], true)⟩,
  ⟨['a'], some ('o', ['r', '.', 'n', 'c'], false)⟩]

def c137_files : List (List Char) := [['a', '.', 'n', 'c'], ['b', ',', 'c', '.', 'n', 'c']]

theorem c137_gs_wf : ∀ g ∈ c137_gs, g.WF := by
  intro g hg
  simp only [c137_gs, List.mem_cons, List.not_mem_nil, or_false] at hg
  rcases hg with rfl | rfl | rfl | rfl <;> refine ⟨by decide, by simp, ?_⟩ <;> rintro c x j h <;> cases h <;> simp

theorem c137_files_plain : ∀ f ∈ c137_files, Plain f := by
  intro f hf
  simp only [c137_files, List.mem_cons, List.not_mem_nil, or_false] at hf
  rcases hf with rfl | rfl <;> refine ⟨by decide, by decide, by decide, by decide⟩

/-- The hypotheses of `C137_job` hold. -/
example : timavg c137_sh c137_rd (c137_call c137_gs false c137_files) =
    .run ⟨['r', '.', 'n', 'c'], c137_files, false, false, true, true, false, 0, -1, -1⟩ :=
  C137_job c137_sh c137_rd (fun _ _ => rfl) c137_gs c137_gs_wf false c137_files (by decide) (by decide) c137_files_plain (by simp [c137_sh]) (by decide)
    (by unfold OutName; decide) (x := 0) (by decide) (z := -1) (by decide) (by decide) (s := -1) (by decide) (by decide)

/-- More than 200 files. -/
example : timavg c137_sh c137_rd (c137_call c137_gs true (List.replicate 300 ['a'])) =
    .run ⟨['r', '.', 'n', 'c'], List.replicate 200 ['a'], true, false, false, false, false, 0, -1, -1⟩ := by
  have := C137_many_files_wrong c137_sh c137_rd (fun _ _ => rfl) c137_gs c137_gs_wf true (List.replicate 300 ['a']) (by intro f h; simp at h; subst h; decide)
    (by intro f hf; rw [List.eq_of_mem_replicate hf]; exact ⟨by decide, by decide, by decide, by decide⟩) (fun _ _ => rfl) (by rw [List.length_replicate]; decide) (by unfold OutName; decide)
  rw [List.take_replicate] at this
  exact this

end Verif
