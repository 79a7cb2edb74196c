import Verif.Lemmas.Tokenize
/-
C36: splitting of strings.
-/
namespace Verif.Tokenize
open Verif.Spec

theorem tokenize_rows (s tokens : List Char) (varlen maxvar : Nat) (hs : s ≠ []) (h1 : 0 < varlen) (h2 : 0 < maxvar) :
    let r := rows ((squeeze s).splitOnP fun c => tokens.contains c)
    (r.length ≤ maxvar ∧ (∀ w ∈ r, w.length < varlen) → tokenize s tokens varlen maxvar = .ok r) ∧
    (¬(r.length ≤ maxvar ∧ (∀ w ∈ r, w.length < varlen)) → ∃ e, tokenize s tokens varlen maxvar = .error e) := by
  have := tokGo_spec tokens varlen maxvar (squeeze s) (by
    intro c hc; unfold squeeze at hc; simpa using (List.mem_filter.1 hc).2) [] [] h2 h1
  unfold tokenize
  rw [if_neg hs, tokGo_squeeze]
  simpa using this

theorem rows_words (s tokens : List Char) (h : EndsInWord tokens s) :
    rows ((squeeze s).splitOnP fun c => tokens.contains c) = words tokens s := by
  rw [rows_last _ (by simp), words]
  rw [if_neg]
  · simp
  · have := split_last (p := fun c => tokens.contains c) (squeeze s) []
    intro hl
    revert hl
    change ((squeeze s).splitOnPPrepend (fun c => tokens.contains c) []).getLast _ = [] → False
    rw [this]
    obtain ⟨c, h1, h2⟩ := h
    rintro (⟨h3, -⟩ | ⟨d, h3, h4⟩)
    · rw [h3] at h1; exact absurd h1 (by simp)
    · rw [h1] at h3
      simp only [Option.some.injEq] at h3
      subst h3
      exact h2 (by simpa using h4)

theorem rows_words_trailing (s tokens : List Char) (h : ¬EndsInWord tokens s) :
    rows ((squeeze s).splitOnP fun c => tokens.contains c) = words tokens s ++ [[]] := by
  rw [rows_last _ (by simp), words, if_pos]
  change ((squeeze s).splitOnPPrepend (fun c => tokens.contains c) []).getLast _ = []
  rw [split_last]
  cases e : (squeeze s).getLast? with
  | none => left; exact ⟨List.getLast?_eq_none_iff.1 e, rfl⟩
  | some c =>
    right
    refine ⟨c, rfl, ?_⟩
    apply Classical.byContradiction
    intro hc
    exact h ⟨c, e, by simpa using hc⟩

/-- C36. A string that ends within a word is split into its words, in order, without the empty ones; the program
stops exactly if there are more words than rows or a word does not fit a row with its terminating zero. -/
theorem C36_words (s tokens : List Char) (varlen maxvar : Nat) (h1 : 0 < varlen) (h2 : 0 < maxvar)
    (h : EndsInWord tokens s) :
    ((words tokens s).length ≤ maxvar ∧ (∀ w ∈ words tokens s, w.length < varlen) →
      tokenize s tokens varlen maxvar = .ok (words tokens s)) ∧
    (¬((words tokens s).length ≤ maxvar ∧ (∀ w ∈ words tokens s, w.length < varlen)) →
      ∃ e, tokenize s tokens varlen maxvar = .error e) := by
  have hs : s ≠ [] := by
    rintro rfl; obtain ⟨c, hc, -⟩ := h; simp [squeeze] at hc
  have := tokenize_rows s tokens varlen maxvar hs h1 h2
  rw [rows_words s tokens h] at this
  exact this

/-- C36. A string that ends with a separator, or is blank, gives an empty word more. -/
theorem C36_trailing_wrong (s tokens : List Char) (varlen maxvar : Nat) (h1 : 0 < varlen) (hs : s ≠ [])
    (h : ¬EndsInWord tokens s) (hn : (words tokens s).length + 1 ≤ maxvar)
    (hl : ∀ w ∈ words tokens s, w.length < varlen) :
    tokenize s tokens varlen maxvar = .ok (words tokens s ++ [[]]) := by
  have := (tokenize_rows s tokens varlen maxvar hs h1 (by omega)).1
  rw [rows_words_trailing s tokens h] at this
  apply this
  refine ⟨by simpa using hn, fun w hw => ?_⟩
  rcases List.mem_append.1 hw with hw | hw
  · exact hl w hw
  · simp at hw; subst hw; simpa using h1

/-- C36. No word contains a separator, a blank or a tab. -/
theorem C36_clean (s tokens : List Char) (varlen maxvar : Nat) (h1 : 0 < varlen) (h2 : 0 < maxvar)
    (r : List (List Char)) (h : tokenize s tokens varlen maxvar = .ok r) :
    r.length ≤ maxvar ∧ ∀ w ∈ r, w.length < varlen ∧ ∀ c ∈ w, c ∉ tokens ∧ c ≠ ' ' ∧ c ≠ '\t' := by
  have hs : s ≠ [] := by
    rintro rfl; simp [tokenize] at h
  obtain ⟨k1, k2⟩ := tokenize_rows s tokens varlen maxvar hs h1 h2
  by_cases hc : (rows ((squeeze s).splitOnP fun c => tokens.contains c)).length ≤ maxvar ∧
      ∀ w ∈ rows ((squeeze s).splitOnP fun c => tokens.contains c), w.length < varlen
  · have e := k1 hc
    rw [h] at e
    simp only [Except.ok.injEq] at e
    rw [e]
    refine ⟨hc.1, fun w hw => ⟨hc.2 w hw, fun c hcw => ?_⟩⟩
    -- the pieces
    have piece : ∀ (t acc : List Char), (∀ c ∈ acc, c ∉ tokens) → ∀ w ∈ t.splitOnPPrepend (fun c => tokens.contains c) acc,
        ∀ c ∈ w, (c ∈ t ∨ c ∈ acc) ∧ c ∉ tokens := by
      intro t
      induction t with
      | nil =>
        intro acc ha w hw c hc
        simp [List.splitOnPPrepend] at hw
        subst hw
        rw [List.mem_reverse] at hc
        exact ⟨Or.inr hc, ha c hc⟩
      | cons d t ih =>
        intro acc ha w hw c hc
        rw [List.splitOnPPrepend_cons_eq_if] at hw
        split at hw
        · rcases List.mem_cons.1 hw with rfl | hw
          · rw [List.mem_reverse] at hc
            exact ⟨Or.inr hc, ha c hc⟩
          · obtain ⟨k, k'⟩ := ih [] (by simp) w hw c hc
            exact ⟨Or.inl (by simpa using Or.inr (by simpa using k)), k'⟩
        · rename_i hd
          obtain ⟨k, k'⟩ := ih (d :: acc) (by
            intro x hx
            rcases List.mem_cons.1 hx with rfl | hx
            · simpa using hd
            · exact ha x hx) w hw c hc
          refine ⟨?_, k'⟩
          rcases k with k | k
          · exact Or.inl (List.mem_cons_of_mem _ k)
          · rcases List.mem_cons.1 k with rfl | k
            · exact Or.inl (by simp)
            · exact Or.inr k
    have hw' : w ∈ (squeeze s).splitOnP fun c => tokens.contains c := by
      have e2 := rows_last ((squeeze s).splitOnP fun c => tokens.contains c) (by simp)
      rw [e2] at hw
      rcases List.mem_append.1 hw with hw | hw
      · exact (List.mem_filter.1 hw).1
      · split at hw
        · simp at hw; subst hw; exact absurd hcw (by simp)
        · exact absurd hw (by simp)
    obtain ⟨k, k'⟩ := piece (squeeze s) [] (by simp) w hw' c hcw
    refine ⟨k', ?_⟩
    have : c ∈ squeeze s := by simpa using k
    simpa [squeeze] using (List.mem_filter.1 this).2
  · obtain ⟨e, he⟩ := k2 hc
    rw [h] at he
    exact absurd he (by simp)

theorem squeeze_id {s : List Char} (h : ∀ c ∈ s, c ≠ ' ' ∧ c ≠ '\t') : squeeze s = s := by
  unfold squeeze
  rw [List.filter_eq_self]
  intro c hc
  simpa using h c hc

theorem intercalate_cons (sep : Char) (w w' : List Char) (ws : List (List Char)) :
    [sep].intercalate (w :: w' :: ws) = w ++ sep :: [sep].intercalate (w' :: ws) := by
  simp [List.intercalate, List.intersperse]

theorem split_join (ws : List (List Char)) (sep : Char) (tokens : List Char) (hsep : sep ∈ tokens) (hne : ws ≠ [])
    (hw : ∀ w ∈ ws, ∀ c ∈ w, c ∉ tokens) :
    ([sep].intercalate ws).splitOnP (fun c => tokens.contains c) = ws := by
  induction ws with
  | nil => exact absurd rfl hne
  | cons w ws ih =>
    have hw0 : ∀ c ∈ w, (fun c => tokens.contains c) c = false := by
      intro c hc
      have := hw w (by simp) c hc
      simpa using this
    cases ws with
    | nil =>
      have : [sep].intercalate [w] = w := by simp [List.intercalate, List.intersperse]
      rw [this, List.splitOnP_eq_singleton hw0]
    | cons w' ws =>
      rw [intercalate_cons, List.splitOnP_append_cons_of_forall_mem hw0 sep (by simpa using hsep),
        ih (by simp) fun w hw' => hw w (List.mem_cons_of_mem _ hw')]

theorem rows_nonempty (ws : List (List Char)) (hne : ws ≠ []) (h : ∀ w ∈ ws, w ≠ []) : rows ws = ws := by
  rw [rows_last ws hne, if_neg (h _ (List.getLast_mem hne)), List.append_nil, List.filter_eq_self]
  intro w hw
  simpa using h w hw

theorem mem_intercalate {sep : Char} {ws : List (List Char)} {c : Char} (h : c ∈ [sep].intercalate ws) :
    c = sep ∨ ∃ w ∈ ws, c ∈ w := by
  induction ws with
  | nil => simp [List.intercalate] at h
  | cons w ws ih =>
    cases ws with
    | nil =>
      have : [sep].intercalate [w] = w := by simp [List.intercalate, List.intersperse]
      rw [this] at h
      exact Or.inr ⟨w, by simp, h⟩
    | cons w' ws =>
      rw [intercalate_cons] at h
      rcases List.mem_append.1 h with h | h
      · exact Or.inr ⟨w, by simp, h⟩
      · rcases List.mem_cons.1 h with h | h
        · exact Or.inl h
        · rcases ih h with h | ⟨v, hv, hc⟩
          · exact Or.inl h
          · exact Or.inr ⟨v, List.mem_cons_of_mem _ hv, hc⟩

/-- C36. Words joined with a separator are split into the same words. -/
theorem C36_join (ws : List (List Char)) (sep : Char) (tokens : List Char) (varlen maxvar : Nat)
    (hsep : sep ∈ tokens) (hblank : sep ≠ ' ' ∧ sep ≠ '\t') (hne : ws ≠ []) (hlen : ws.length ≤ maxvar)
    (hw : ∀ w ∈ ws, w ≠ [] ∧ w.length < varlen ∧ ∀ c ∈ w, c ∉ tokens ∧ c ≠ ' ' ∧ c ≠ '\t') :
    tokenize ([sep].intercalate ws) tokens varlen maxvar = .ok ws := by
  obtain ⟨w, ws', rfl⟩ : ∃ w ws', ws = w :: ws' := by
    cases ws with
    | nil => exact absurd rfl hne
    | cons w ws' => exact ⟨w, ws', rfl⟩
  have hw0 := hw w (by simp)
  have hs : [sep].intercalate (w :: ws') ≠ [] := by
    cases ws' with
    | nil =>
      have : [sep].intercalate [w] = w := by simp [List.intercalate, List.intersperse]
      rw [this]; exact hw0.1
    | cons w' ws' => rw [intercalate_cons]; simp
  have hsq : squeeze ([sep].intercalate (w :: ws')) = [sep].intercalate (w :: ws') := by
    apply squeeze_id
    intro c hc
    rcases mem_intercalate hc with rfl | ⟨v, hv, hc⟩
    · exact hblank
    · exact ((hw v hv).2.2 c hc).2
  have k := (tokenize_rows ([sep].intercalate (w :: ws')) tokens varlen maxvar hs (by omega)
    (by simp at hlen; omega)).1
  rw [hsq, split_join _ sep tokens hsep (by simp) (fun v hv c hc => ((hw v hv).2.2 c hc).1),
    rows_nonempty _ (by simp) fun v hv => (hw v hv).1] at k
  exact k ⟨hlen, fun v hv => (hw v hv).2.1⟩

example : tokenize "ocean,land,ice".toList [','] 20 5 = .ok ["ocean".toList, "land".toList, "ice".toList] := by rfl
example : tokenize "mosaic:tile1::mosaic:tile2".toList [':'] 20 5 =
    .ok ["mosaic".toList, "tile1".toList, "mosaic".toList, "tile2".toList] := by rfl
example : tokenize "a,b,".toList [','] 20 5 = .ok ["a".toList, "b".toList, []] := by rfl
example : EndsInWord [','] "a,b".toList := ⟨'b', by decide, by decide⟩

/-- C36. A blank among the separators has no effect, because blanks are dropped first: the names of a `coordinates`
attribute, which are separated by blanks, are run together (fregrid_util.c 1797 splits at ", "). -/
theorem C36_blank_wrong (s tokens : List Char) (varlen maxvar : Nat) :
    tokenize s (' ' :: tokens) varlen maxvar = tokenize s tokens varlen maxvar := by
  unfold tokenize
  split
  · rfl
  · generalize ([] : List (List Char)) = done
    generalize ([] : List Char) = cur
    induction s generalizing done cur with
    | nil => rfl
    | cons c s ih =>
      have ih' : ∀ done cur, tokGo (' ' :: tokens) varlen maxvar s done cur = tokGo tokens varlen maxvar s done cur := by
        by_cases hs : s = []
        · intro done cur; subst hs; rfl
        · exact fun done cur => ih hs done cur
      rw [tokGo, tokGo]
      split
      · rename_i hc
        have : (' ' :: tokens).contains c = tokens.contains c := by
          simp [hc.1]
        rw [this]
        simp only [ih']
      · exact ih' done cur

example : tokenize "geolon geolat".toList [',', ' '] 20 5 = .ok ["geolongeolat".toList] := by rfl

end Verif.Tokenize
