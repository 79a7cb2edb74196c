import Verif.Model.ListVars
import Verif.Spec.ListVars
import Mathlib.Data.List.Basic
import Mathlib.Data.List.Nodup
import Mathlib.Tactic.IntervalCases
import Mathlib.Tactic.Linarith
/-
C97: list_ncvars lists the variables asked for. C98: ncexists.
-/
namespace Verif.ListVars

open Verif.Spec.ListVars

/-! ### Lemmas -/

theorem lastChars_eq {m : Memory} {name e : List Char} :
    lastChars m name e.length = e ↔ e <:+ name ∨ (name.length < e.length ∧ name <:+ e ∧
      ((List.range (e.length - name.length)).map m.before).reverse = e.take (e.length - name.length)) := by
  unfold lastChars
  rcases Nat.lt_or_ge name.length e.length with h | h
  · rw [Nat.sub_eq_zero_of_le (Nat.le_of_lt h), List.drop_zero]
    constructor
    · intro he
      right
      refine ⟨h, ⟨_, he⟩, ?_⟩
      conv_rhs => rw [← he]
      rw [List.take_append_of_le_length (by simp), List.take_of_length_le (by simp)]
    · rintro (h' | ⟨_, ⟨p, hp⟩, h'⟩)
      · exact absurd h'.length_le (by omega)
      · rw [h', ← hp]
        congr 1
        have : (p ++ name).length - name.length = p.length := by simp
        rw [this, List.take_left']
        rfl
  · rw [Nat.sub_eq_zero_of_le h, List.range_zero, List.map_nil, List.reverse_nil, List.nil_append]
    constructor
    · intro he
      exact .inl (he ▸ List.drop_suffix _ _)
    · rintro (⟨p, hp⟩ | h')
      · subst hp
        simp
      · omega

theorem skipped_iff {m : Memory} {name : List Char} (h : ∀ e ∈ endings, name <:+ e → name = e) :
    skipped m name = true ↔ ∃ e ∈ endings, e <:+ name := by
  have key : ∀ e ∈ endings, (lastChars m name e.length = e ↔ e <:+ name) := by
    intro e he
    rw [lastChars_eq]
    constructor
    · rintro (h' | ⟨h1, h2, _⟩)
      · exact h'
      · exact absurd (h e he h2) (by rintro rfl; omega)
    · exact .inl
  have k1 := key ['_', 'T', '1'] (by decide)
  have k2 := key ['_', 'T', '2'] (by decide)
  have k3 := key ['_', 'D', 'T'] (by decide)
  have k4 := key ['_', 'N', 'I', 'T', 'E', 'M', 'S'] (by decide)
  simp only [List.length_cons, List.length_nil, Nat.zero_add, Nat.reduceAdd] at k1 k2 k3 k4
  have he : endings = [['_', 'T', '1'], ['_', 'T', '2'], ['_', 'D', 'T'], ['_', 'N', 'I', 'T', 'E', 'M', 'S']] := by decide
  unfold skipped
  rw [he]
  simp only [Bool.or_eq_true, decide_eq_true_eq, k1, k2, k3, k4, List.mem_cons, List.not_mem_nil, or_false,
    exists_eq_or_imp, exists_eq_left, or_assoc]

theorem lastDim_eq {m : Memory} {recdim : Int} {v : Var} (h : v.dims ≠ []) (hl : recdim ∉ v.dims.dropLast) :
    lastDim m v = recdim ↔ recdim ∈ v.dims := by
  unfold lastDim
  rw [List.getLast?_eq_some_getLast h, Option.getD_some]
  constructor
  · rintro rfl
    exact List.getLast_mem h
  · intro hm
    rw [← List.dropLast_append_getLast h, List.mem_append] at hm
    rcases hm with hm | hm
    · exact absurd hm hl
    · exact (List.mem_singleton.mp hm).symm

theorem rank_eq {recdim : Int} {v : Var} (h : v.dims ≠ []) (hl : recdim ∉ v.dims.dropLast) :
    (rank recdim v : Int) = if recdim ∈ v.dims then (v.dims.length : Int) - 1 else v.dims.length := by
  unfold rank
  split_ifs with hm
  · have e : v.dims.getLast h = recdim := by
      rw [← List.dropLast_append_getLast h, List.mem_append] at hm
      rcases hm with hm | hm
      · exact absurd hm hl
      · exact (List.mem_singleton.mp hm).symm
    conv_lhs => rw [← List.dropLast_append_getLast h, e, List.filter_append]
    have : v.dims.dropLast.filter (· ≠ recdim) = v.dims.dropLast := by
      rw [List.filter_eq_self]
      intro a ha
      have : a ≠ recdim := fun h => hl (h ▸ ha)
      simpa using this
    rw [this]
    have hp : 0 < v.dims.length := List.length_pos_iff.mpr h
    simp [List.length_dropLast]
    omega
  · congr 2
    rw [List.filter_eq_self]
    intro a ha
    have : a ≠ recdim := fun h => hm (h ▸ ha)
    simpa using this

theorem listed_iff {m : Memory} {recdim : Int} {o : Opts} {v : Var} (h : Plain recdim v) :
    listed m recdim o v = true ↔ Wanted recdim o v := by
  have hs := skipped_iff (m := m) h.name
  have hr := rank_eq h.dims h.last
  have hd := lastDim_eq (m := m) h.dims h.last
  have h4 := h.rank
  unfold listed Wanted
  by_cases hc : v.isChar = true
  · simp [hc]
  rw [if_neg hc]
  by_cases hk : skipped m v.name = true
  · rw [if_pos hk]
    obtain ⟨e, he, hn⟩ := hs.mp hk
    constructor
    · intro h; cases h
    · rintro ⟨-, h', -⟩
      exact absurd hn (h' e he)
  rw [if_neg hk]
  have hn : ∀ e ∈ endings, ¬ e <:+ v.name := fun e he hn => hk (hs.mpr ⟨e, he, hn⟩)
  have hcf : v.isChar = false := by simpa using hc
  have hn' : (∀ e ∈ endings, ¬ e <:+ v.name) = True := eq_true hn
  simp only [hcf, hn', true_and]
  by_cases hm : recdim ∈ v.dims
  · have hd' := hd.mpr hm
    rw [if_pos hm] at hr
    simp only [hd', decide_true, Bool.not_true, hm, if_true, Bool.false_eq_true, if_false, Bool.not_false, Bool.and_true, Bool.and_false]
    rw [← hr]
    generalize rank recdim v = r at *
    interval_cases r <;> simp [Opts.ranks] <;> cases o.nonstatic <;> simp
  · have hd' : ¬ lastDim m v = recdim := fun h => hm (hd.mp h)
    rw [if_neg hm] at hr
    simp only [hd', decide_false, Bool.not_false, hm, if_true, if_false, Bool.not_true, Bool.and_true, Bool.and_false, Bool.false_eq_true]
    rw [← hr]
    generalize rank recdim v = r at *
    interval_cases r <;> simp [Opts.ranks] <;> cases o.static <;> simp

/-! ### C97 -/

open Classical in
/-- For a file whose variables are all plain, the names listed are those of the wanted variables, each once, in the order of the
file, whatever is in memory.

Missing for the full statement: variables without dimensions, of rank above 4 or with short names, see below; and dimension
variables are listed although the manual says that they are not. -/
theorem C97_list_partial (m : Nat → Memory) (recdim : Int) (o : Opts) (vars : List Var) (h : ∀ v ∈ vars, Plain recdim v) :
    listVars m recdim o vars = (vars.filter fun v => decide (Wanted recdim o v)).map (·.name) := by
  unfold listVars
  have : ∀ (l : List Var) (k : Nat), (∀ v ∈ l, Plain recdim v) →
      ((l.zipIdx k).filter fun x => listed (m x.2) recdim o x.1).map (·.1.name)
        = (l.filter fun v => decide (Wanted recdim o v)).map (·.name) := by
    intro l
    induction l with
    | nil => intro k _; rfl
    | cons v l ih =>
      intro k hl
      rw [List.zipIdx_cons, List.filter_cons, List.filter_cons]
      have := listed_iff (m := m k) (o := o) (hl v (by simp))
      have ih' := ih (k + 1) fun w hw => hl w (by simp [hw])
      by_cases hw : Wanted recdim o v
      · rw [if_pos (this.mpr hw), if_pos (by simpa using hw), List.map_cons, List.map_cons, ih']
      · rw [if_neg (fun h => hw (this.mp h)), if_neg (by simpa using hw), ih']
  exact this vars 0 h

/-- A variable without dimensions: whether it is listed with `-s -0` depends on the memory before `dimids`, for every file with a
record dimension or without. -/
theorem C97_scalar_wrong (recdim : Int) : ∃ v : Var, v.dims = [] ∧ ∃ m m' : Memory,
    listed m recdim ⟨false, true, false, false, false, false, true⟩ v = true ∧
    listed m' recdim ⟨false, true, false, false, false, false, true⟩ v = false := by
  refine ⟨⟨"some_constant".toList, false, []⟩, rfl, ⟨fun _ => ' ', recdim + 1⟩, ⟨fun _ => ' ', recdim⟩, ?_, ?_⟩
  · have : ¬ recdim + 1 = recdim := by omega
    simp [listed, lastDim, skipped, lastChars, this]
  · simp [listed, lastDim, skipped, lastChars]

/-- A variable with the name `T1`: whether it is listed depends on the character before it in memory. -/
theorem C97_short_wrong : ∃ v : Var, v.name = "T1".toList ∧ ∃ m m' : Memory,
    listed m 0 ⟨true, false, false, false, false, true, false⟩ v = true ∧
    listed m' 0 ⟨true, false, false, false, false, true, false⟩ v = false :=
  ⟨⟨"T1".toList, false, [1, 0]⟩, rfl, ⟨fun _ => ' ', 0⟩, ⟨fun _ => '_', 0⟩, by decide, by decide⟩

/-- Variables of rank 5 or more are listed even if no rank is asked for. -/
theorem C97_rank_wrong (m : Memory) (recdim : Int) (v : Var) (hc : v.isChar = false) (hn : skipped m v.name = false)
    (h : 6 ≤ v.dims.length) : listed m recdim ⟨true, true, false, false, false, false, false⟩ v = true := by
  have : ∀ b : Bool, ∀ k : Int, k ≤ 4 → (((if b then (v.dims.length : Int) else v.dims.length - 1) = k) ↔ False) := by
    intro b k hk
    constructor
    · intro h'
      cases b <;> simp at h' <;> omega
    · exact False.elim
  unfold listed
  simp only [hc, hn, Bool.false_eq_true, if_false, Bool.not_true, Bool.false_and, Bool.not_false, Bool.true_and,
    this _ 4 (by decide), this _ 3 (by decide), this _ 2 (by decide), this _ 1 (by decide), this _ 0 (by decide), decide_false]

/-- A dimension variable (here `lat` on the dimension `lat`) is listed like any other, against the manual. -/
theorem C97_dimension_wrong (m : Memory) : listed m 0 ⟨false, true, false, false, false, true, false⟩ ⟨"latitude".toList, false, [1]⟩ = true := by
  simp [listed, lastDim, skipped, lastChars]

/-- The rank asked for by a letter of list_ncvars.sh, and the kind -/
theorem parse_ok {l : List Char} {s s' : Shell} (h : parse l s = .ok s') :
    (∀ c ∈ l, c ∈ "st01234".toList) ∧
    (s'.static = if 's' ∈ l then ".true." else s.static) ∧ (s'.nonstatic = if 't' ∈ l then ".true." else s.nonstatic) ∧
    (s'.var0d = if '0' ∈ l then ".true." else s.var0d) ∧ (s'.var1d = if '1' ∈ l then ".true." else s.var1d) ∧
    (s'.var2d = if '2' ∈ l then ".true." else s.var2d) ∧ (s'.var3d = if '3' ∈ l then ".true." else s.var3d) ∧
    (s'.var4d = if '4' ∈ l then ".true." else s.var4d) := by
  fun_induction parse l s with
  | case1 => cases h; simp
  | case9 => cases h
  | case10 => cases h
  | case11 => cases h
  | _ =>
    rename_i ih
    have := ih h
    obtain ⟨a, b⟩ := this
    refine ⟨?_, ?_⟩
    · intro c hc
      rcases List.mem_cons.mp hc with rfl | hc
      · decide
      · exact a c hc
    · simpa using b

theorem parse_of {l : List Char} (hl : ∀ c ∈ l, c ∈ "st01234".toList) (s : Shell) : ∃ s', parse l s = .ok s' := by
  induction l generalizing s with
  | nil => exact ⟨s, rfl⟩
  | cons c l ih =>
    have hc := hl c (by simp)
    have ih' := ih fun c hc => hl c (by simp [hc])
    have : c ∈ ['s', 't', '0', '1', '2', '3', '4'] := hc
    simp only [List.mem_cons, List.not_mem_nil, or_false] at this
    rcases this with rfl | rfl | rfl | rfl | rfl | rfl | rfl <;> exact ih' _

/-- The kinds and ranks named by letters -/
def asked (l : List Char) : Opts where
  nonstatic := decide ('t' ∈ l)
  static := decide ('s' ∈ l)
  var4d := decide ('4' ∈ l)
  var3d := decide ('3' ∈ l)
  var2d := decide ('2' ∈ l)
  var1d := decide ('1' ∈ l)
  var0d := decide ('0' ∈ l)

/-- The options of list_ncvars.sh, in any order and number: with letters among `st01234` only, and files that exist, the script
lists for each file what list_ncvars lists with the kinds and ranks given as letters. -/
theorem C97_script (m : Nat → Nat → Memory) {l : List Char} (hl : ∀ c ∈ l, c ∈ "st01234".toList) (files : List (Int × List Var))
    (hf : files ≠ []) : script m l (files.map some) = .ok (files.zipIdx.flatMap fun f =>
      listVars (m f.2) f.1.1 (asked l) f.1.2) := by
  obtain ⟨s, hs⟩ := parse_of hl {}
  obtain ⟨-, h1, h2, h3, h4, h5, h6, h7⟩ := parse_ok hs
  have hch : check s = .ok () := by
    unfold check
    rw [if_neg, if_neg]
    · rintro ⟨-, -, h, -⟩
      rw [h5] at h
      split_ifs at h <;> revert h <;> decide
    · rintro ⟨h, -⟩
      rw [h1] at h
      split_ifs at h <;> revert h <;> decide
  have ho : s.opts = asked l := by
    have e : ∀ p : Prop, [Decidable p] → ((if p then ".true." else ".false.") = ".true.") = p := by
      intro p _
      split_ifs with h <;> simp [h]
    unfold Shell.opts asked
    simp only [h1, h2, h3, h4, h5, h6, h7, e]
  unfold script
  rw [hs]
  simp only [bind, Except.bind, hch, pure, Except.pure]
  rw [if_neg (by simpa using hf), if_neg (by simp), ho, List.zipIdx_map, List.flatMap_map]
  rfl

/-- The checks of the script are never effective: without any option it goes through all files and lists nothing of rank up
to 4, and ends without an error. -/
theorem C97_nothing_asked_wrong (m : Nat → Nat → Memory) (files : List (Int × List Var)) (hf : files ≠ [])
    : script m [] (files.map some) = .ok [] := by
  rw [C97_script m (by simp) files hf]
  congr 1
  rw [List.flatMap_eq_nil_iff]
  intro f _
  unfold listVars
  rw [List.map_eq_nil_iff, List.filter_eq_nil_iff]
  intro x _
  unfold listed asked
  simp only [List.not_mem_nil, decide_false, Bool.not_false, Bool.true_and]
  split_ifs <;> simp_all

/-! ### C98 -/

theorem parseArgs_ok {l : List Arg} {s : Args} (hh : .help ∉ l) (hv : .version ∉ l) (hb : .bad ∉ l) :
    ∃ s', parseArgs l s = .ok s' ∧
      (∀ x, Last l .filename x → s'.filename = some x) ∧ (Absent l .filename → s'.filename = s.filename) ∧
      (∀ x, Last l .globalAtt x → s'.gattr = some x) ∧ (Absent l .globalAtt → s'.gattr = s.gattr) ∧
      (∀ x, Last l .varName x → s'.var = some x) ∧ (Absent l .varName → s'.var = s.var) ∧
      (∀ x, Last l .varAtt x → s'.attr = some x) ∧ (Absent l .varAtt → s'.attr = s.attr) := by
  have nolast : ∀ (k : String → Arg) x, ¬ Last [] k x := by
    rintro k x ⟨l, r, h, -⟩
    exact absurd h (by simp)
  have last : ∀ (k : String → Arg) (a : Arg) (l : List Arg) (x : String), Last (a :: l) k x →
      Last l k x ∨ (Absent l k ∧ a = k x) := by
    rintro k a l x ⟨p, r, h, hr⟩
    cases p with
    | nil =>
      rw [List.nil_append, List.cons.injEq] at h
      exact .inr ⟨h.2 ▸ hr, h.1⟩
    | cons b p =>
      rw [List.cons_append, List.cons.injEq] at h
      exact .inl ⟨p, r, h.2, hr⟩
  have absent : ∀ (k : String → Arg) (a : Arg) (l : List Arg), Absent (a :: l) k → Absent l k ∧ ∀ y, k y ≠ a := by
    intro k a l h
    exact ⟨fun y hy => h y (by simp [hy]), fun y hy => h y (by simp [hy])⟩
  induction l generalizing s with
  | nil => exact ⟨s, rfl, fun x h => absurd h (nolast _ x), fun _ => rfl, fun x h => absurd h (nolast _ x), fun _ => rfl,
      fun x h => absurd h (nolast _ x), fun _ => rfl, fun x h => absurd h (nolast _ x), fun _ => rfl⟩
  | cons a l ih =>
    have ih' := fun s => ih (s := s) (fun h => hh (by simp [h])) (fun h => hv (by simp [h])) (fun h => hb (by simp [h]))
    have key : ∀ s1 : Args, parseArgs (a :: l) s = parseArgs l s1 →
        (∀ x, a = .filename x → s1.filename = some x) → ((∀ x, Arg.filename x ≠ a) → s1.filename = s.filename) →
        (∀ x, a = .globalAtt x → s1.gattr = some x) → ((∀ x, Arg.globalAtt x ≠ a) → s1.gattr = s.gattr) →
        (∀ x, a = .varName x → s1.var = some x) → ((∀ x, Arg.varName x ≠ a) → s1.var = s.var) →
        (∀ x, a = .varAtt x → s1.attr = some x) → ((∀ x, Arg.varAtt x ≠ a) → s1.attr = s.attr) →
        ∃ s', parseArgs (a :: l) s = .ok s' ∧
      (∀ x, Last (a :: l) .filename x → s'.filename = some x) ∧ (Absent (a :: l) .filename → s'.filename = s.filename) ∧
      (∀ x, Last (a :: l) .globalAtt x → s'.gattr = some x) ∧ (Absent (a :: l) .globalAtt → s'.gattr = s.gattr) ∧
      (∀ x, Last (a :: l) .varName x → s'.var = some x) ∧ (Absent (a :: l) .varName → s'.var = s.var) ∧
      (∀ x, Last (a :: l) .varAtt x → s'.attr = some x) ∧ (Absent (a :: l) .varAtt → s'.attr = s.attr) := by
      intro s1 h0 f1 f2 g1 g2 v1 v2 a1 a2
      obtain ⟨s', h, F1, F2, G1, G2, V1, V2, A1, A2⟩ := ih' s1
      refine ⟨s', h0.trans h, ?_, ?_, ?_, ?_, ?_, ?_, ?_, ?_⟩
      · intro x hx
        rcases last _ _ _ _ hx with h | ⟨h, e⟩
        · exact F1 x h
        · rw [F2 h, f1 x e]
      · intro h
        rw [F2 (absent _ _ _ h).1, f2 (absent _ _ _ h).2]
      · intro x hx
        rcases last _ _ _ _ hx with h | ⟨h, e⟩
        · exact G1 x h
        · rw [G2 h, g1 x e]
      · intro h
        rw [G2 (absent _ _ _ h).1, g2 (absent _ _ _ h).2]
      · intro x hx
        rcases last _ _ _ _ hx with h | ⟨h, e⟩
        · exact V1 x h
        · rw [V2 h, v1 x e]
      · intro h
        rw [V2 (absent _ _ _ h).1, v2 (absent _ _ _ h).2]
      · intro x hx
        rcases last _ _ _ _ hx with h | ⟨h, e⟩
        · exact A1 x h
        · rw [A2 h, a1 x e]
      · intro h
        rw [A2 (absent _ _ _ h).1, a2 (absent _ _ _ h).2]
    cases a with
    | filename y => exact key { s with filename := some y } rfl (by simp) (by simp) (by simp) (by simp) (by simp) (by simp) (by simp) (by simp)
    | globalAtt y => exact key { s with gattr := some y } rfl (by simp) (by simp) (by simp) (by simp) (by simp) (by simp) (by simp) (by simp)
    | varName y => exact key { s with var := some y } rfl (by simp) (by simp) (by simp) (by simp) (by simp) (by simp) (by simp) (by simp)
    | varAtt y => exact key { s with attr := some y } rfl (by simp) (by simp) (by simp) (by simp) (by simp) (by simp) (by simp) (by simp)
    | help => exact absurd (List.mem_cons_self) hh
    | version => exact absurd (List.mem_cons_self) hv
    | bad => exact absurd (List.mem_cons_self) hb

/-- A question about a global attribute -/
theorem C98_global (disk : String → Disk) {l : List Arg} (hh : .help ∉ l) (hv : .version ∉ l) (hb : .bad ∉ l) {fn g : String}
    (h1 : Last l .filename fn) (h2 : Last l .globalAtt g) {f : Nc} (hf : disk fn = .nc f) :
    (ncexists disk l = .one ↔ g ∈ f.atts) ∧ (ncexists disk l = .zero ↔ g ∉ f.atts) := by
  obtain ⟨s, h, F, -, G, -⟩ := parseArgs_ok (s := {}) hh hv hb
  have hne : l ≠ [] := by rintro rfl; obtain ⟨a, b, hab, -⟩ := h1; simp at hab
  unfold ncexists
  rw [if_neg hne, h]
  simp only [F fn h1, G g h2, hf]
  rw [if_neg (by simp)]
  by_cases hg : g ∈ f.atts <;> simp [hg]

/-- A question about a variable or one of its attributes -/
theorem C98_variable (disk : String → Disk) {l : List Arg} (hh : .help ∉ l) (hv : .version ∉ l) (hb : .bad ∉ l) {fn v : String}
    (h1 : Last l .filename fn) (h2 : Absent l .globalAtt) (h3 : Last l .varName v) {f : Nc} (hf : disk fn = .nc f)
    (hu : (f.vars.map (·.1)).Nodup) :
    (Absent l .varAtt → ((ncexists disk l = .one ↔ ∃ as, (v, as) ∈ f.vars) ∧
      (ncexists disk l = .zero ↔ ¬ ∃ as, (v, as) ∈ f.vars))) ∧
    (∀ a, Last l .varAtt a → ((ncexists disk l = .one ↔ ∃ as, (v, as) ∈ f.vars ∧ a ∈ as) ∧
      (ncexists disk l = .zero ↔ ¬ ∃ as, (v, as) ∈ f.vars ∧ a ∈ as))) := by
  obtain ⟨s, h, F, -, -, G, V, -, A, A'⟩ := parseArgs_ok (s := {}) hh hv hb
  have hne : l ≠ [] := by rintro rfl; obtain ⟨a, b, hab, -⟩ := h1; simp at hab
  unfold ncexists
  rw [if_neg hne, h]
  simp only [F fn h1, G h2, V v h3, hf]
  rw [if_neg (by simp)]
  cases hfi : f.vars.find? (fun w => decide (some w.1 = some v)) with
  | none =>
    have hno : ¬ ∃ as, (v, as) ∈ f.vars := by
      rintro ⟨as, has⟩
      have := List.find?_eq_none.mp hfi (v, as) has
      simp at this
    have hno' : ∀ a, ¬ ∃ as, (v, as) ∈ f.vars ∧ a ∈ as := fun a ⟨as, h, _⟩ => hno ⟨as, h⟩
    simp only [hno, hno', iff_false, not_false_eq_true, iff_true, implies_true, and_true, reduceCtorEq]
  | some w =>
    have hw := List.mem_of_find?_eq_some hfi
    have hp : w.1 = v := by simpa using List.find?_some hfi
    obtain ⟨wn, wa⟩ := w
    simp only at hp
    subst hp
    have huniq : ∀ as, (wn, as) ∈ f.vars → as = wa := by
      intro as has
      have := List.inj_on_of_nodup_map hu has hw rfl
      exact (Prod.mk.inj this).2
    constructor
    · intro ha
      have hs : s.attr = none := A' ha
      have hyes : ∃ as, (wn, as) ∈ f.vars := ⟨wa, hw⟩
      simp [hs, hyes]
    · intro a ha
      have hs : s.attr = some a := A a ha
      have : (∃ as, (wn, as) ∈ f.vars ∧ a ∈ as) ↔ a ∈ wa := by
        constructor
        · rintro ⟨as, has, h⟩
          rw [← huniq as has]; exact h
        · intro h
          exact ⟨wa, hw, h⟩
      simp only [hs, this]
      by_cases hg : a ∈ wa <;> simp [hg]

/-- Without a name of a file, or without anything asked for, or for a file that cannot be read, nothing is printed. -/
theorem C98_refused (disk : String → Disk) {l : List Arg} (hh : .help ∉ l) (hv : .version ∉ l) (hb : .bad ∉ l) (hne : l ≠ []) :
    (Absent l .filename → ncexists disk l = .noFilename) ∧
    (∀ fn, Last l .filename fn → Absent l .varName → Absent l .globalAtt → ncexists disk l = .nothingAsked) ∧
    (∀ fn, Last l .filename fn → disk fn = .none → ncexists disk l ≠ .one ∧ ncexists disk l ≠ .zero) ∧
    (∀ fn, Last l .filename fn → disk fn = .other → ncexists disk l ≠ .one ∧ ncexists disk l ≠ .zero) := by
  obtain ⟨s, h, F, F', G, G', V, V', A, A'⟩ := parseArgs_ok (s := {}) hh hv hb
  unfold ncexists
  rw [if_neg hne, h]
  refine ⟨?_, ?_, ?_, ?_⟩
  · intro ha
    simp [F' ha]
  · intro fn hf h1 h2
    simp [F fn hf, V' h1, G' h2]
  · intro fn hf h1
    simp only [F fn hf, h1]
    split_ifs <;> simp
  · intro fn hf h1
    simp only [F fn hf, h1]
    split_ifs <;> simp

/-- If a global attribute and a variable are asked for, the variable is not looked at: the answer is 1 although the variable does
not exist. -/
theorem C98_both_wrong : ∃ (disk : String → Disk) (f : Nc), disk "a.nc" = .nc f ∧ (∀ as, ("v", as) ∉ f.vars) ∧
    ncexists disk [.filename "a.nc", .varName "v", .globalAtt "title"] = .one :=
  ⟨fun _ => .nc ⟨["title"], []⟩, ⟨["title"], []⟩, rfl, by simp, by decide⟩

/-! ### Cases -/

example : Plain 0 ⟨"temperature".toList, false, [2, 1, 0]⟩ := ⟨by decide, by decide, by decide, by decide⟩

example : listVars (fun _ => ⟨fun _ => ' ', 0⟩) 0 ⟨true, false, false, false, true, false, false⟩
    [⟨"temperature".toList, false, [2, 1, 0]⟩, ⟨"average_DT".toList, false, [0]⟩, ⟨"land_mask".toList, false, [2, 1]⟩] =
    ["temperature".toList] := by decide

example : Last [.filename "a", .varName "v", .filename "b"] .filename "b" :=
  ⟨[.filename "a", .varName "v"], [], rfl, by simp⟩

end Verif.ListVars
