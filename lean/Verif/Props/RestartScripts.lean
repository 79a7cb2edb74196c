import Verif.Model.RestartScripts
import Mathlib.Data.List.Basic
import Mathlib.Tactic.IntervalCases
/-
C100: iceberg_comb.sh joins the pieces of an iceberg restart file. C101: plevel.sh and its namelist file.
-/
namespace Verif.RestartScripts

variable {R : Type}

/-- An iceberg restart file of a set of `n` files, as the comments of the script say: version at least 0.1, and the number of files
given -/
def Restart (n : Nat) (f : Nc R) : Prop :=
  0 < n ∧ f.numFiles = some n ∧ ∃ k, f.major = some k ∧ (0 < k ∨ ∃ m, f.minor = some m ∧ 1 ≤ m)

theorem isIcebergs_iff {e : Entry R} : isIcebergs e = true ↔ ∃ f n, e = .nc f ∧ Restart n f := by
  unfold isIcebergs
  cases e with
  | absent => simp
  | other => simp
  | nc f =>
    unfold validVersion numFilesInSet Restart
    simp only [Bool.and_eq_true, Bool.or_eq_true, decide_eq_true_eq, Entry.nc.injEq]
    constructor
    · rintro ⟨h1, h2⟩
      cases hn : f.numFiles with
      | none => rw [hn] at h2; simp at h2
      | some n =>
        rw [hn] at h2
        simp only [gt_iff_lt, Int.natCast_pos] at h2
        refine ⟨f, n, rfl, h2, hn, ?_⟩
        cases hm : f.major with
        | none => rw [hm] at h1; simp at h1
        | some k =>
          rw [hm] at h1
          refine ⟨k, rfl, ?_⟩
          rcases h1 with h1 | ⟨h1, h3⟩
          · left; simpa using h1
          · right
            cases hi : f.minor with
            | none => rw [hi] at h3; simp at h3
            | some m => exact ⟨m, rfl, by rw [hi] at h3; simpa using h3⟩
    · rintro ⟨g, n, rfl, h1, h2, k, h3, h4⟩
      rw [h2, h3]
      refine ⟨?_, by simpa using h1⟩
      rcases h4 with h4 | ⟨m, h4, h5⟩
      · left; simpa using h4
      · rw [h4]
        rcases Nat.eq_zero_or_pos k with h | h
        · right; exact ⟨by simp [h], by simpa using h5⟩
        · left; simpa using h

theorem nonempty_records (disk : String → Entry R) {l : List (String × Nc R)} (h : ∀ x ∈ l, disk x.1 = .nc x.2) :
    ((nonempty disk (l.map (·.1))).map (·.records)).flatten = (l.map (·.2.records)).flatten := by
  unfold nonempty
  induction l with
  | nil => rfl
  | cons x l ih =>
    have ih' := ih fun y hy => h y (by simp [hy])
    rw [List.map_cons, List.filterMap_cons, h x (by simp), List.map_cons, List.flatten_cons]
    by_cases he : x.2.records = []
    · simp only [he, List.isEmpty_nil, if_true, List.nil_append]
      exact ih'
    · have : x.2.records.isEmpty = false := by simpa using he
      simp only [this, Bool.false_eq_true, if_false, List.map_cons, List.flatten_cons]
      rw [ih']

/-- The inputs with their contents, at least two, and the output: the script writes a file exactly if all inputs are pieces of a set
with as many files as were given, and the output does not exist. The file then has the records of all inputs in their order and
no number of files. -/
theorem C100_combine (disk : String → Entry R) (l : List (String × Nc R)) (out : String) (h2 : 2 ≤ l.length)
    (hd : ∀ x ∈ l, disk x.1 = .nc x.2) :
    ((∃ g, combine disk (l.map (·.1) ++ [out]) = .ok g) ↔ (∀ x ∈ l, Restart l.length x.2) ∧ disk out = .absent) ∧
    ∀ g, combine disk (l.map (·.1) ++ [out]) = .ok g → g.records = (l.map (·.2.records)).flatten ∧ g.numFiles = none ∧
      ∃ x ∈ l, g.major = x.2.major ∧ g.minor = x.2.minor := by
  obtain ⟨x0, l', rfl⟩ : ∃ x0 l', l = x0 :: l' := by
    cases l with
    | nil => simp at h2
    | cons a b => exact ⟨a, b, rfl⟩
  have hlen : ¬ ((x0 :: l').map (·.1) ++ [out]).length < 3 := by simp at h2 ⊢; omega
  have hx0 := hd x0 (by simp)
  have hice : ((x0 :: l').map (·.1)).any (fun f => !isIcebergs (disk f)) = true ↔ ¬ ∀ x ∈ x0 :: l', ∃ n, Restart n x.2 := by
    rw [List.any_eq_true]
    simp only [List.mem_map]
    constructor
    · rintro ⟨_, ⟨x, hx, rfl⟩, hn⟩ hall
      obtain ⟨n, hr⟩ := hall x hx
      rw [isIcebergs_iff.mpr ⟨x.2, n, hd x hx, hr⟩] at hn
      simp at hn
    · intro h
      by_contra hcon
      apply h
      intro x hx
      have : isIcebergs (disk x.1) = true := by
        by_contra hb
        exact hcon ⟨x.1, ⟨x, hx, rfl⟩, by simpa using hb⟩
      obtain ⟨f, n, e, hr⟩ := isIcebergs_iff.mp this
      rw [hd x hx, Entry.nc.injEq] at e
      exact ⟨n, e ▸ hr⟩
  have hcon : consistent disk (numFilesInSet x0.2) (l'.map (·.1)) = true ↔ ∀ x ∈ l', numFilesInSet x.2 = numFilesInSet x0.2 := by
    unfold consistent
    rw [List.all_eq_true]
    simp only [List.mem_map, forall_exists_index, and_imp, forall_apply_eq_imp_iff₂]
    constructor
    · intro h x hx
      have := h x hx
      rw [hd x (by simp [hx])] at this
      simpa using this
    · intro h x hx
      rw [hd x (by simp [hx])]
      simpa using h x hx
  have hnum : ∀ {f : Nc R} {n : Nat}, Restart n f → numFilesInSet f = n := by
    rintro f n ⟨-, h, -⟩
    unfold numFilesInSet
    rw [h]
  have hrec := nonempty_records disk hd
  unfold combine
  rw [if_neg hlen, List.dropLast_concat, List.getLast?_concat]
  simp only [List.map_cons] at hice hrec ⊢
  by_cases hi : ∀ x ∈ x0 :: l', ∃ n, Restart n x.2
  swap
  · rw [if_pos (hice.mpr hi)]
    refine ⟨⟨fun ⟨g, h⟩ => (by cases h), fun h => absurd (fun x hx => ⟨_, h.1 x hx⟩) hi⟩, fun g h => by cases h⟩
  rw [if_neg (fun h => hice.mp h hi)]
  simp only [hx0]
  obtain ⟨n0, hr0⟩ := hi x0 (by simp)
  have e0 := hnum hr0
  by_cases hc : ∀ x ∈ l', numFilesInSet x.2 = numFilesInSet x0.2
  swap
  · have : consistent disk (numFilesInSet x0.2) (l'.map (·.1)) = false := by
      rw [Bool.eq_false_iff]; exact fun h => hc (hcon.mp h)
    rw [this]
    refine ⟨⟨fun ⟨g, h⟩ => (by cases h), fun h => absurd ?_ hc⟩, fun g h => by cases h⟩
    intro x hx
    rw [hnum (h.1 x (by simp [hx])), hnum (h.1 x0 (by simp))]
  rw [hcon.mpr hc]
  simp only [Bool.not_true, Bool.false_eq_true, if_false]
  by_cases hk : numFilesInSet x0.2 = ((x0 :: l').length : Int)
  swap
  · rw [if_pos (by simpa using hk)]
    refine ⟨⟨fun ⟨g, h⟩ => (by cases h), fun h => absurd (hnum (h.1 x0 (by simp))) hk⟩, fun g h => by cases h⟩
  rw [if_neg (by simpa using hk)]
  have hall : ∀ x ∈ x0 :: l', Restart (x0 :: l').length x.2 := by
    intro x hx
    obtain ⟨n, hr⟩ := hi x hx
    have : numFilesInSet x.2 = numFilesInSet x0.2 := by
      rcases List.mem_cons.mp hx with rfl | hx
      · rfl
      · exact hc x hx
    rw [hnum hr, hk] at this
    have hn : n = (x0 :: l').length := by exact_mod_cast this
    exact hn ▸ hr
  cases hout : disk out with
  | other => exact ⟨⟨fun ⟨g, h⟩ => (by cases h), fun h => (by cases h.2)⟩, fun g h => by cases h⟩
  | nc f => exact ⟨⟨fun ⟨g, h⟩ => (by cases h), fun h => (by cases h.2)⟩, fun g h => by cases h⟩
  | absent =>
    dsimp only
    cases hne : nonempty disk (x0.1 :: l'.map (·.1)) with
    | nil =>
      rw [hne] at hrec
      refine ⟨⟨fun _ => ⟨hall, rfl⟩, fun _ => ⟨_, rfl⟩⟩, ?_⟩
      intro g hg
      cases hg
      refine ⟨?_, rfl, x0, by simp, rfl, rfl⟩
      simp only [List.map_nil, List.flatten_nil, List.map_cons] at hrec
      have := hrec.symm
      rw [List.flatten_cons, List.append_eq_nil_iff] at this
      rw [List.flatten_cons, this.2, List.append_nil]
    | cons g gs =>
      rw [hne] at hrec
      refine ⟨⟨fun _ => ⟨hall, rfl⟩, fun _ => ⟨_, rfl⟩⟩, ?_⟩
      intro g' hg
      cases hg
      refine ⟨hrec, rfl, ?_⟩
      have hm : g ∈ nonempty disk ((x0 :: l').map (·.1)) := by
        rw [List.map_cons, hne]; simp
      unfold nonempty at hm
      obtain ⟨f, hf, hg⟩ := List.mem_filterMap.mp hm
      obtain ⟨x, hx, rfl⟩ := List.mem_map.mp hf
      rw [hd x hx] at hg
      dsimp only at hg
      split at hg
      · cases hg
      · cases hg
        exact ⟨x, hx, rfl, rfl⟩

/-- The file written is no piece of a set: `-c` says so, and it cannot be combined again. -/
theorem C100_output (disk : String → Entry R) (args : List String) {g : Nc R} (h : combine disk args = .ok g) :
    isIcebergs (.nc g) = false := by
  have : g.numFiles = none := by
    unfold combine at h
    split at h
    · cases h
    split at h
    · split at h
      · cases h
      split at h
      · dsimp only at h
        split at h
        · cases h
        split at h
        · cases h
        split at h
        · split at h <;> cases h <;> rfl
        · cases h
      · cases h
    · cases h
  simp [isIcebergs, numFilesInSet, this]

/-- Two pieces with one iceberg each -/
def bergs : String → Entry Nat
  | "a.0000" => .nc ⟨some 0, some 1, some 2, [7]⟩
  | "a.0001" => .nc ⟨some 0, some 1, some 2, [8]⟩
  | _ => .absent

/-- The same piece given twice is accepted in place of the whole set: one iceberg is doubled and another lost. -/
theorem C100_twice_wrong : ∃ g, combine bergs ["a.0000", "a.0000", "a"] = .ok g ∧ g.records = [7, 7] :=
  ⟨_, rfl, rfl⟩

/-- A set of one file, which is complete, cannot be combined. -/
theorem C100_single_wrong (disk : String → Entry R) (a out : String) : combine disk [a, out] = .error .arguments := rfl

/-- Case: the two pieces -/
example : ∃ g, combine bergs ["a.0000", "a.0001", "a"] = .ok g ∧ g.records = [7, 8] := ⟨_, rfl, rfl⟩

/-! ### C101 -/

/-- Calls of plevel.sh in one directory, beginning without a namelist file: as long as all calls before have succeeded, a call uses
the options given to it. -/
theorem C101_own_options_partial {G : Type} (ok : Nat → G → Bool) : ∀ (gs : List G) (n0 : Nat), ∀ k, (hk : k < gs.length) →
    (∀ j, (hj : j < k) → ok (n0 + j) (gs[j]'(by omega)) = true) →
    ∃ c, (history ok n0 [] gs)[k]? = some c ∧ c.used = some gs[k] := by
  intro gs
  induction gs with
  | nil => intro n0 k hk; simp at hk
  | cons g gs ih =>
    intro n0 k hk hall
    cases k with
    | zero =>
      refine ⟨call (ok n0) [] g, by simp [history], ?_⟩
      simp only [call, List.nil_append, List.getElem_cons_zero]
      split <;> rfl
    | succ k =>
      have h0 := hall 0 (by omega)
      simp only [Nat.add_zero, List.getElem_cons_zero] at h0
      have hl : (call (ok n0) [] g).left = [] := by simp [call, h0]
      have := ih (n0 + 1) k (by simpa using hk) (by
        intro j hj
        have := hall (j + 1) (by omega)
        simpa [Nat.add_assoc, Nat.add_comm 1 j] using this)
      simpa [history, hl] using this

/-- After a call that failed, every call uses the options of the one that failed, until one succeeds with these; and no call has an
exit status other than 0. -/
theorem C101_stale_wrong {G : Type} (ok : Nat → G → Bool) (n0 : Nat) (bad : G) (gs : List G) (h0 : ok n0 bad = false) :
    ∀ k, (hk : k < gs.length) → (∀ j, j < k → ok (n0 + 1 + j) bad = false) →
    ∃ c, (history ok n0 [] (bad :: gs))[k + 1]? = some c ∧ c.used = some bad ∧ c.status = 0 := by
  have key : ∀ (gs : List G) (n : Nat) (rest : List G) (k : Nat), k < gs.length → (∀ j, j < k → ok (n + j) bad = false) →
      ∃ c, (history ok n (bad :: rest) gs)[k]? = some c ∧ c.used = some bad ∧ c.status = 0 := by
    intro gs
    induction gs with
    | nil => intro n rest k hk; simp at hk
    | cons g gs ih =>
      intro n rest k hk hall
      cases k with
      | zero =>
        refine ⟨call (ok n) (bad :: rest) g, by simp [history], ?_⟩
        simp only [call, List.cons_append]
        split <;> simp
      | succ k =>
        have hf := hall 0 (by omega)
        rw [Nat.add_zero] at hf
        have hl : (call (ok n) (bad :: rest) g).left = bad :: (rest ++ [g]) := by simp [call, hf]
        have := ih (n + 1) (rest ++ [g]) k (by simpa using hk) (by
          intro j hj
          have := hall (j + 1) (by omega)
          rwa [show n + (j + 1) = n + 1 + j by omega] at this)
        simpa [history, hl] using this
  intro k hk hall
  have hl : (call (ok n0) [] bad).left = [bad] := by simp [call, h0]
  have := key gs (n0 + 1) [] k hk hall
  simpa [history, hl] using this

/-- The status of a call does not say whether the program has failed. -/
theorem C101_status_wrong {G : Type} (ok : G → Bool) (file : Namelist G) (g : G) : (call ok file g).status = 0 := by
  unfold call
  dsimp only
  split
  · rfl
  · split <;> rfl

/-- Case: a second call after a failure -/
example : (history (fun n _ => n != 0) 0 [] [10, 20, 30]).map (·.used) = [some 10, some 10, some 30] := by decide

end Verif.RestartScripts
