import Verif.Model.CombineRestarts
import Verif.Spec.CombineRestarts
import Mathlib.Data.List.Basic
import Mathlib.Data.List.Nodup
import Mathlib.Data.List.Forall2
/-
C99: combine_restarts.
-/
namespace Verif.CombineRestarts

open Verif.Spec.CombineRestarts

/-! ### Lemmas on names -/

theorem hasTail_iff {n : Name} : hasTail n = true ↔ ∃ f, Piece f n := by
  unfold hasTail
  simp only [Bool.and_eq_true, decide_eq_true_eq, List.all_eq_true]
  constructor
  · rintro ⟨⟨h1, h2⟩, h3⟩
    refine ⟨n.take (n.length - 5), n.drop (n.length - 4), by simp; omega, h3, ?_⟩
    have e : n.drop (n.length - 5) = '.' :: n.drop (n.length - 4) := by
      cases hd : n.drop (n.length - 5) with
      | nil => rw [hd] at h2; cases h2
      | cons c t =>
        rw [hd] at h2
        simp only [List.head?_cons, Option.some.injEq] at h2
        subst h2
        congr 1
        have : n.length - 4 = (n.length - 5) + 1 := by omega
        rw [this, ← List.drop_drop, hd, List.drop_one, List.tail_cons]
    rw [← e, List.take_append_drop]
  · rintro ⟨f, d, h1, h2, rfl⟩
    have l : (f ++ '.' :: d).length = f.length + 5 := by simp [h1]
    refine ⟨⟨by omega, ?_⟩, ?_⟩
    · rw [l, Nat.add_sub_cancel, List.drop_left' rfl]; rfl
    · have : f.length + 5 - 4 = (f ++ ['.']).length := by simp
      rw [l, this, show f ++ '.' :: d = (f ++ ['.']) ++ d by simp, List.drop_left' rfl]
      exact h2

theorem take_piece {f n : Name} (h : Piece f n) : n.take (n.length - 5) = f := by
  obtain ⟨d, h1, -, rfl⟩ := h
  have l : (f ++ '.' :: d).length = f.length + 5 := by simp [h1]
  rw [l, Nat.add_sub_cancel, List.take_left' rfl]

theorem stem_piece {f n : Name} (h : Piece f n) : stem n = f := by
  unfold stem
  rw [if_pos (hasTail_iff.mpr ⟨f, h⟩), take_piece h]

theorem dotMatch_iff {f g : Name} : dotMatch f g = true ↔ SameButDots f g := by
  unfold SameButDots
  induction f generalizing g with
  | nil => cases g <;> simp [dotMatch]
  | cons c f ih => cases g <;> simp [dotMatch, ih]

theorem matchesPiece_iff {f n : Name} : matchesPiece f n = true ↔ ∃ g, Piece g n ∧ SameButDots f g := by
  unfold matchesPiece
  rw [Bool.and_eq_true, hasTail_iff, dotMatch_iff]
  constructor
  · rintro ⟨⟨g, hg⟩, h⟩
    exact ⟨g, hg, take_piece hg ▸ h⟩
  · rintro ⟨g, hg, h⟩
    exact ⟨⟨g, hg⟩, (take_piece hg).symm ▸ h⟩

theorem same_refl (f : Name) : SameButDots f f := by
  unfold SameButDots
  exact List.forall₂_same.mpr fun _ _ => .inr rfl

theorem piece_ne {f n : Name} (h : Piece f n) : n ≠ f := by
  obtain ⟨d, h1, -, rfl⟩ := h
  intro e
  have := congrArg List.length e
  simp at this

theorem wordIn_iff {w : Name} (hw : w ≠ []) {prev : Bool} {n : Name} : wordIn w prev n = true ↔
    ∃ a b, n = a ++ w ++ b ∧ (∀ c ∈ a.getLast?, isWord c = false) ∧ (a = [] → prev = false) ∧
      (∀ c ∈ b.head?, isWord c = false) := by
  induction n generalizing prev with
  | nil =>
    simp only [wordIn, Bool.and_eq_true, Bool.not_eq_true', List.isEmpty_iff, hw, and_false, false_iff]
    rintro ⟨a, b, h, -⟩
    simp [hw] at h
  | cons c n ih =>
    simp only [wordIn, Bool.or_eq_true, Bool.and_eq_true, Bool.not_eq_true', ih]
    constructor
    · rintro (⟨⟨h1, h2⟩, h3⟩ | ⟨a, b, h1, h2, h3, h4⟩)
      · obtain ⟨b, hb⟩ := List.isPrefixOf_iff_prefix.mp h2
        refine ⟨[], b, by simp [hb], by simp, fun _ => h1, ?_⟩
        rw [← hb, List.drop_left' rfl] at h3
        intro d hd
        cases hh : b.head? with
        | none => rw [hh] at hd; cases hd
        | some x =>
          rw [hh] at h3 hd
          simp at hd
          subst hd
          simpa using h3
      · refine ⟨c :: a, b, by simp [h1], ?_, by simp, h4⟩
        cases a with
        | nil =>
          intro d hd
          simp at hd
          subst hd
          exact h3 rfl
        | cons x a =>
          rw [List.getLast?_cons_cons]
          exact h2
    · rintro ⟨a, b, h1, h2, h3, h4⟩
      cases a with
      | nil =>
        left
        refine ⟨⟨h3 rfl, ?_⟩, ?_⟩
        · rw [h1]; simp
        · rw [h1, List.nil_append, List.drop_left' rfl]
          cases hh : b.head? with
          | none => rfl
          | some x => simpa using h4 x (by rw [hh]; rfl)
      | cons x a =>
        right
        simp only [List.cons_append, List.cons.injEq] at h1
        obtain ⟨rfl, h1⟩ := h1
        refine ⟨a, b, by simpa using h1, ?_, ?_, h4⟩
        · intro d hd
          cases a with
          | nil => cases hd
          | cons y a => exact h2 d (by rw [List.getLast?_cons_cons]; exact hd)
        · rintro rfl
          exact h2 c (by simp)

theorem hasWord_iff {w : Name} (hw : w ≠ []) {n : Name} : wordIn w false n = true ↔ HasWord w n := by
  rw [wordIn_iff hw]
  unfold HasWord
  constructor
  · rintro ⟨a, b, h1, h2, -, h4⟩
    exact ⟨a, b, h1, h2, h4⟩
  · rintro ⟨a, b, h1, h2, h4⟩
    exact ⟨a, b, h1, h2, fun _ => rfl, h4⟩

theorem hasWord_append {w f : Name} (h : HasWord w f) (t : Name) (ht : ∀ c ∈ t.head?, isWord c = false) : HasWord w (f ++ t) := by
  obtain ⟨a, b, rfl, h1, h2⟩ := h
  refine ⟨a, b ++ t, by simp, h1, ?_⟩
  intro c hc
  cases b with
  | nil => exact ht c (by simpa using hc)
  | cons x b => exact h2 c (by simpa using hc)

theorem candidate_piece {f n : Name} (h : Piece f n) (hr : Restart f) : candidate n = true := by
  unfold candidate
  rw [Bool.or_eq_true, Bool.and_eq_true]
  rcases hr with hr | hr
  · left
    apply (hasWord_iff (by decide)).mpr
    obtain ⟨d, -, -, rfl⟩ := h
    exact hasWord_append hr _ (by simp; decide)
  · right
    refine ⟨hasTail_iff.mpr ⟨f, h⟩, ?_⟩
    rw [stem_piece h]
    exact (hasWord_iff (by decide)).mpr hr

theorem mem_stems {sort : List Name → List Name} (hs : ∀ l, (sort l).Perm l) {dir : List Name} {f : Name} :
    f ∈ stems sort dir ↔ ∃ n ∈ dir, candidate n = true ∧ stem n = f := by
  unfold stems
  rw [(hs _).mem_iff, List.mem_dedup, List.mem_map]
  simp only [List.mem_filter, (hs _).mem_iff, and_assoc]

theorem stems_nodup {sort : List Name → List Name} (hs : ∀ l, (sort l).Perm l) (dir : List Name) : (stems sort dir).Nodup :=
  (hs _).nodup_iff.mpr (List.nodup_dedup _)

/-! ### Nothing is lost -/

theorem mem_create {n f : Name} {dir : List Name} : n ∈ create f dir ↔ n = f ∨ n ∈ dir := by
  unfold create
  split_ifs with h
  · have : f ∈ dir := by simpa using h
    constructor
    · exact .inr
    · rintro (rfl | h) <;> assumption
  · rw [List.mem_append, List.mem_singleton, or_comm]

theorem mem_rm {n : Name} {l dir : List Name} : n ∈ rm l dir ↔ n ∈ dir ∧ n ∉ l := by
  unfold rm
  simp

/-- What can have happened to a file -/
def Lost (o : Opts) (cmds : List (Cmd × Bool)) (n : Name) : Prop :=
  (o.remove = true ∧ o.dryrun = false ∧ ∃ c, (c, true) ∈ cmds ∧ n ∈ c.inputs) ∨
  (∃ c, (c, false) ∈ cmds ∧ c.tool = .mpp ∧ c.out = n) ∨
  (o.dryrun = true ∧ ∃ m, matchesPiece n m = true)

theorem Lost.mono {o : Opts} {l l' : List (Cmd × Bool)} {n : Name} (h : Lost o l n) (hl : ∀ x ∈ l, x ∈ l') : Lost o l' n := by
  rcases h with ⟨h1, h2, c, h3, h4⟩ | ⟨c, h1, h2⟩ | h
  · exact .inl ⟨h1, h2, c, hl _ h3, h4⟩
  · exact .inr (.inl ⟨c, hl _ h1, h2⟩)
  · exact .inr (.inr h)

theorem combine_lost (w : World) (o : Opts) (s : State) (f first : Name) (rest : List Name) (n : Name)
    (hm : matchesPiece f first = true) (h : n ∈ s.dir ∨ Lost o s.cmds n) :
    n ∈ (combine w o s f first rest).dir ∨ Lost o (combine w o s f first rest).cmds n := by
  unfold combine
  generalize hc : (⟨tool w first, first :: rest, f⟩ : Cmd) = c
  have hco : c.out = f := by rw [← hc]
  dsimp only
  rcases h with h | h
  swap
  · right
    by_cases hd : o.dryrun = true
    · rw [if_pos hd]; exact h
    · rw [if_neg hd]
      by_cases hok : w.ok c = true
      · rw [if_pos hok]; exact h.mono fun x hx => by simp [hx]
      · rw [if_neg hok]; exact h.mono fun x hx => by simp [hx]
  by_cases hd : o.dryrun = true
  · rw [if_pos hd]
    dsimp only
    by_cases ht : c.tool = .mpp
    · rw [if_pos ht]
      by_cases hn : n = f
      · right; exact .inr (.inr ⟨hd, first, hn ▸ hm⟩)
      · left; exact mem_rm.mpr ⟨h, by simpa using hn⟩
    · rw [if_neg ht]; exact .inl h
  · have hd' : o.dryrun = false := by simpa using hd
    rw [if_neg hd]
    have hn : n ∈ create f (if c.tool = .mpp then rm [f] s.dir else s.dir) := by
      rw [mem_create]
      by_cases hnf : n = f
      · exact .inl hnf
      · right
        by_cases ht : c.tool = .mpp
        · rw [if_pos ht]
          exact mem_rm.mpr ⟨h, by simpa using hnf⟩
        · rw [if_neg ht]; exact h
    by_cases hok : w.ok c = true
    · rw [if_pos hok]
      dsimp only
      by_cases hr : o.remove = true
      · rw [if_pos hr]
        by_cases hi : n ∈ c.inputs
        · right
          exact .inl ⟨hr, hd', c, by simp, hi⟩
        · left
          exact mem_rm.mpr ⟨hn, hi⟩
      · rw [if_neg hr]
        exact .inl hn
    · rw [if_neg hok]
      dsimp only
      by_cases hp : w.partly c = true
      · rw [if_pos hp]; exact .inl hn
      · rw [if_neg hp]
        by_cases ht : c.tool = .mpp
        · rw [if_pos ht]
          by_cases hnf : n = f
          · right
            exact .inr (.inl ⟨c, by simp, ht, hco.trans hnf.symm⟩)
          · left; exact mem_rm.mpr ⟨h, by simpa using hnf⟩
        · rw [if_neg ht]; exact .inl h

theorem step_lost (sort : List Name → List Name) (w : World) (o : Opts) (s : State) (f n : Name)
    (h : n ∈ s.dir ∨ Lost o s.cmds n) : n ∈ (step sort w o s f).dir ∨ Lost o (step sort w o s f).cmds n := by
  unfold step
  by_cases hg : s.going = true
  swap
  · rw [if_neg hg]; exact h
  rw [if_pos hg]
  split
  · exact h
  · rename_i first rest hfil
    have : first ∈ (sort s.dir).filter (matchesPiece f) := by rw [hfil]; simp
    exact combine_lost w o s f first rest n (List.mem_filter.mp this).2 h

/-- Whatever the other programs do and wherever the script stops: a file that is gone after it was an input of a command that
succeeded, and `-r` was given; or it was an output file to be made anew by mppnccombine, which failed; or the script was run
with `-n`, and there are pieces for the file. -/
theorem C99_removed {sort : List Name → List Name} (w : World) (o : Opts) (dir : List Name) {n : Name} (hn : n ∈ dir)
    (hgone : n ∉ (run sort w o dir).dir) :
    (o.remove = true ∧ o.dryrun = false ∧ ∃ c, (c, true) ∈ (run sort w o dir).cmds ∧ n ∈ c.inputs) ∨
    (∃ c, (c, false) ∈ (run sort w o dir).cmds ∧ c.tool = .mpp ∧ c.out = n) ∨
    (o.dryrun = true ∧ ∃ m, matchesPiece n m = true) := by
  have : ∀ (l : List Name) (s : State), (n ∈ s.dir ∨ Lost o s.cmds n) →
      n ∈ (l.foldl (step sort w o) s).dir ∨ Lost o (l.foldl (step sort w o) s).cmds n := by
    intro l
    induction l with
    | nil => intro s h; exact h
    | cons f l ih => intro s h; exact ih _ (step_lost sort w o s f n h)
  rcases this (stems sort dir) ⟨dir, [], true⟩ (.inl hn) with h | h
  · exact absurd h hgone
  · exact h

/-! ### Every set is combined once -/

/-- What holds after the stems `done` -/
structure Inv (w : World) (o : Opts) (dir : List Name) (done : List Name) (s : State) : Prop where
  pieces : ∀ f, f ∉ done → ∀ n, Piece f n → (n ∈ s.dir ↔ n ∈ dir)
  tails : ∀ n ∈ s.dir, (∃ f, Piece f n) → n ∈ dir
  cmds : ∀ x ∈ s.cmds, x.1.out ∈ done ∧ (x.2 = true → ∀ n, n ∈ x.1.inputs ↔ n ∈ dir ∧ Piece x.1.out n) ∧
    (∃ first, x.1.inputs.head? = some first ∧ x.1.tool = tool w first)
  nodup : (s.cmds.map (·.1.out)).Nodup
  all : s.going = true → (∀ x ∈ s.cmds, x.2 = true) ∧ ∀ f ∈ done, (∃ n ∈ dir, Piece f n) → ∃ x ∈ s.cmds, x.1.out = f

theorem Inv.step {sort : List Name → List Name} (hs : ∀ l, (sort l).Perm l) {w : World} {o : Opts} (hd : o.dryrun = false)
    {dir : List Name} (hsep : Separate dir) {done : List Name} {s : State} (inv : Inv w o dir done s) {f : Name}
    (hf : f ∉ done) (hstem : f ∈ dir ∨ ∃ m ∈ dir, Piece f m) (hnt : (∃ n ∈ dir, Piece f n) → ∀ h, ¬ Piece h f) :
    Inv w o dir (done ++ [f]) (step sort w o s f) := by
  have hgroup : ∀ n, n ∈ (sort s.dir).filter (matchesPiece f) ↔ n ∈ dir ∧ Piece f n := by
    intro n
    rw [List.mem_filter, (hs _).mem_iff, matchesPiece_iff]
    constructor
    · rintro ⟨h1, g, hg, hsame⟩
      have hin := inv.tails n h1 ⟨g, hg⟩
      have := hsep.dots f g n hstem hin hg hsame
      exact ⟨hin, this ▸ hg⟩
    · rintro ⟨h1, h2⟩
      exact ⟨(inv.pieces f hf n h2).mpr h1, f, h2, same_refl f⟩
  unfold CombineRestarts.step
  by_cases hg : s.going = true
  swap
  · rw [if_neg hg]
    refine ⟨fun g hg' n hn => inv.pieces g (fun h => hg' (by simp [h])) n hn, inv.tails, ?_, inv.nodup, ?_⟩
    · intro x hx
      exact ⟨by simp [(inv.cmds x hx).1], (inv.cmds x hx).2⟩
    · intro h; exact absurd h hg
  rw [if_pos hg]
  split
  · rename_i hnil
    refine ⟨fun g hg' n hn => inv.pieces g (fun h => hg' (by simp [h])) n hn, inv.tails, ?_, inv.nodup, ?_⟩
    · intro x hx
      exact ⟨by simp [(inv.cmds x hx).1], (inv.cmds x hx).2⟩
    · intro h
      refine ⟨(inv.all h).1, ?_⟩
      intro g hg' hex
      rw [List.mem_append, List.mem_singleton] at hg'
      rcases hg' with hg' | rfl
      · exact (inv.all h).2 g hg' hex
      · obtain ⟨n, h1, h2⟩ := hex
        have := (hgroup n).mpr ⟨h1, h2⟩
        rw [hnil] at this
        cases this
  · rename_i first rest hfil
    have hin : ∀ n, n ∈ first :: rest ↔ n ∈ dir ∧ Piece f n := by intro n; rw [← hfil]; exact hgroup n
    have hfirst := (hin first).mp (by simp)
    have hnp := hnt ⟨first, hfirst⟩
    generalize hc : (⟨tool w first, first :: rest, f⟩ : Cmd) = c
    have hci : c.inputs = first :: rest := by rw [← hc]
    have hco : c.out = f := by rw [← hc]
    have hct : c.tool = tool w first := by rw [← hc]
    -- the directory after the command, for names with a tail
    have hmp : ∀ d, d = (if c.tool = .mpp then rm [f] s.dir else s.dir) → ∀ n, (∃ g, Piece g n) → (n ∈ d ↔ n ∈ s.dir) := by
      rintro d rfl n ⟨g, hgn⟩
      split_ifs
      · rw [mem_rm, List.mem_singleton]
        exact ⟨fun h => h.1, fun h => ⟨h, fun e => hnp g (e ▸ hgn)⟩⟩
      · rfl
    have hcr : ∀ d, d = (if c.tool = .mpp then rm [f] s.dir else s.dir) → ∀ n, (∃ g, Piece g n) →
        (n ∈ create f d ↔ n ∈ s.dir) := by
      rintro d hd' n ⟨g, hgn⟩
      rw [mem_create, hmp d hd' n ⟨g, hgn⟩]
      exact ⟨fun h => h.resolve_left fun e => hnp g (e ▸ hgn), .inr⟩
    have hrm : ∀ d, d = (if c.tool = .mpp then rm [f] s.dir else s.dir) → ∀ g, g ≠ f → ∀ n, Piece g n →
        (n ∈ rm c.inputs (create f d) ↔ n ∈ s.dir) := by
      intro d hd' g hgf n hgn
      rw [mem_rm, hcr d hd' n ⟨g, hgn⟩, hci]
      refine ⟨fun h => h.1, fun h => ⟨h, fun hi => hgf ?_⟩⟩
      rw [← stem_piece hgn, stem_piece ((hin n).mp hi).2]
    have hnew : ∀ b, ∀ x ∈ s.cmds ++ [(c, b)], x.1.out ∈ done ++ [f] ∧
        (x.2 = true → ∀ n, n ∈ x.1.inputs ↔ n ∈ dir ∧ Piece x.1.out n) ∧
        (∃ first, x.1.inputs.head? = some first ∧ x.1.tool = tool w first) := by
      intro b x hx
      rw [List.mem_append, List.mem_singleton] at hx
      rcases hx with hx | rfl
      · exact ⟨by simp [(inv.cmds x hx).1], (inv.cmds x hx).2⟩
      · refine ⟨by simp [hco], ?_, first, by simp [hci], hct⟩
        intro _ n
        rw [hci, hco]
        exact hin n
    have hnod : ∀ b : Bool, ((s.cmds ++ [(c, b)]).map fun x : Cmd × Bool => x.1.out).Nodup := by
      intro b
      rw [List.map_append, List.nodup_append]
      refine ⟨inv.nodup, by simp, ?_⟩
      intro a ha b' hb e
      simp only [List.map_cons, List.map_nil, List.mem_singleton] at hb
      obtain ⟨x, hx, rfl⟩ := List.mem_map.mp ha
      have := (inv.cmds x hx).1
      rw [e, hb, hco] at this
      exact hf this
    unfold combine
    rw [hc]
    dsimp only
    rw [if_neg (by simp [hd])]
    by_cases hok : w.ok c = true
    · rw [if_pos hok]
      refine ⟨?_, ?_, hnew true, hnod true, ?_⟩
      · intro g hg' n hn
        rw [List.mem_append, List.mem_singleton, not_or] at hg'
        dsimp only
        by_cases hr : o.remove = true
        · rw [if_pos hr, hrm _ rfl g hg'.2 n hn]
          exact inv.pieces g hg'.1 n hn
        · rw [if_neg hr, hcr _ rfl n ⟨g, hn⟩]
          exact inv.pieces g hg'.1 n hn
      · intro n hn ⟨g, hgn⟩
        dsimp only at hn
        by_cases hr : o.remove = true
        · rw [if_pos hr] at hn
          exact inv.tails n ((hcr _ rfl n ⟨g, hgn⟩).mp (mem_rm.mp hn).1) ⟨g, hgn⟩
        · rw [if_neg hr] at hn
          exact inv.tails n ((hcr _ rfl n ⟨g, hgn⟩).mp hn) ⟨g, hgn⟩
      · intro _
        have hgo := hg
        refine ⟨?_, ?_⟩
        · intro x hx
          rw [List.mem_append, List.mem_singleton] at hx
          rcases hx with hx | rfl
          · exact (inv.all hgo).1 x hx
          · rfl
        · intro g hg' hex
          rw [List.mem_append, List.mem_singleton] at hg'
          rcases hg' with hg' | rfl
          · obtain ⟨x, hx, h⟩ := (inv.all hgo).2 g hg' hex
            exact ⟨x, by simp [hx], h⟩
          · exact ⟨(c, true), by simp, hco⟩
    · rw [if_neg hok]
      refine ⟨?_, ?_, hnew false, hnod false, ?_⟩
      · intro g hg' n hn
        rw [List.mem_append, List.mem_singleton, not_or] at hg'
        dsimp only
        by_cases hp : w.partly c = true
        · rw [if_pos hp, hcr _ rfl n ⟨g, hn⟩]
          exact inv.pieces g hg'.1 n hn
        · rw [if_neg hp, hmp _ rfl n ⟨g, hn⟩]
          exact inv.pieces g hg'.1 n hn
      · intro n hn ⟨g, hgn⟩
        dsimp only at hn
        apply inv.tails n _ ⟨g, hgn⟩
        by_cases hp : w.partly c = true
        · rw [if_pos hp] at hn
          exact (hcr _ rfl n ⟨g, hgn⟩).mp hn
        · rw [if_neg hp] at hn
          exact (hmp _ rfl n ⟨g, hgn⟩).mp hn
      · intro h; cases h

theorem tool_chosen (w : World) (first : Name) : Chosen w first (tool w first) := by
  unfold Chosen tool
  cases w.compressed first <;> cases w.iceberg first <;> simp

/-- For a directory with separate names and whatever the other programs do: there is at most one command for each set, each
command that succeeds has all pieces of one set and nothing else as input, with the program chosen by the first of them; and if
the script ends without error, all commands have succeeded and every set of pieces of a restart file was combined. -/
theorem C99_sets_partial {sort : List Name → List Name} (hs : ∀ l, (sort l).Perm l) (w : World) {o : Opts}
    (hd : o.dryrun = false) {dir : List Name} (hsep : Separate dir) :
    ((run sort w o dir).cmds.map (·.1.out)).Nodup ∧
    (∀ c, (c, true) ∈ (run sort w o dir).cmds → (∀ n, n ∈ c.inputs ↔ n ∈ dir ∧ Piece c.out n) ∧
      ∃ first, c.inputs.head? = some first ∧ Chosen w first c.tool) ∧
    ((run sort w o dir).going = true → (∀ x ∈ (run sort w o dir).cmds, x.2 = true) ∧
      ∀ f n, n ∈ dir → Piece f n → Restart f → ∃ c, (c, true) ∈ (run sort w o dir).cmds ∧ c.out = f) := by
  have key : ∀ (l done : List Name) (s : State), Inv w o dir done s → (done ++ l).Nodup →
      (∀ f ∈ l, ∃ n ∈ dir, candidate n = true ∧ stem n = f) → Inv w o dir (done ++ l) (l.foldl (step sort w o) s) := by
    intro l
    induction l with
    | nil => intro done s h _ _; simpa using h
    | cons f l ih =>
      intro done s h hnd hl
      have e : done ++ f :: l = (done ++ [f]) ++ l := by simp
      rw [List.foldl_cons, e]
      apply ih _ _ _ (e ▸ hnd) fun g hg => hl g (by simp [hg])
      obtain ⟨m, hm, -, hst⟩ := hl f (by simp)
      have hst' : f ∈ dir ∨ ∃ m ∈ dir, Piece f m := by
        by_cases ht : hasTail m = true
        · obtain ⟨g, hg⟩ := hasTail_iff.mp ht
          rw [stem_piece hg] at hst
          exact .inr ⟨m, hm, hst ▸ hg⟩
        · unfold stem at hst
          rw [if_neg ht] at hst
          exact .inl (hst ▸ hm)
      apply h.step hs hd hsep _ hst'
      · rintro ⟨n, hn, hp⟩
        exact hsep.single f n hn hp
      · intro hfd
        rw [List.nodup_append] at hnd
        exact hnd.2.2 f hfd f (by simp) rfl
  have h0 : Inv w o dir [] ⟨dir, [], true⟩ :=
    ⟨fun _ _ _ _ => Iff.rfl, fun _ h _ => h, by simp, by simp, fun _ => ⟨by simp, by simp⟩⟩
  have h := key (stems sort dir) [] ⟨dir, [], true⟩ h0 (by simpa using stems_nodup hs dir) fun f hf => (mem_stems hs).mp hf
  rw [List.nil_append] at h
  change Inv w o dir (stems sort dir) (run sort w o dir) at h
  refine ⟨h.nodup, ?_, ?_⟩
  · intro c hc
    obtain ⟨first, hf, ht⟩ := (h.cmds _ hc).2.2
    exact ⟨(h.cmds _ hc).2.1 rfl, first, hf, ht ▸ tool_chosen w first⟩
  · intro hg
    refine ⟨(h.all hg).1, ?_⟩
    intro f n hn hp hr
    have hf : f ∈ stems sort dir := (mem_stems hs).mpr ⟨n, hn, candidate_piece hp hr, stem_piece hp⟩
    obtain ⟨⟨c, b⟩, hx, he⟩ := (h.all hg).2 f hf ⟨n, hn, hp⟩
    have := (h.all hg).1 _ hx
    exact ⟨c, by simp only at this; rw [← this]; exact hx, he⟩

/-! ### Defects -/

/-- Programs that always succeed, no compressed or iceberg files -/
def plainWorld : World := ⟨fun _ => false, fun _ => false, fun _ => true, fun _ => true⟩

/-- Two sets whose names differ in a dot only: the pieces of both are combined into the first file, and with `-r` all are removed.
There is no command for the second set, and the script ends without an error. -/
theorem C99_dot_wrong : ∃ dir : List Name, dir = ["ice.res.nc.0000".toList, "ice_res.nc.0000".toList] ∧
    (run id plainWorld ⟨false, true⟩ dir).going = true ∧
    (run id plainWorld ⟨false, true⟩ dir).cmds = [(⟨.mpp, dir, "ice.res.nc".toList⟩, true)] ∧
    (run id plainWorld ⟨false, true⟩ dir).dir = ["ice.res.nc".toList] :=
  ⟨_, rfl, by decide +kernel, by decide +kernel, by decide +kernel⟩

/-- With `-n` the commands shall only be printed, but an existing output file is removed. -/
theorem C99_dryrun_wrong : (run id plainWorld ⟨true, false⟩ ["a.nc".toList, "a.nc.0000".toList]).dir = ["a.nc.0000".toList] ∧
    (run id plainWorld ⟨true, false⟩ ["a.nc".toList, "a.nc.0000".toList]).cmds = [] :=
  ⟨by decide +kernel, by decide +kernel⟩

/-- If mppnccombine fails the old output file is lost. -/
theorem C99_old_output_wrong :
    (run id ⟨fun _ => false, fun _ => false, fun _ => false, fun _ => false⟩ ⟨false, false⟩
      ["a.nc".toList, "a.nc.0000".toList]).dir = ["a.nc.0000".toList] := by decide +kernel

theorem digit_ne_dot {c : Char} (h : c.isDigit = true) : c ≠ '.' := by
  rintro rfl
  exact absurd h (by decide)

/-- A piece with a number of five digits (mppnccombine and the models number pieces from 0 with at least four digits) is never
an input of a command: of a set of more than 10000 pieces the others are combined without it. -/
theorem C99_five_digits_wrong (sort : List Name → List Name) (w : World) (o : Opts) (dir : List Name) {f d : Name}
    (hl : d.length = 5) (hd : ∀ c ∈ d, c.isDigit = true) (x : Cmd × Bool) (hx : x ∈ (run sort w o dir).cmds) :
    f ++ '.' :: d ∉ x.1.inputs := by
  have hno : ∀ g, matchesPiece g (f ++ '.' :: d) = false := by
    intro g
    rw [Bool.eq_false_iff, ne_eq, matchesPiece_iff]
    rintro ⟨h, ⟨e, he, hed, heq⟩, -⟩
    have h5 : d.drop 1 = e := by
      have := congrArg (fun l : Name => l.drop (l.length - 4)) heq
      simp only [List.length_append, List.length_cons, hl, he] at this
      rw [show f.length + (5 + 1) - 4 = (f ++ ['.'] ++ d.take 1).length by simp [hl],
        show h.length + (4 + 1) - 4 = (h ++ ['.']).length by simp,
        show h ++ '.' :: e = (h ++ ['.']) ++ e by simp, List.drop_left' rfl] at this
      rw [← this, show f ++ '.' :: d = (f ++ ['.'] ++ d.take 1) ++ d.drop 1 by
        rw [List.append_assoc, List.take_append_drop]; simp, List.drop_left' rfl]
    obtain ⟨c, t, rfl⟩ : ∃ c t, d = c :: t := by
      cases d with
      | nil => cases hl
      | cons c t => exact ⟨c, t, rfl⟩
    simp only [List.drop_one, List.tail_cons] at h5
    subst h5
    rw [show f ++ '.' :: c :: t = (f ++ ['.', c]) ++ t by simp, show h ++ '.' :: t = (h ++ ['.']) ++ t by simp,
      List.append_left_inj] at heq
    have := congrArg List.getLast? heq
    rw [show f ++ ['.', c] = (f ++ ['.']) ++ [c] by simp, List.getLast?_concat, List.getLast?_concat] at this
    exact digit_ne_dot (hd c (by simp)) (Option.some.inj this)
  have key : ∀ (l : List Name) (s : State), (∀ x ∈ s.cmds, f ++ '.' :: d ∉ x.1.inputs) →
      ∀ x ∈ (l.foldl (step sort w o) s).cmds, f ++ '.' :: d ∉ x.1.inputs := by
    intro l
    induction l with
    | nil => intro s h; exact h
    | cons g l ih =>
      intro s h
      apply ih
      unfold step
      by_cases hg : s.going = true
      swap
      · rw [if_neg hg]; exact h
      rw [if_pos hg]
      split
      · exact h
      · rename_i first rest hfil
        have hin : f ++ '.' :: d ∉ first :: rest := by
          rw [← hfil, List.mem_filter, hno g]
          simp
        have : ∀ b, ∀ x ∈ s.cmds ++ [((⟨tool w first, first :: rest, g⟩ : Cmd), b)], f ++ '.' :: d ∉ x.1.inputs := by
          intro b x hx
          rw [List.mem_append, List.mem_singleton] at hx
          rcases hx with hx | rfl
          · exact h x hx
          · exact hin
        unfold combine
        dsimp only
        split
        · exact h
        split
        · exact this _
        · exact this _
  exact key _ _ (by simp) x hx

/-! ### Cases -/

example : Piece "ice.res.nc".toList "ice.res.nc.0012".toList := ⟨"0012".toList, by decide, by decide, by decide⟩

example : HasWord "res".toList "ice.res.nc".toList := ⟨"ice.".toList, ".nc".toList, by decide, by decide, by decide⟩

example : (run id plainWorld ⟨false, false⟩ ["a.nc.0000".toList, "a.nc.0001".toList, "b.res".toList, "b.res.0000".toList, "c.0000".toList]).cmds =
    [(⟨.mpp, ["a.nc.0000".toList, "a.nc.0001".toList], "a.nc".toList⟩, true),
     (⟨.mpp, ["b.res.0000".toList], "b.res".toList⟩, true)] := by decide +kernel

end Verif.CombineRestarts
