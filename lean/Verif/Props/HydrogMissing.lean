import Verif.Props.Hydrog
import Mathlib.Tactic.IntervalCases
/-
C102: a river that flows to a missing cell; the sides of the tiles of a cube.
-/
namespace Verif.Hydrog

open Verif.Spec.Hydrog

variable {R : Type} [Field R] [LinearOrder R]

/-- A path inside a path to a missing cell -/
theorem path_split_missing {g : Grid} {toc : Pos → Int} {p q o : Pos} {i k : Nat} (h : Path g toc p i q) (ho : Path g toc p k o)
    (hz : toc o = mval) : i ≤ k ∧ Path g toc q (k - i) o := by
  induction h generalizing k with
  | here p => exact ⟨Nat.zero_le _, ho⟩
  | @step p q r i hn _ ih =>
    cases ho with
    | here => exact absurd hz hn.ne_mval
    | @step _ q' _ k hn' ho' =>
      cases hn.unique hn'
      obtain ⟨h1, h2⟩ := ih ho'
      exact ⟨by omega, by rwa [show k + 1 - (i + 1) = k - i by omega]⟩

theorem not_above_missing {g : Grid} {toc : Pos → Int} {p q o : Pos} {k : Nat} (h : Next g toc p q) (hk : Path g toc q k o)
    (hz : toc o = mval) : ¬ Above g toc q p := by
  rintro ⟨i, hi⟩
  obtain ⟨h1, h2⟩ := path_split_missing hi hk hz
  have h3 := (path_split_missing (Path.step h hk) h2 hz).1
  omega

open Classical in
theorem walk_missing {g : Grid} {a : Areas R} {c : Pos} {toc : Pos → Int} {p o : Pos} {k : Nat} (h : Path g toc p k o)
    (hz : toc o = mval) (hco : o ≠ c) : ∀ (fuel j : Nat) (s : State R), k < fuel → s.toc = toc →
    ∃ s', walk g a c fuel p j s = some s' ∧ s'.toc = Function.update toc o 0 ∧
      (∀ q, s'.suba q = s.suba q + if Above g toc p q then a.weight s.lfr c else 0) ∧
      s'.travel c = ((j + k : Nat) : R) ∧ s'.travel o = 0 ∧ (∀ q, q ≠ c → q ≠ o → s'.travel q = s.travel q) ∧
      (∀ q, s'.lfr q = if q = o ∧ s.lfr o = mval then 0 else s.lfr q) ∧
      s'.ibas c = s'.idx o ∧ s'.ibas o = s'.idx o ∧ (∀ q, q ≠ c → q ≠ o → s'.ibas q = s.ibas q) ∧
      (s.idx o = -1 → s'.idx = Function.update s.idx o (s.ilo.length + 1) ∧ s'.ilo = s.ilo ++ [kind (s'.lfr o)]) ∧
      (s.idx o ≠ -1 → s'.idx = s.idx ∧ s'.ilo = s.ilo) := by
  induction h with
  | here p =>
    intro fuel j s hf hs
    obtain ⟨fuel, rfl⟩ : ∃ f, fuel = f + 1 := ⟨fuel - 1, by omega⟩
    have hm : s.toc p = mval := by rw [hs, hz]
    have hoff : offset (s.toc p) = none := by rw [hm]; rfl
    have hab : ∀ q, Above g toc p q ↔ q = p := by
      intro q
      constructor
      · rintro ⟨k, hk⟩
        cases hk with
        | here => rfl
        | step hn _ => exact absurd hz hn.ne_mval
      · rintro rfl; exact ⟨0, .here _⟩
    refine ⟨newOutlet a c p j s, ?_, ?_⟩
    · simp only [walk, hoff]
      rw [if_pos hm]
    · have hlfr : ∀ q, (if s.lfr p = mval then Function.update s.lfr p 0 else s.lfr) q = if q = p ∧ s.lfr p = mval then 0 else s.lfr q := by
        intro q
        by_cases h1 : s.lfr p = mval
        · rw [if_pos h1]
          by_cases h2 : q = p
          · rw [h2, Function.update_self, if_pos ⟨rfl, h1⟩]
          · rw [Function.update_of_ne h2, if_neg (fun h => h2 h.1)]
        · rw [if_neg h1, if_neg (fun h => h1 h.2)]
      have hsub : ∀ q, Function.update s.suba p (s.suba p + a.weight s.lfr c) q = s.suba q + if Above g toc p q then a.weight s.lfr c else 0 := by
        intro q
        by_cases h2 : q = p
        · rw [h2, Function.update_self, if_pos ((hab p).2 rfl)]
        · rw [Function.update_of_ne h2, if_neg (fun h => h2 ((hab q).1 h)), add_zero]
      by_cases hi : s.idx p = -1
      · have e : newOutlet a c p j s = ⟨Function.update s.toc p 0, if s.lfr p = mval then Function.update s.lfr p 0 else s.lfr,
            Function.update s.suba p (s.suba p + a.weight s.lfr c), Function.update (Function.update s.travel p 0) c j,
            Function.update (Function.update s.ibas c (s.ilo.length + 1)) p (s.ilo.length + 1), Function.update s.idx p (s.ilo.length + 1),
            s.ilo ++ [kind ((if s.lfr p = mval then Function.update s.lfr p 0 else s.lfr) p)]⟩ := by
          unfold newOutlet
          dsimp only
          rw [if_pos hi]
          simp only [Function.update_self]
        rw [e]
        refine ⟨by rw [hs], hsub, ?_, ?_, ?_, hlfr, ?_, ?_, ?_, fun _ => ⟨rfl, rfl⟩, fun h => absurd hi h⟩
        · simp
        · simp [Function.update_of_ne hco]
        · intro q h1 h2; simp [Function.update_of_ne h1, Function.update_of_ne h2]
        · simp [Function.update_of_ne (Ne.symm hco)]
        · simp
        · intro q h1 h2; simp [Function.update_of_ne h1, Function.update_of_ne h2]
      · have e : newOutlet a c p j s = ⟨Function.update s.toc p 0, if s.lfr p = mval then Function.update s.lfr p 0 else s.lfr,
            Function.update s.suba p (s.suba p + a.weight s.lfr c), Function.update (Function.update s.travel p 0) c j,
            Function.update (Function.update s.ibas c (s.idx p)) p (s.idx p), s.idx, s.ilo⟩ := by
          unfold newOutlet
          dsimp only
          rw [if_neg hi]
        rw [e]
        refine ⟨by rw [hs], hsub, ?_, ?_, ?_, hlfr, ?_, ?_, ?_, fun h => absurd h hi, fun _ => ⟨rfl, rfl⟩⟩
        · simp
        · simp [Function.update_of_ne hco]
        · intro q h1 h2; simp [Function.update_of_ne h1, Function.update_of_ne h2]
        · simp [Function.update_of_ne (Ne.symm hco)]
        · simp
        · intro q h1 h2; simp [Function.update_of_ne h1, Function.update_of_ne h2]
  | @step p q o k hn hp ih =>
    intro fuel j s hf hs
    obtain ⟨fuel, rfl⟩ : ∃ f, fuel = f + 1 := ⟨fuel - 1, by omega⟩
    have hb := not_above_missing hn hp hz
    have hab := fun r => @above_step g toc p _ r hn
    obtain ⟨hne, e, he, rfl⟩ := hn
    have hoff : offset (s.toc p) = some e := by rw [hs, offset_iff.mpr he]
    obtain ⟨s', h1, h2, h3, h4, h5⟩ := ih hz hco fuel (j + 1) { s with suba := Function.update s.suba p (s.suba p + a.weight s.lfr c) } (by omega) hs
    refine ⟨s', ?_, h2, ?_, ?_, h5⟩
    · simp only [walk, hoff]
      rw [if_neg (by rw [hs]; exact hne)]
      exact h1
    · intro r
      rw [h3 r]
      by_cases hr : r = p
      · subst hr
        simp only [Function.update_self]
        rw [if_neg hb, if_pos ((hab _).mpr (.inl rfl)), add_zero]
      · simp only [Function.update_of_ne hr]
        congr 1
        exact if_congr (by rw [hab]; simp [hr]) rfl rfl
    · rw [h4, show j + 1 + k = j + (k + 1) by omega]

open Classical in
/-- A river from `c` that comes after `k` steps to a cell `o` where the direction is missing: the cell becomes an outlet with the travel distance 0; the area of
`c` is added once at every cell of the river, `o` included, and at no other; the distance of `c` is `k`; `c` and `o` get the number of the outlet, which is a new
number if the outlet had none; a missing land fraction becomes 0. (Not shown: the sum over all rivers; see `C102_order_wrong`.) -/
theorem C102_missing_partial {g : Grid} {a : Areas R} {c o : Pos} {k fuel : Nat} {s : State R} (h : Path g s.toc c k o) (hz : s.toc o = mval) (hc : s.toc c ≠ mval)
    (hf : k < fuel) :
    ∃ s', river g a fuel s c = some s' ∧ s'.toc = Function.update s.toc o 0 ∧
      (∀ q, s'.suba q = s.suba q + if Above g s.toc c q then a.weight s.lfr c else 0) ∧
      s'.travel c = (k : R) ∧ s'.travel o = 0 ∧ (∀ q, q ≠ c → q ≠ o → s'.travel q = s.travel q) ∧
      (∀ q, s'.lfr q = if q = o ∧ s.lfr o = mval then 0 else s.lfr q) ∧
      s'.ibas c = s'.idx o ∧ s'.ibas o = s'.idx o ∧ (∀ q, q ≠ c → q ≠ o → s'.ibas q = s.ibas q) ∧
      (s.idx o = -1 → s'.idx = Function.update s.idx o (s.ilo.length + 1) ∧ s'.ilo = s.ilo ++ [kind (s'.lfr o)]) ∧
      (s.idx o ≠ -1 → s'.idx = s.idx ∧ s'.ilo = s.ilo) := by
  have hco : o ≠ c := by rintro rfl; exact hc hz
  have := walk_missing (a := a) h hz hco fuel 0 s hf rfl
  rw [Nat.zero_add] at this
  unfold river
  rw [if_neg hc]
  exact this

/-- The area at a missing cell to which a river flows depends on the order of the cells: it contains the area of the cell itself if the river begins at a cell before
it, and does not if the river begins after it. -/
theorem C102_order_wrong :
    let toc (p : Pos) : Int := if p = ⟨1, 1, 1⟩ then 1 else mval
    let toc' (p : Pos) : Int := if p = ⟨3, 1, 1⟩ then 16 else mval
    (follow ⟨1, 4, 1⟩ ⟨fun _ => (2 : ℚ), false⟩ 5 toc (fun _ => 1)).map (fun s => s.suba ⟨2, 1, 1⟩) = some 4 ∧
    (follow ⟨1, 4, 1⟩ ⟨fun _ => (2 : ℚ), false⟩ 5 toc' (fun _ => 1)).map (fun s => s.suba ⟨2, 1, 1⟩) = some 2 := by decide +kernel

/-- The steps to the sides -/
def sideSteps : List (Int × Int) := [(1, 0), (-1, 0), (0, 1), (0, -1)]

theorem wrap_self {g : Grid} {p : Pos} (hp : g.inside p) : wrap g p = p := by
  obtain ⟨h1, h2, h3, h4, h5, h6⟩ := hp
  have a1 : ¬ p.x = g.nx + 1 := by omega
  have a2 : ¬ p.x = 0 := by omega
  have a3 : ¬ p.y = g.ny + 1 := by omega
  have a4 : ¬ p.y = 0 := by omega
  simp only [wrap, a1, a2, a3, a4, if_false, ite_self]

theorem wrap_east {nx x y n : Int} (hx : x = nx) (hy : 1 ≤ y ∧ y ≤ nx) : wrap ⟨6, nx, nx⟩ ⟨x + 1, y, n⟩ =
    if n % 2 = 0 then ⟨nx + 1 - y, 1, ite ⟨6, nx, nx⟩ n⟩ else ⟨1, y, ite ⟨6, nx, nx⟩ n⟩ := by
  have a1 : ¬ (6 : Int) = 1 := by omega
  have a3 : ¬ y = nx + 1 := by omega
  have a4 : ¬ y = 0 := by omega
  simp only [wrap, hx, a1, a3, a4, if_false, if_true]

theorem wrap_west {nx x y n : Int} (hx : x = 1) (hy : 1 ≤ y ∧ y ≤ nx) : wrap ⟨6, nx, nx⟩ ⟨x + -1, y, n⟩ =
    if n % 2 = 0 then ⟨nx, y, itw ⟨6, nx, nx⟩ n⟩ else ⟨nx + 1 - y, nx, itw ⟨6, nx, nx⟩ n⟩ := by
  have a1 : ¬ (6 : Int) = 1 := by omega
  have a2 : ¬ (1 : Int) + -1 = nx + 1 := by omega
  have a3 : ¬ y = nx + 1 := by omega
  have a4 : ¬ y = 0 := by omega
  have a5 : (1 : Int) + -1 = 0 := by omega
  simp only [wrap, hx, a1, a2, a3, a4, if_false]
  simp only [a5, if_true]

theorem wrap_north {nx x y n : Int} (hy : y = nx) : wrap ⟨6, nx, nx⟩ ⟨x, y + 1, n⟩ =
    if n % 2 = 0 then ⟨x, 1, itn ⟨6, nx, nx⟩ n⟩ else ⟨1, nx + 1 - x, itn ⟨6, nx, nx⟩ n⟩ := by
  have a1 : ¬ (6 : Int) = 1 := by omega
  simp only [wrap, hy, a1, if_false, if_true]

theorem wrap_south {nx x y n : Int} (hn : 1 ≤ nx) (hy : y = 1) : wrap ⟨6, nx, nx⟩ ⟨x, y + -1, n⟩ =
    if n % 2 = 0 then ⟨nx, nx + 1 - x, its ⟨6, nx, nx⟩ n⟩ else ⟨x, nx, its ⟨6, nx, nx⟩ n⟩ := by
  have a1 : ¬ (6 : Int) = 1 := by omega
  have a2 : ¬ (1 : Int) + -1 = nx + 1 := by omega
  have a5 : (1 : Int) + -1 = 0 := by omega
  simp only [wrap, hy, a1, a2, if_false]
  simp only [a5, if_true]

/-- On a cube of six square tiles a step over a side of a tile comes to a cell of the grid, and a step over a side comes back from there. -/
theorem C102_cube {g : Grid} (h6 : g.nt = 6) (hsq : g.nx = g.ny) {p : Pos} (hp : g.inside p) {e : Int × Int} (he : e ∈ sideSteps) :
    g.inside (wrap g (p.move e)) ∧ ∃ f ∈ sideSteps, wrap g ((wrap g (p.move e)).move f) = p := by
  obtain ⟨nt, nx, ny⟩ := g
  obtain ⟨x, y, n⟩ := p
  simp only at h6 hsq
  subst h6; subst hsq
  obtain ⟨h1, h2, h3, h4, h5, h6⟩ := hp
  simp only at h1 h2 h3 h4 h5 h6
  have stay : ∀ f : Int × Int, f ∈ sideSteps → (⟨6, nx, nx⟩ : Grid).inside (Pos.move ⟨x, y, n⟩ f) → (-f.1, -f.2) ∈ sideSteps →
      (⟨6, nx, nx⟩ : Grid).inside (wrap ⟨6, nx, nx⟩ (Pos.move ⟨x, y, n⟩ f)) ∧
      ∃ f' ∈ sideSteps, wrap ⟨6, nx, nx⟩ ((wrap ⟨6, nx, nx⟩ (Pos.move ⟨x, y, n⟩ f)).move f') = ⟨x, y, n⟩ := by
    intro f _ hin hf'
    rw [wrap_self hin]
    refine ⟨hin, _, hf', ?_⟩
    have : (Pos.move (Pos.move ⟨x, y, n⟩ f) (-f.1, -f.2)) = ⟨x, y, n⟩ := by simp [Pos.move]
    rw [this]
    exact wrap_self ⟨h1, h2, h3, h4, h5, h6⟩
  simp only [sideSteps, List.mem_cons, List.not_mem_nil, or_false] at he
  rcases he with rfl | rfl | rfl | rfl
  · by_cases hx : x = nx
    · have e1 : Pos.move ⟨x, y, n⟩ (1, 0) = ⟨x + 1, y, n⟩ := by simp [Pos.move]
      rw [e1, wrap_east hx ⟨h3, h4⟩]
      subst hx
      by_cases hn : n % 2 = 0
      · rw [if_pos hn]
        have hi : 1 ≤ ite ⟨6, x, x⟩ n ∧ ite ⟨6, x, x⟩ n ≤ 6 ∧ ite ⟨6, x, x⟩ n % 2 = 0 ∧ its ⟨6, x, x⟩ (ite ⟨6, x, x⟩ n) = n := by
          interval_cases n <;> simp [ite, its, tile] at hn ⊢
        refine ⟨⟨by simp; omega, by simp; omega, by simp, by simp; omega, hi.1, hi.2.1⟩, (0, -1), by decide, ?_⟩
        have e2 : Pos.move ⟨x + 1 - y, 1, ite ⟨6, x, x⟩ n⟩ (0, -1) = ⟨x + 1 - y, 1 + -1, ite ⟨6, x, x⟩ n⟩ := by simp [Pos.move]
        rw [e2, wrap_south (by omega) rfl, if_pos hi.2.2.1, hi.2.2.2]
        simp
      · rw [if_neg hn]
        have hi : 1 ≤ ite ⟨6, x, x⟩ n ∧ ite ⟨6, x, x⟩ n ≤ 6 ∧ ite ⟨6, x, x⟩ n % 2 = 0 ∧ itw ⟨6, x, x⟩ (ite ⟨6, x, x⟩ n) = n := by
          interval_cases n <;> simp [ite, itw, tile] at hn ⊢
        refine ⟨⟨by simp, by simp; omega, h3, h4, hi.1, hi.2.1⟩, (-1, 0), by decide, ?_⟩
        have e2 : Pos.move ⟨1, y, ite ⟨6, x, x⟩ n⟩ (-1, 0) = ⟨1 + -1, y, ite ⟨6, x, x⟩ n⟩ := by simp [Pos.move]
        rw [e2, wrap_west rfl ⟨h3, h4⟩, if_pos hi.2.2.1, hi.2.2.2]
    · refine stay (1, 0) (by decide) ?_ (by decide)
      simp only [Grid.inside, Pos.move]
      omega
  · by_cases hx : x = 1
    · have e1 : Pos.move ⟨x, y, n⟩ (-1, 0) = ⟨x + -1, y, n⟩ := by simp [Pos.move]
      rw [e1, wrap_west hx ⟨h3, h4⟩]
      subst hx
      by_cases hn : n % 2 = 0
      · rw [if_pos hn]
        have hi : 1 ≤ itw ⟨6, nx, nx⟩ n ∧ itw ⟨6, nx, nx⟩ n ≤ 6 ∧ ¬ itw ⟨6, nx, nx⟩ n % 2 = 0 ∧ ite ⟨6, nx, nx⟩ (itw ⟨6, nx, nx⟩ n) = n := by
          interval_cases n <;> simp [ite, itw, tile] at hn ⊢
        refine ⟨⟨by simp; omega, by simp, h3, h4, hi.1, hi.2.1⟩, (1, 0), by decide, ?_⟩
        have e2 : Pos.move ⟨nx, y, itw ⟨6, nx, nx⟩ n⟩ (1, 0) = ⟨nx + 1, y, itw ⟨6, nx, nx⟩ n⟩ := by simp [Pos.move]
        rw [e2, wrap_east rfl ⟨h3, h4⟩, if_neg hi.2.2.1, hi.2.2.2]
      · rw [if_neg hn]
        have hi : 1 ≤ itw ⟨6, nx, nx⟩ n ∧ itw ⟨6, nx, nx⟩ n ≤ 6 ∧ ¬ itw ⟨6, nx, nx⟩ n % 2 = 0 ∧ itn ⟨6, nx, nx⟩ (itw ⟨6, nx, nx⟩ n) = n := by
          interval_cases n <;> simp [itn, itw, tile] at hn ⊢
        refine ⟨⟨by simp; omega, by simp; omega, by simp; omega, by simp, hi.1, hi.2.1⟩, (0, 1), by decide, ?_⟩
        have e2 : Pos.move ⟨nx + 1 - y, nx, itw ⟨6, nx, nx⟩ n⟩ (0, 1) = ⟨nx + 1 - y, nx + 1, itw ⟨6, nx, nx⟩ n⟩ := by simp [Pos.move]
        rw [e2, wrap_north rfl, if_neg hi.2.2.1, hi.2.2.2]
        simp
    · refine stay (-1, 0) (by decide) ?_ (by decide)
      simp only [Grid.inside, Pos.move]
      omega
  · by_cases hy : y = nx
    · have e1 : Pos.move ⟨x, y, n⟩ (0, 1) = ⟨x, y + 1, n⟩ := by simp [Pos.move]
      rw [e1, wrap_north hy]
      subst hy
      by_cases hn : n % 2 = 0
      · rw [if_pos hn]
        have hi : 1 ≤ itn ⟨6, y, y⟩ n ∧ itn ⟨6, y, y⟩ n ≤ 6 ∧ ¬ itn ⟨6, y, y⟩ n % 2 = 0 ∧ its ⟨6, y, y⟩ (itn ⟨6, y, y⟩ n) = n := by
          interval_cases n <;> simp [itn, its, tile] at hn ⊢
        refine ⟨⟨h1, h2, by simp, by simp; omega, hi.1, hi.2.1⟩, (0, -1), by decide, ?_⟩
        have e2 : Pos.move ⟨x, 1, itn ⟨6, y, y⟩ n⟩ (0, -1) = ⟨x, 1 + -1, itn ⟨6, y, y⟩ n⟩ := by simp [Pos.move]
        rw [e2, wrap_south (by omega) rfl, if_neg hi.2.2.1, hi.2.2.2]
      · rw [if_neg hn]
        have hi : 1 ≤ itn ⟨6, y, y⟩ n ∧ itn ⟨6, y, y⟩ n ≤ 6 ∧ ¬ itn ⟨6, y, y⟩ n % 2 = 0 ∧ itw ⟨6, y, y⟩ (itn ⟨6, y, y⟩ n) = n := by
          interval_cases n <;> simp [itn, itw, tile] at hn ⊢
        refine ⟨⟨by simp, by simp; omega, by simp; omega, by simp; omega, hi.1, hi.2.1⟩, (-1, 0), by decide, ?_⟩
        have e2 : Pos.move ⟨1, y + 1 - x, itn ⟨6, y, y⟩ n⟩ (-1, 0) = ⟨1 + -1, y + 1 - x, itn ⟨6, y, y⟩ n⟩ := by simp [Pos.move]
        rw [e2, wrap_west rfl ⟨by omega, by omega⟩, if_neg hi.2.2.1, hi.2.2.2]
        simp
    · refine stay (0, 1) (by decide) ?_ (by decide)
      simp only [Grid.inside, Pos.move]
      omega
  · by_cases hy : y = 1
    · have e1 : Pos.move ⟨x, y, n⟩ (0, -1) = ⟨x, y + -1, n⟩ := by simp [Pos.move]
      rw [e1, wrap_south (by omega) hy]
      subst hy
      by_cases hn : n % 2 = 0
      · rw [if_pos hn]
        have hi : 1 ≤ its ⟨6, nx, nx⟩ n ∧ its ⟨6, nx, nx⟩ n ≤ 6 ∧ its ⟨6, nx, nx⟩ n % 2 = 0 ∧ ite ⟨6, nx, nx⟩ (its ⟨6, nx, nx⟩ n) = n := by
          interval_cases n <;> simp [ite, its, tile] at hn ⊢
        refine ⟨⟨by simp; omega, by simp, by simp; omega, by simp; omega, hi.1, hi.2.1⟩, (1, 0), by decide, ?_⟩
        have e2 : Pos.move ⟨nx, nx + 1 - x, its ⟨6, nx, nx⟩ n⟩ (1, 0) = ⟨nx + 1, nx + 1 - x, its ⟨6, nx, nx⟩ n⟩ := by simp [Pos.move]
        rw [e2, wrap_east rfl ⟨by omega, by omega⟩, if_pos hi.2.2.1, hi.2.2.2]
        simp
      · rw [if_neg hn]
        have hi : 1 ≤ its ⟨6, nx, nx⟩ n ∧ its ⟨6, nx, nx⟩ n ≤ 6 ∧ its ⟨6, nx, nx⟩ n % 2 = 0 ∧ itn ⟨6, nx, nx⟩ (its ⟨6, nx, nx⟩ n) = n := by
          interval_cases n <;> simp [itn, its, tile] at hn ⊢
        refine ⟨⟨h1, h2, by simp; omega, by simp, hi.1, hi.2.1⟩, (0, 1), by decide, ?_⟩
        have e2 : Pos.move ⟨x, nx, its ⟨6, nx, nx⟩ n⟩ (0, 1) = ⟨x, nx + 1, its ⟨6, nx, nx⟩ n⟩ := by simp [Pos.move]
        rw [e2, wrap_north rfl, if_pos hi.2.2.1, hi.2.2.2]
    · refine stay (0, -1) (by decide) ?_ (by decide)
      simp only [Grid.inside, Pos.move]
      omega

example : wrap ⟨6, 4, 4⟩ ((⟨4, 3, 2⟩ : Pos).move (1, 0)) = ⟨2, 1, 4⟩ ∧ wrap ⟨6, 4, 4⟩ ((⟨2, 1, 4⟩ : Pos).move (0, -1)) = ⟨4, 3, 2⟩ := by decide

example : Path ⟨1, 3, 1⟩ (fun p => if p = ⟨1, 1, 1⟩ then 1 else mval) ⟨1, 1, 1⟩ 1 ⟨2, 1, 1⟩ :=
  .step ⟨by decide, (1, 0), by decide, by decide⟩ (.here _)

end Verif.Hydrog
