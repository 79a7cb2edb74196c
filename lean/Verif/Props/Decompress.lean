import Verif.Spec.Decompress
import Verif.Props.Compress
/-
C22: decompress-ncc merges the points of several files.

The statement holds without an ocean fill value (`C22_merge_partial`, `C22_order_partial`). With an
ocean fill value each file overwrites all points it does not have itself, so only the points of the
last file are left (`C22_ocean_last_only`, `C22_ocean_loses_points`); the statement then holds for one
file (`C22_ocean_one_file_partial`).
-/
namespace Verif
open Compress Decompress Spec

/-- One file, from the point of view of the grid. -/
theorem readFile_spec {α : Type} {G : List Nat} {f : Input α} (hf : GoodInput G f) (ocean : Option α)
    (s : List α × List Bool) (h1 : s.1.length = G.prod) (h2 : s.2.length = G.prod) :
    ∃ r, readFile ocean s f = some r ∧ r.1.length = G.prod ∧ r.2.length = G.prod ∧
      ∀ g, InBox G g → (∀ x, Gives f g x → r.1[linF G g]? = some x) ∧
        ((∀ x, ¬ Gives f g x) → r.1[linF G g]? = (match ocean with
          | none => s.1[linF G g]?
          | some ov => some ov)) := by
  obtain ⟨d, m, e, l1, l2, hg⟩ := C18_unpack f.dims hf.wf f.buffer hf.len ocean s.1 s.2
    (by rw [hf.grid, h1]) (by rw [hf.grid, h2])
  refine ⟨(d, m), e, by rw [← h1]; exact l1, by rw [← h2]; exact l2, ?_⟩
  intro g hgb
  rw [hf.grid] at hg
  obtain ⟨ha, hb⟩ := hg g hgb
  constructor
  · rintro x ⟨i, hi, hp, hx⟩
    have := (ha i hi hp (by
      intro i' hi' hlt hp'
      have := pointOf_inj f.dims i i' g hf.wf hf.norep hi hi' hp hp'
      subst this
      omega)).1
    rw [← hx]
    exact this
  · intro hno
    have := (hb (by
      intro i hi hp
      have hlt := linF_lt hi
      rw [← hf.len] at hlt
      exact hno _ ⟨i, hi, hp, List.getElem?_eq_getElem hlt⟩)).1
    cases ocean <;> exact this

/-- A file gives a point at most one value. -/
theorem gives_unique {α : Type} {G : List Nat} {f : Input α} (hf : GoodInput G f) {g : List Nat}
    {x y : α} (h1 : Gives f g x) (h2 : Gives f g y) : x = y := by
  obtain ⟨i, hi, hp, hx⟩ := h1
  obtain ⟨j, hj, hq, hy⟩ := h2
  have := pointOf_inj f.dims i j g hf.wf hf.norep hi hj hp hq
  subst this
  rw [hx] at hy
  exact Option.some.inj hy

/-- Files read one after the other, no ocean value. -/
theorem readFiles_spec {α : Type} {G : List Nat} : ∀ (files : List (Input α)),
    (∀ f ∈ files, GoodInput G f) → Spec.Disjoint files → ∀ (s : List α × List Bool),
    s.1.length = G.prod → s.2.length = G.prod →
    ∃ r, files.foldlM (readFile none) s = some r ∧ r.1.length = G.prod ∧ r.2.length = G.prod ∧
      ∀ g, InBox G g → (∀ f ∈ files, ∀ x, Gives f g x → r.1[linF G g]? = some x) ∧
        ((∀ f ∈ files, ∀ x, ¬ Gives f g x) → r.1[linF G g]? = s.1[linF G g]?) := by
  intro files
  induction files with
  | nil =>
    intro _ _ s h1 h2
    refine ⟨s, rfl, h1, h2, fun g _ => ⟨?_, fun _ => rfl⟩⟩
    intro f hf
    cases hf
  | cons f fs ih =>
    intro hgood hdis s h1 h2
    obtain ⟨r, e, l1, l2, hr⟩ := readFile_spec (hgood f (by simp)) none s h1 h2
    obtain ⟨hd1, hd2⟩ := List.pairwise_cons.1 hdis
    obtain ⟨r', e', l1', l2', hr'⟩ := ih (fun f' hf' => hgood f' (by simp [hf'])) hd2 r l1 l2
    refine ⟨r', by rw [List.foldlM_cons, e]; exact e', l1', l2', ?_⟩
    intro g hg
    obtain ⟨a, b⟩ := hr g hg
    obtain ⟨a', b'⟩ := hr' g hg
    constructor
    · intro f' hf' x hx
      rcases List.mem_cons.1 hf' with rfl | hf'
      · rw [b' (fun f'' hf'' y hy => hd1 f'' hf'' g x y hx hy)]
        exact a x hx
      · exact a' f' hf' x hx
    · intro hno
      rw [b' (fun f' hf' x hx => hno f' (by simp [hf']) x hx)]
      exact b (fun x hx => hno f (by simp) x hx)

/-- C22 without an ocean fill value: decompressing files with disjoint points succeeds and gives at each
grid point the value of the file which has the point, and the missing value if no file has it. Missing
from the full statement: the case with an ocean fill value. -/
theorem C22_merge_partial {α : Type} (G : List Nat) (files : List (Input α)) (missing : α)
    (hgood : ∀ f ∈ files, GoodInput G f) (hdis : Spec.Disjoint files) :
    ∃ data, decompress G.prod missing none files = some data ∧ data.length = G.prod ∧
      ∀ g, InBox G g →
        (∀ f ∈ files, ∀ x, Gives f g x → data[linF G g]? = some x) ∧
        ((∀ f ∈ files, ∀ x, ¬ Gives f g x) → data[linF G g]? = some missing) := by
  obtain ⟨r, e, l1, _, hr⟩ := readFiles_spec (G := G) files hgood hdis
    (List.replicate G.prod missing, List.replicate G.prod false) (by simp) (by simp)
  refine ⟨r.1, by unfold decompress; rw [e]; rfl, l1, ?_⟩
  intro g hg
  obtain ⟨a, b⟩ := hr g hg
  refine ⟨a, fun hno => ?_⟩
  rw [b hno]
  simp [linF_lt hg]

/-- C22 without an ocean fill value: the order of the files does not matter. -/
theorem C22_order_partial {α : Type} (G : List Nat) (files files' : List (Input α)) (missing : α)
    (hgood : ∀ f ∈ files, GoodInput G f) (hdis : Spec.Disjoint files) (hp : files'.Perm files) :
    decompress G.prod missing none files' = decompress G.prod missing none files := by
  have hgood' : ∀ f ∈ files', GoodInput G f := fun f hf => hgood f (hp.mem_iff.1 hf)
  have hdis' : Spec.Disjoint files' :=
    (hp.pairwise_iff (by
      intro f f' h g x y hx hy
      exact h g y x hy hx)).2 hdis
  obtain ⟨d, e, l, h⟩ := C22_merge_partial G files missing hgood hdis
  obtain ⟨d', e', l', h'⟩ := C22_merge_partial G files' missing hgood' hdis'
  rw [e, e']
  congr 1
  apply List.ext_getElem?
  intro n
  rcases Nat.lt_or_ge n G.prod with hn | hn
  · obtain ⟨g, hg, rfl⟩ := linF_surj hn
    by_cases hex : ∃ f ∈ files, ∃ x, Gives f g x
    · obtain ⟨f, hf, x, hx⟩ := hex
      rw [(h g hg).1 f hf x hx, (h' g hg).1 f (hp.mem_iff.2 hf) x hx]
    · rw [(h g hg).2 (fun f hf x hx => hex ⟨f, hf, x, hx⟩),
        (h' g hg).2 (fun f hf x hx => hex ⟨f, hp.mem_iff.1 hf, x, hx⟩)]
  · rw [List.getElem?_eq_none (by omega), List.getElem?_eq_none (by omega)]

/-- With an ocean fill value the result depends on the last file only: its points have their values, and
all others have the ocean value, whatever the other files contain. -/
theorem C22_ocean_last_only {α : Type} (G : List Nat) (files : List (Input α)) (last : Input α)
    (missing ov : α) (hgood : ∀ f ∈ files, GoodInput G f) (hl : GoodInput G last) :
    ∃ data, decompress G.prod missing (some ov) (files ++ [last]) = some data ∧
      data.length = G.prod ∧ ∀ g, InBox G g →
        (∀ x, Gives last g x → data[linF G g]? = some x) ∧
        ((∀ x, ¬ Gives last g x) → data[linF G g]? = some ov) := by
  have hrun : ∀ (fs : List (Input α)), (∀ f ∈ fs, GoodInput G f) → ∀ (s : List α × List Bool),
      s.1.length = G.prod → s.2.length = G.prod →
      ∃ r, fs.foldlM (readFile (some ov)) s = some r ∧ r.1.length = G.prod ∧ r.2.length = G.prod := by
    intro fs
    induction fs with
    | nil => intro _ s h1 h2; exact ⟨s, rfl, h1, h2⟩
    | cons f fs ih =>
      intro hg s h1 h2
      obtain ⟨r, e, l1, l2, _⟩ := readFile_spec (hg f (by simp)) (some ov) s h1 h2
      obtain ⟨r', e', l1', l2'⟩ := ih (fun f' hf' => hg f' (by simp [hf'])) r l1 l2
      exact ⟨r', by rw [List.foldlM_cons, e]; exact e', l1', l2'⟩
  obtain ⟨r, e, l1, l2⟩ := hrun files hgood
    (List.replicate G.prod missing, List.replicate G.prod false) (by simp) (by simp)
  obtain ⟨r', e', l1', _, hr⟩ := readFile_spec hl (some ov) r l1 l2
  refine ⟨r'.1, ?_, l1', hr⟩
  unfold decompress
  rw [List.foldlM_append, e]
  simp only [List.foldlM_cons, List.foldlM_nil, Option.bind_eq_bind, Option.bind_some, e']
  rfl

/-- C22 with an ocean fill value, for one file: its points have their values and all others the ocean
value. Missing from the full statement: several files. -/
theorem C22_ocean_one_file_partial {α : Type} (G : List Nat) (f : Input α) (missing ov : α)
    (hf : GoodInput G f) :
    ∃ data, decompress G.prod missing (some ov) [f] = some data ∧ data.length = G.prod ∧
      ∀ g, InBox G g → (∀ x, Gives f g x → data[linF G g]? = some x) ∧
        ((∀ x, ¬ Gives f g x) → data[linF G g]? = some ov) :=
  C22_ocean_last_only G [] f missing ov (by simp) hf

/-! ### Concrete case: a grid of 4 points and two files with one point each -/

def exIn (p : Int) (x : Nat) : Input Nat := ⟨[CDim.mk 1 (some ([p], 4))], [x]⟩

example : decompress 4 0 none [exIn 1 5, exIn 3 6] = some [0, 5, 0, 6] := by decide
example (p : Nat) (x : Nat) (h : p < 4) : GoodInput [4] (exIn p x) := by
  refine ⟨?_, rfl, ?_, rfl⟩
  · intro d hd
    simp only [exIn, List.mem_singleton] at hd
    subst hd
    refine ⟨by simp, fun ix n h => ?_⟩
    cases h
    exact ⟨rfl, by simpa using h⟩
  · intro d hd ix n h i j v hi hj _
    simp only [exIn, List.mem_singleton] at hd
    subst hd
    cases h
    have h1 := (List.getElem?_eq_some_iff.1 hi).1
    have h2 := (List.getElem?_eq_some_iff.1 hj).1
    simp at h1 h2
    omega
example : Spec.Disjoint [exIn 1 5, exIn 3 6] := by
  refine List.pairwise_cons.2 ⟨?_, by simp⟩
  intro f hf g x y h1 h2
  simp only [List.mem_singleton] at hf
  subst hf
  obtain ⟨i, hi, hp, _⟩ := h1
  obtain ⟨j, hj, hq, _⟩ := h2
  obtain ⟨a, _, rfl, ha, hn⟩ := InBox.cons_iff.1 hi
  obtain ⟨b, _, rfl, hb, hm⟩ := InBox.cons_iff.1 hj
  obtain rfl := InBox.nil_iff.1 hn
  obtain rfl := InBox.nil_iff.1 hm
  have ha' : a = 0 := by simp at ha; omega
  have hb' : b = 0 := by simp at hb; omega
  subst ha' hb'
  simp [exIn, pointOf] at hp hq
  rw [← hp] at hq
  simp at hq

/-- With an ocean fill value (9) the point of the first file is lost, and the order of the files
matters. -/
theorem C22_ocean_loses_points :
    decompress 4 0 (some 9) [exIn 1 5, exIn 3 6] = some [9, 9, 9, 6] ∧
    decompress 4 0 (some 9) [exIn 3 6, exIn 1 5] = some [9, 5, 9, 9] := by decide

end Verif
