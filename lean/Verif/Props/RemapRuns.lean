import Verif.Model.RemapRuns
import Verif.Spec.RemapRuns
import Mathlib.Data.List.Nodup
import Mathlib.Data.List.GetD
/-
Property C134: remap files over several runs of fregrid.
-/
namespace Verif.RemapRuns
open Verif.Spec.RemapRuns

variable {G B D W : Type} {c : Grids G B D W}

/-! ### Names -/

theorem stem_ok {name s : Name} (h : stem name = .ok s) : 3 ≤ name.length ∧ name.length < 255 ∧ (name = s ∨ name = s ++ ['.', 'n', 'c']) := by
  unfold stem STRING at h
  by_cases h1 : 255 ≤ name.length
  · rw [if_pos h1] at h; exact absurd h (by simp)
  · rw [if_neg h1] at h
    by_cases h2 : name.length < 3
    · rw [if_pos h2] at h; exact absurd h (by simp)
    · rw [if_neg h2] at h
      refine ⟨by omega, by omega, ?_⟩
      by_cases h3 : name.drop (name.length - 3) = ['.', 'n', 'c']
      · rw [if_pos h3] at h
        injection h with h
        right
        rw [← h, ← h3, List.take_append_drop]
      · rw [if_neg h3] at h
        injection h with h
        exact Or.inl h

theorem names_ok {g : G} {name : Name} {ns : List Name} (h : names c g name = .ok ns) :
    ∃ s, stem name = .ok s ∧ ((1 < (c.tiles g).length ∧ (∀ t ∈ c.tiles g, s.length + t.length ≤ 250) ∧ ns = (c.tiles g).map fun t => s ++ '.' :: t ++ ['.', 'n', 'c']) ∨
      ((c.tiles g).length ≤ 1 ∧ s.length ≤ 251 ∧ ns = (c.tiles g).map fun _ => s ++ ['.', 'n', 'c'])) := by
  unfold names at h
  match hs : stem name with
  | .error e => rw [hs] at h; exact absurd h (by simp)
  | .ok s =>
    rw [hs] at h
    simp only [] at h
    refine ⟨s, rfl, ?_⟩
    by_cases h1 : 1 < (c.tiles g).length
    · rw [if_pos h1] at h
      left
      by_cases h2 : (c.tiles g).any (fun t => decide (STRING - 5 < s.length + t.length)) = true
      · rw [if_pos h2] at h; exact absurd h (by simp)
      · rw [if_neg h2] at h
        injection h with h
        refine ⟨h1, fun t ht => ?_, h.symm⟩
        by_contra hlt
        refine h2 (List.any_eq_true.2 ⟨t, ht, ?_⟩)
        have hS : STRING = 255 := rfl
        simp only [decide_eq_true_eq]
        omega
    · rw [if_neg h1] at h
      right
      by_cases h2 : STRING < s.length + 4
      · rw [if_pos h2] at h; exact absurd h (by simp)
      · rw [if_neg h2] at h
        injection h with h
        refine ⟨by omega, ?_, h.symm⟩
        simp only [STRING] at h2
        omega

/-- C134: there is a file for each tile, no two tiles share one, the name is made of the argument and the name of the tile, and fits the buffer. -/
theorem C134_names {g : G} {name : Name} {ns : List Name} (hd : (c.tiles g).Nodup) (h : names c g name = .ok ns) :
    ns.length = (c.tiles g).length ∧ ns.Nodup ∧ (∀ f ∈ ns, f.length < 255) ∧
      (∀ (n : Nat) t, (c.tiles g)[n]? = some t → ∃ s, (name = s ∨ name = s ++ ['.', 'n', 'c']) ∧
        ns[n]? = some (if 1 < (c.tiles g).length then s ++ ['.'] ++ t ++ ['.', 'n', 'c'] else s ++ ['.', 'n', 'c'])) := by
  obtain ⟨s, hs, h⟩ := names_ok h
  have hst := stem_ok hs
  rcases h with ⟨h1, h2, rfl⟩ | ⟨h1, h2, rfl⟩
  · refine ⟨by simp, ?_, ?_, ?_⟩
    · refine hd.map fun a b e => ?_
      simpa using e
    · intro f hf
      obtain ⟨t, ht, rfl⟩ := List.mem_map.1 hf
      have := h2 t ht
      simp
      omega
    · intro n t ht
      refine ⟨s, hst.2.2, ?_⟩
      rw [if_pos h1, List.getElem?_map, ht]
      simp
  · refine ⟨by simp, ?_, ?_, ?_⟩
    · match hl : c.tiles g, h1 with
      | [], _ => simp
      | [t], _ => simp
    · intro f hf
      obtain ⟨t, ht, rfl⟩ := List.mem_map.1 hf
      simp
      omega
    · intro n t ht
      refine ⟨s, hst.2.2, ?_⟩
      rw [if_neg (by omega), List.getElem?_map, ht]
      rfl

/-- C134: names of 3 to 251 characters give files or are refused with a message. -/
theorem C134_good_name {g : G} {name : Name} (h : GoodName name) : names c g name ≠ .error .undefined := by
  intro hn
  unfold names at hn
  match hs : stem name with
  | .error e =>
    unfold stem STRING at hs
    rw [if_neg (by have := h.2; omega), if_neg (by have := h.1; omega)] at hs
    by_cases h3 : name.drop (name.length - 3) = ['.', 'n', 'c']
    · rw [if_pos h3] at hs; exact absurd hs (by simp)
    · rw [if_neg h3] at hs; exact absurd hs (by simp)
  | .ok s =>
    rw [hs] at hn
    simp only [] at hn
    have hst := stem_ok hs
    have hl : s.length ≤ 251 := by
      rcases hst.2.2 with e | e
      · rw [← e]; exact h.2
      · have := h.2
        rw [e] at this
        simp at this
        omega
    by_cases h1 : 1 < (c.tiles g).length
    · rw [if_pos h1] at hn
      by_cases h2 : (c.tiles g).any (fun t => decide (STRING - 5 < s.length + t.length)) = true
      · rw [if_pos h2] at hn; exact absurd hn (by simp)
      · rw [if_neg h2] at hn; exact absurd hn (by simp)
    · rw [if_neg h1, if_neg (by unfold STRING; omega)] at hn
      exact absurd hn (by simp)

/-- Two names that give one common file for a tile give the same files for all tiles. -/
theorem names_same {g : G} {a b : Name} {na nb : List Name} (ha : names c g a = .ok na) (hb : names c g b = .ok nb) {n : Nat} {f : Name}
    (hna : na[n]? = some f) (hnb : nb[n]? = some f) : na = nb := by
  obtain ⟨s, _, ha⟩ := names_ok ha
  obtain ⟨t, _, hb⟩ := names_ok hb
  have key : s = t := by
    rcases ha with ⟨h1, _, rfl⟩ | ⟨h1, _, rfl⟩ <;> rcases hb with ⟨h2, _, rfl⟩ | ⟨h2, _, rfl⟩
    · rw [List.getElem?_map] at hna hnb
      match ht : (c.tiles g)[n]? with
      | none => rw [ht] at hna; exact absurd hna (by simp)
      | some u =>
        rw [ht] at hna hnb
        have := hna.trans hnb.symm
        simp only [Option.map_some, Option.some.injEq, List.append_assoc] at this
        exact List.append_cancel_right this
    · omega
    · omega
    · rw [List.getElem?_map] at hna hnb
      match ht : (c.tiles g)[n]? with
      | none => rw [ht] at hna; exact absurd hna (by simp)
      | some u =>
        rw [ht] at hna hnb
        have := hna.trans hnb.symm
        simp only [Option.map_some, Option.some.injEq] at this
        exact List.append_cancel_right this
  subst key
  rcases ha with ⟨h1, _, rfl⟩ | ⟨h1, _, rfl⟩ <;> rcases hb with ⟨h2, _, rfl⟩ | ⟨h2, _, rfl⟩ <;> first | rfl | omega

/-! ### Files -/

theorem apply_append (fs : Disk B D W) : ∀ u v : List (Name × File B D W), apply fs (u ++ v) = apply (apply fs u) v := by
  intro u
  induction u generalizing fs with
  | nil => intro v; rfl
  | cons a u ih => intro v; exact ih _ v

theorem apply_other {f : Name} : ∀ (ws : List (Name × File B D W)) (fs : Disk B D W), (∀ w ∈ ws, w.1 ≠ f) → apply fs ws f = fs f
  | [], _, _ => rfl
  | w :: ws, fs, h => by
    have := apply_other ws (fun g => if g = w.1 then some w.2 else fs g) fun v hv => h v (by simp [hv])
    unfold apply
    rw [this, if_neg (fun e => h w (by simp) e.symm)]

theorem apply_isSome {f : Name} : ∀ (ws : List (Name × File B D W)) (fs : Disk B D W), (fs f).isSome → (apply fs ws f).isSome
  | [], _, h => h
  | w :: ws, fs, h => by
    unfold apply
    refine apply_isSome ws _ ?_
    by_cases e : f = w.1
    · rw [if_pos e]; rfl
    · rw [if_neg e]; exact h

/-- The changes for the first tiles. -/
theorem writes_range (m : Method) (g : G) {ns : List Name} (hd : ns.Nodup) (fs : Disk B D W) : ∀ k ≤ ns.length, ∀ f : Name,
    apply fs ((List.range k).flatMap (tileWrites c m g ns)) f =
    match (List.range k).find? (fun n => decide (ns.getD n [] = f) && (fileOf c m g n).isSome) with
      | none => fs f
      | some n => fileOf c m g n
  | 0, _, f => rfl
  | k + 1, hk, f => by
    have ih := writes_range m g hd fs k (by omega)
    rw [List.range_succ, List.flatMap_append, apply_append, List.find?_append]
    match hf : fileOf c m g k with
    | none =>
      simp only [List.flatMap_cons, List.flatMap_nil, List.append_nil, tileWrites, hf, List.find?_cons, Option.isSome_none, Bool.and_false, List.find?_nil, Option.or_none]
      exact ih f
    | some file =>
      simp only [List.flatMap_cons, List.flatMap_nil, List.append_nil, tileWrites, hf, List.find?_cons, Option.isSome_some, Bool.and_true, List.find?_nil]
      by_cases e : ns.getD k [] = f
      · have hn : (List.range k).find? (fun n => decide (ns.getD n [] = f) && (fileOf c m g n).isSome) = none := by
          rw [List.find?_eq_none]
          intro n hn hh
          simp only [Bool.and_eq_true, decide_eq_true_eq] at hh
          have hn' := List.mem_range.1 hn
          rw [← e, List.getD_eq_getElem _ _ (by omega : n < ns.length), List.getD_eq_getElem _ _ (by omega : k < ns.length)] at hh
          have := (List.Nodup.getElem_inj_iff hd).1 hh.1
          omega
        rw [hn, decide_eq_true e]
        simp only [Option.none_or, hf]
        show (if f = ns.getD k [] then some file else _) = some file
        rw [if_pos e.symm]
      · rw [decide_eq_false e]
        simp only [Option.or_none]
        rw [← ih f]
        show (if f = ns.getD k [] then some file else if f = ns.getD k [] then some File.cut else _) = _
        rw [if_neg (Ne.symm e), if_neg (Ne.symm e)]

/-- After a run that writes, each of its tiles that has exchange cells has its file, complete. -/
theorem writes_file (m : Method) (g : G) {ns : List Name} (hd : ns.Nodup) (fs : Disk B D W) {n : Nat} {f : Name} (hn : ns[n]? = some f) :
    apply fs (writes c m g ns) f = (fileOf c m g n).or (fs f) := by
  have h := writes_range (c := c) m g hd fs ns.length (Nat.le_refl _) f
  have hlt : n < ns.length := by
    by_contra hh
    rw [List.getElem?_eq_none (by omega)] at hn
    exact absurd hn (by simp)
  have hg : ns.getD n [] = f := by rw [List.getD_eq_getElem?_getD, hn]; rfl
  unfold writes
  rw [h]
  match hfo : fileOf c m g n with
  | none =>
    have : (List.range ns.length).find? (fun n => decide (ns.getD n [] = f) && (fileOf c m g n).isSome) = none := by
      rw [List.find?_eq_none]
      intro k hk hh
      simp only [Bool.and_eq_true, decide_eq_true_eq] at hh
      have hk' := List.mem_range.1 hk
      rw [← hg, List.getD_eq_getElem _ _ hk', List.getD_eq_getElem _ _ hlt] at hh
      have := (List.Nodup.getElem_inj_iff hd).1 hh.1
      subst this
      rw [hfo] at hh
      simp at hh
    rw [this]
    rfl
  | some file =>
    match hfi : (List.range ns.length).find? (fun n => decide (ns.getD n [] = f) && (fileOf c m g n).isSome) with
    | none =>
      rw [List.find?_eq_none] at hfi
      have := hfi n (List.mem_range.2 hlt)
      simp only [hg, hfo] at this
      simp at this
    | some k =>
      have h1 := List.find?_some hfi
      have h2 := List.mem_range.1 (List.mem_of_find?_eq_some hfi)
      simp only [Bool.and_eq_true, decide_eq_true_eq] at h1
      have h3 := h1.1
      rw [← hg, List.getD_eq_getElem _ _ h2, List.getD_eq_getElem _ _ hlt] at h3
      have := (List.Nodup.getElem_inj_iff hd).1 h3
      subst this
      simp only [hfo]
      rfl

/-- Other files stay as they are. -/
theorem writes_other (m : Method) (g : G) {ns : List Name} (fs : Disk B D W) {f : Name} (hf : f ∉ ns) : apply fs (writes c m g ns) f = fs f := by
  refine apply_other _ _ fun w hw => ?_
  unfold writes at hw
  obtain ⟨n, hn, hw⟩ := List.mem_flatMap.1 hw
  have hlt := List.mem_range.1 hn
  unfold tileWrites at hw
  rw [List.getD_eq_getElem _ _ hlt] at hw
  have hm : ns[n] ∈ ns := List.getElem_mem hlt
  match hfo : fileOf c m g n with
  | none => rw [hfo] at hw; exact absurd hw (by simp)
  | some file =>
    rw [hfo] at hw
    simp only [List.mem_cons, List.not_mem_nil, or_false] at hw
    rcases hw with rfl | rfl <;> exact fun e => hf (e ▸ hm)

/-! ### Runs -/

/-- Each tile of the run gets exchange cells (with the bilinear method there are always weights). -/
def AllTiles (c : Grids G B D W) (r : Run G) : Prop := ∀ n < (c.tiles r.grid).length, c.base r.grid n ≠ []

theorem fileOf_some {m : Method} {g : G} {n : Nat} (h : c.base g n ≠ []) : ∃ file, fileOf c m g n = some file := by
  unfold fileOf
  match m with
  | .order1 => exact ⟨_, if_neg (by simpa using h)⟩
  | .order2 => exact ⟨_, if_neg (by simpa using h)⟩
  | .bilinear => exact ⟨_, rfl⟩

/-- What a file that was written for the same grids and tile gives. -/
theorem read_file {m m' : Method} {g : G} {n : Nat} {file : File B D W} (h : fileOf c m' g n = some file) :
    (readFile c m g file = .ok (fresh c m g n) ∨ readFile c m g file = .error .refused) ∧
    (m' = m ∨ (m = .order1 ∧ m' = .order2) → readFile c m g file = .ok (fresh c m g n)) := by
  unfold fileOf at h
  match m', h with
  | .order1, h =>
    simp only [] at h
    by_cases hb : (c.base g n).isEmpty = true
    · rw [if_pos hb] at h; exact absurd h (by simp)
    · rw [if_neg hb] at h
      injection h with h
      subst h
      cases m <;> simp [readFile, fresh]
  | .order2, h =>
    simp only [] at h
    by_cases hb : (c.base g n).isEmpty = true
    · rw [if_pos hb] at h; exact absurd h (by simp)
    · rw [if_neg hb] at h
      injection h with h
      subst h
      cases m <;> simp [readFile, fresh]
  | .bilinear, h =>
    simp only [] at h
    injection h with h
    subst h
    cases m <;> simp [readFile, fresh]

/-- The files come from earlier runs, and no run has files for some of its tiles only. -/
def Inv (c : Grids G B D W) (h : List (Run G)) (fs : Disk B D W) : Prop :=
  ∀ f file, fs f = some file → ∃ r ∈ h, ∃ name ns n, r.remap = some name ∧ names c r.grid name = .ok ns ∧ ns[n]? = some f ∧
    fileOf c r.method r.grid n = some file ∧ ∀ f' ∈ ns, (fs f').isSome

theorem inv_step (hd : ∀ g, (c.tiles g).Nodup) {h : List (Run G)} {fs : Disk B D W} (hi : Inv c h fs) {r : Run G} (ha : AllTiles c r) :
    Inv c (h ++ [r]) (apply fs (perform c fs r).1) := by
  have keep : Inv c (h ++ [r]) fs := fun f file hf => by
    obtain ⟨r', hr', rest⟩ := hi f file hf
    exact ⟨r', by simp [hr'], rest⟩
  unfold perform
  match hr : r.remap with
  | none => exact keep
  | some name =>
    simp only []
    match hn : names c r.grid name with
    | .error e => exact keep
    | .ok ns =>
      simp only []
      by_cases hx : (!r.weightsOnly && anyFile fs ns) = true
      · rw [if_pos hx]; exact keep
      · rw [if_neg hx]
        have hnames := C134_names (hd r.grid) hn
        have hall : ∀ f' ∈ ns, (apply fs (writes c r.method r.grid ns) f').isSome := by
          intro f' hf'
          obtain ⟨k, hk, rfl⟩ := List.getElem_of_mem hf'
          rw [writes_file r.method r.grid hnames.2.1 fs (List.getElem?_eq_getElem hk)]
          obtain ⟨file, hfile⟩ := fileOf_some (m := r.method) (ha k (by rw [← hnames.1]; exact hk))
          rw [hfile]
          rfl
        intro f file hf
        by_cases hm : f ∈ ns
        · obtain ⟨k, hk, rfl⟩ := List.getElem_of_mem hm
          have hw := writes_file r.method r.grid hnames.2.1 fs (c := c) (List.getElem?_eq_getElem hk)
          obtain ⟨file', hfile⟩ := fileOf_some (m := r.method) (ha k (by rw [← hnames.1]; exact hk))
          simp only [hw, hfile, Option.some_or] at hf
          exact ⟨r, by simp, name, ns, k, hr, hn, List.getElem?_eq_getElem hk, by rw [hfile]; exact hf, hall⟩
        · simp only [writes_other r.method r.grid fs hm] at hf
          obtain ⟨r', hr', name', ns', n, h1, h2, h3, h4, h5⟩ := hi f file hf
          exact ⟨r', by simp [hr'], name', ns', n, h1, h2, h3, h4, fun f' hf' => apply_isSome _ _ (h5 f' hf')⟩

theorem inv_after (hd : ∀ g, (c.tiles g).Nodup) : ∀ (h p : List (Run G)) {fs : Disk B D W}, Inv c p fs → (∀ r ∈ h, AllTiles c r) → Inv c (p ++ h) (after c fs h)
  | [], p, fs, hi, _ => by simpa [after] using hi
  | r :: h, p, fs, hi, ha => by
    have := inv_after hd h (p ++ [r]) (inv_step hd hi (ha r (by simp))) fun r' hr' => ha r' (by simp [hr'])
    simpa [after] using this

theorem collect_cases {α : Type} {f : Nat → Except Err α} {g : Nat → α} : ∀ {n : Nat}, (∀ k < n, f k = .ok (g k) ∨ f k = .error .refused) →
    collect f n = collect (fun k => .ok (g k)) n ∨ collect f n = .error .refused
  | 0, _ => Or.inl rfl
  | n + 1, h => by
    have ih := collect_cases (n := n) fun k hk => h k (by omega)
    have hok : ∀ m, ∃ l, collect (fun k => (.ok (g k) : Except Err α)) m = .ok l := by
      intro m
      induction m with
      | zero => exact ⟨_, rfl⟩
      | succ m ih =>
        obtain ⟨l, hl⟩ := ih
        exact ⟨l ++ [g m], by simp only [collect, hl]⟩
    obtain ⟨l, hl⟩ := hok n
    rcases ih with ih | ih
    · rcases h n (by omega) with e | e
      · left; simp only [collect, ih, hl, e]
      · right; simp only [collect, ih, hl, e]
    · right; simp only [collect, ih]

theorem collect_congr {α : Type} {f g : Nat → Except Err α} : ∀ {n : Nat}, (∀ k < n, f k = g k) → collect f n = collect g n
  | 0, _ => rfl
  | n + 1, h => by
    have ih := collect_congr (n := n) fun k hk => h k (by omega)
    simp only [collect, ih, h n (by omega)]

/-- Reading gives what would have been computed. -/
theorem read_all (hd : ∀ g, (c.tiles g).Nodup) {h : List (Run G)} {fs : Disk B D W} (hi : Inv c h fs) {r : Run G} {name : Name} {ns : List Name}
    (hr : r.remap = some name) (hn : names c r.grid name = .ok ns) (hm : ∀ r' ∈ h, Meet c r r') (hx : anyFile fs ns = true) :
    ∀ k < ns.length, ∃ r' ∈ h, r'.grid = r.grid ∧ (∃ f, HasFile c r k f ∧ HasFile c r' k f) ∧ ∃ file, fs (ns.getD k []) = some file ∧ fileOf c r'.method r.grid k = some file := by
  unfold anyFile at hx
  rw [List.any_eq_true] at hx
  obtain ⟨f, hf, hs⟩ := hx
  obtain ⟨m, hm', rfl⟩ := List.getElem_of_mem hf
  have hall : ∀ f' ∈ ns, (fs f').isSome := by
    match hfile : fs ns[m] with
    | none => rw [hfile] at hs; exact absurd hs (by simp)
    | some file =>
      obtain ⟨r', hr', name', ns', n, h1, h2, h3, h4, h5⟩ := hi _ file hfile
      have := hm r' hr' m n ns[m] ⟨name, ns, hr, hn, List.getElem?_eq_getElem hm'⟩ ⟨name', ns', h1, h2, h3⟩
      have hnn : ns = ns' := by
        have e := List.getElem?_eq_getElem hm'
        generalize ns[m] = u at e h3
        exact names_same hn (by rw [this.1]; exact h2) e (by rw [this.2]; exact h3)
      rw [hnn]
      exact h5
  intro k hk
  have hmem : ns[k] ∈ ns := List.getElem_mem hk
  rw [List.getD_eq_getElem _ _ hk]
  match hfile : fs ns[k] with
  | none => have := hall _ hmem; rw [hfile] at this; exact absurd this (by simp)
  | some file =>
    obtain ⟨r', hr', name', ns', n, h1, h2, h3, h4, h5⟩ := hi _ file hfile
    have hh1 : HasFile c r k ns[k] := ⟨name, ns, hr, hn, List.getElem?_eq_getElem hk⟩
    have hh2 : HasFile c r' n ns[k] := ⟨name', ns', h1, h2, h3⟩
    have := hm r' hr' k n ns[k] hh1 hh2
    refine ⟨r', hr', this.1.symm, ⟨ns[k], hh1, ?_⟩, file, rfl, ?_⟩
    · generalize ns[k] = u at hh2
      rw [this.2]
      exact hh2
    · rw [this.1, this.2]
      exact h4

theorem inv_start {fs : Disk B D W} (h : ∀ f, fs f = none) : Inv c [] fs := fun f file hf => absurd (hf.symm.trans (h f)) (by simp)

/-- C134: after any history of runs that went on to their end, a run with remap files uses what it would use without them, or is refused with a message, if runs
sharing a file have the same grids and each tile has exchange cells. -/
theorem C134_never_wrong_partial (hd : ∀ g, (c.tiles g).Nodup) {fs : Disk B D W} (h0 : ∀ f, fs f = none) (h : List (Run G)) (ha : ∀ r ∈ h, AllTiles c r)
    (r : Run G) (hm : ∀ r' ∈ h, Meet c r r') (hn : ∀ name, r.remap = some name → GoodName name) :
    (perform c (after c fs h) r).2 = (perform c (after c fs h) (plain r)).2 ∨ (perform c (after c fs h) r).2 = .error .refused := by
  have hi : Inv c h (after c fs h) := by simpa using inv_after hd h [] (inv_start h0) ha
  have hp : (perform c (after c fs h) (plain r)).2 = collect (fun n => .ok (fresh c r.method r.grid n)) (c.tiles r.grid).length := by
    simp [perform, plain]
  rw [hp]
  unfold perform
  match hr : r.remap with
  | none =>
    simp only []
    by_cases hw : r.weightsOnly = true
    · right; rw [if_pos hw]
    · left; rw [if_neg hw]
  | some name =>
    simp only []
    match hnn : names c r.grid name with
    | .error e =>
      right
      match e, hnn with
      | .refused, _ => rfl
      | .undefined, hnn => exact absurd hnn (C134_good_name (hn name hr))
    | .ok ns =>
      simp only []
      rw [← (C134_names (hd r.grid) hnn).1]
      by_cases hx : (!r.weightsOnly && anyFile (after c fs h) ns) = true
      · rw [if_pos hx]
        rw [Bool.and_eq_true] at hx
        refine collect_cases fun k hk => ?_
        obtain ⟨r', _, _, _, file, h1, h2⟩ := read_all hd hi hr hnn hm hx.2 k hk
        simp only [readTile, h1]
        exact (read_file h2).1
      · left; rw [if_neg hx]

/-- C134: if in addition runs sharing a file use the same method, or the file is of second order and the run of first order, the result is that without remap
files. -/
theorem C134_reuse_partial (hd : ∀ g, (c.tiles g).Nodup) {fs : Disk B D W} (h0 : ∀ f, fs f = none) (h : List (Run G)) (ha : ∀ r ∈ h, AllTiles c r)
    (r : Run G) (hm : ∀ r' ∈ h, Meet c r r') (hmm : ∀ r' ∈ h, ∀ k f, HasFile c r k f → HasFile c r' k f → r'.method = r.method ∨ (r.method = .order1 ∧ r'.method = .order2))
    {name : Name} (hr : r.remap = some name) {ns : List Name} (hn : names c r.grid name = .ok ns) :
    (perform c (after c fs h) r).2 = (perform c (after c fs h) (plain r)).2 := by
  have hi : Inv c h (after c fs h) := by simpa using inv_after hd h [] (inv_start h0) ha
  have hp : (perform c (after c fs h) (plain r)).2 = collect (fun n => .ok (fresh c r.method r.grid n)) (c.tiles r.grid).length := by
    simp [perform, plain]
  rw [hp]
  unfold perform
  rw [hr]
  simp only [hn]
  rw [← (C134_names (hd r.grid) hn).1]
  by_cases hx : (!r.weightsOnly && anyFile (after c fs h) ns) = true
  · rw [if_pos hx]
    rw [Bool.and_eq_true] at hx
    refine collect_congr fun k hk => ?_
    obtain ⟨r', hr', _, ⟨f, hf, hf'⟩, file, h1, h2⟩ := read_all hd hi hr hn hm hx.2 k hk
    simp only [readTile, h1]
    exact (read_file h2).2 (hmm r' hr' k f hf hf')
  · rw [if_neg hx]

/-- C134: a run without `--input_file` computes all files anew: whatever files there are, cut or of other grids, a run of the same grids and method afterwards uses
what it would use without remap files. -/
theorem C134_refresh (hd : ∀ g, (c.tiles g).Nodup) (fs : Disk B D W) (r : Run G) (ha : AllTiles c r) {name : Name} (hr : r.remap = some name) {ns : List Name}
    (hn : names c r.grid name = .ok ns) (hw : r.weightsOnly = true) (w : Bool) :
    let fs' := after c fs [r]
    (perform c fs' { r with weightsOnly := w }).2 = (perform c fs' (plain r)).2 := by
  have hnames := C134_names (hd r.grid) hn
  have hfs : after c fs [r] = apply fs (writes c r.method r.grid ns) := by
    simp only [after, perform, hr, hn, hw, Bool.not_true, Bool.false_and, Bool.false_eq_true, if_false]
  have hp : ∀ fs, (perform c fs (plain r)).2 = collect (fun n => .ok (fresh c r.method r.grid n)) (c.tiles r.grid).length := by
    intro fs; simp [perform, plain]
  simp only []
  rw [hp, ← hnames.1]
  unfold perform
  simp only [hr, hn]
  by_cases hx : (!w && anyFile (after c fs [r]) ns) = true
  · rw [if_pos hx]
    refine collect_congr fun k hk => ?_
    obtain ⟨file, hfile⟩ := fileOf_some (m := r.method) (ha k (by rw [← hnames.1]; exact hk))
    have h1 : after c fs [r] (ns.getD k []) = some file := by
      rw [hfs, List.getD_eq_getElem _ _ hk, writes_file r.method r.grid hnames.2.1 fs (List.getElem?_eq_getElem hk), hfile]
      rfl
    simp only [readTile, h1]
    exact (read_file hfile).2 (Or.inl rfl)
  · rw [if_neg hx]

/-- C134: a run changes no files but its own remap files. -/
theorem C134_only_own (fs : Disk B D W) (r : Run G) (k : Nat) (f : Name) (hf : ∀ n, ¬ HasFile c r n f) : killed c fs r k f = fs f := by
  unfold killed
  refine apply_other _ _ fun w hw => ?_
  have hw := List.mem_of_mem_take hw
  unfold perform at hw
  match hr : r.remap with
  | none => rw [hr] at hw; exact absurd hw (by simp)
  | some name =>
    rw [hr] at hw
    simp only [] at hw
    match hn : names c r.grid name with
    | .error e => rw [hn] at hw; exact absurd hw (by simp)
    | .ok ns =>
      rw [hn] at hw
      simp only [] at hw
      by_cases hx : (!r.weightsOnly && anyFile fs ns) = true
      · rw [if_pos hx] at hw; exact absurd hw (by simp)
      · rw [if_neg hx] at hw
        unfold writes at hw
        obtain ⟨n, hn', hw⟩ := List.mem_flatMap.1 hw
        have hlt := List.mem_range.1 hn'
        unfold tileWrites at hw
        rw [List.getD_eq_getElem _ _ hlt] at hw
        match hfo : fileOf c r.method r.grid n with
        | none => rw [hfo] at hw; exact absurd hw (by simp)
        | some file =>
          rw [hfo] at hw
          simp only [List.mem_cons, List.not_mem_nil, or_false] at hw
          have hh : ∀ g, g = ns[n] → g ≠ f := fun g hg e =>
            hf n ⟨name, ns, hr, hn, by rw [← e, hg]; exact List.getElem?_eq_getElem hlt⟩
          rcases hw with rfl | rfl <;> exact hh _ rfl

/-! ### Cases -/

/-- Two pairs of grids with two output tiles each; `false` has exchange cells for both tiles, `true` for the first only. -/
def runsEx : Grids Bool Nat Nat Nat where
  tiles _ := ["t1".toList, "t2".toList]
  base g n := if g then (if n = 0 then [7, 8] else []) else [n, n + 1]
  dist _ n := [n, n]
  weights _ := 0
  size _ := (3, 2)

def runsA (m : Method) : Run Bool := ⟨false, m, some "map.nc".toList, false⟩

def runsB : Run Bool := ⟨true, .order1, some "map".toList, false⟩

def noFiles : Disk Nat Nat Nat := fun _ => none

theorem runs_names (g : Bool) : names runsEx g "map.nc".toList = .ok ["map.t1.nc".toList, "map.t2.nc".toList] ∧
    names runsEx g "map".toList = .ok ["map.t1.nc".toList, "map.t2.nc".toList] := by
  cases g <;> exact ⟨by rfl, by rfl⟩

theorem runs_tiles (g : Bool) : (runsEx.tiles g).Nodup := by
  show ["t1".toList, "t2".toList].Nodup
  decide

theorem runs_meet (m m' : Method) : Meet runsEx (runsA m) (runsA m') := by
  rintro n n' f ⟨a, na, h1, h2, h3⟩ ⟨b, nb, h4, h5, h6⟩
  refine ⟨rfl, ?_⟩
  cases h1
  cases h4
  have h5' : names runsEx (runsA m).grid "map.nc".toList = .ok nb := h5
  rw [h2] at h5'
  injection h5' with h5
  subst h5
  have := (C134_names (runs_tiles false) h2).2.1
  have hlt : n < na.length := by
    by_contra hh
    rw [List.getElem?_eq_none (by omega)] at h3
    exact absurd h3 (by simp)
  exact (List.getElem?_inj hlt this).1 (h3.trans h6.symm)

/-- A second order run, then first order and second order runs with its files. -/
example : (perform runsEx (after runsEx noFiles [runsA .order2, runsA .order1]) (runsA .order1)).2 = .ok [.cells [0, 1] none, .cells [1, 2] none] := by
  have := C134_reuse_partial (c := runsEx) runs_tiles (fs := noFiles) (fun _ => rfl) [runsA .order2, runsA .order1]
    (by intro r hr; simp only [List.mem_cons, List.not_mem_nil, or_false] at hr; rcases hr with rfl | rfl <;> intro n _ <;> simp [runsA, runsEx])
    (runsA .order1) (by intro r hr; simp only [List.mem_cons, List.not_mem_nil, or_false] at hr; rcases hr with rfl | rfl <;> exact runs_meet _ _)
    (by intro r hr k f _ _; simp only [List.mem_cons, List.not_mem_nil, or_false] at hr; rcases hr with rfl | rfl <;> simp [runsA]) (name := "map.nc".toList) rfl (runs_names false).1
  rw [this]
  rfl

/-- C134: the files of a first order run cannot be used for second order: refused. -/
theorem C134_order2_refused : (perform runsEx (after runsEx noFiles [runsA .order1]) (runsA .order2)).2 = .error .refused := by
  rfl

/-- C134: a tile without exchange cells gets no file. The same run again finds the files of the other tiles, so it computes nothing and uses memory that was never set for this
tile. -/
theorem C134_idle_wrong : (perform runsEx noFiles runsB).2 = .ok [.cells [7, 8] none, .cells [] none] ∧
    (perform runsEx (after runsEx noFiles [runsB]) runsB).2 = .ok [.cells [7, 8] none, .unset] := ⟨rfl, rfl⟩

/-- C134: a run killed between its files (or still running): the next run uses memory that was never set for the tiles without a file; killed within a file, data that
were not yet written. -/
theorem C134_crash_wrong : (perform runsEx (killed runsEx noFiles (runsA .order1) 2) (runsA .order1)).2 = .ok [.cells [0, 1] none, .unset] ∧
    (perform runsEx (killed runsEx noFiles (runsA .order1) 1) (runsA .order1)).2 = .error .undefined := ⟨rfl, rfl⟩

/-- C134: nothing in a file says for which grids it was made: with the files of other grids the run goes on with their exchange cells. -/
theorem C134_grid_wrong : (perform runsEx (after runsEx noFiles [runsA .order1]) runsB).2 = .ok [.cells [0, 1] none, .cells [1, 2] none] ∧
    (perform runsEx (after runsEx noFiles [runsA .order1]) (plain runsB)).2 = .ok [.cells [7, 8] none, .cells [] none] := ⟨rfl, rfl⟩

/-- C134: one output tile: a name of 252 characters without `.nc` passes the check of the length, then the name with `.nc` does not fit the buffer. A name of two
characters makes the program read before it. -/
theorem C134_length_wrong (g : G) (h : (c.tiles g).length ≤ 1) : names c g (List.replicate 252 'a') = .error .undefined ∧ names c g ['a', 'b'] = .error .undefined := by
  have h1 : stem (List.replicate 252 'a') = .ok (List.replicate 252 'a') := by decide +kernel
  have h2 : stem ['a', 'b'] = .error .undefined := rfl
  refine ⟨?_, ?_⟩
  · unfold names
    rw [h1]
    simp only []
    rw [if_neg (by omega), if_pos (by rw [List.length_replicate]; decide)]
  · unfold names
    rw [h2]

end Verif.RemapRuns
