/-
The table of mpp_io.c: an invariant that holds over every quiet history.
-/
import Verif.Spec.MppIo
import Mathlib.Data.List.Nodup
import Mathlib.Tactic.Common
namespace Verif.MppIo
open Verif.Spec.MppIo

theorem setDisk_same (d : Name → Option Nc) (p : Name) (f : Nc) : setDisk d p f p = some f := if_pos rfl

theorem setDisk_other (d : Name → Option Nc) {p q : Name} (f : Nc) (h : q ≠ p) : setDisk d p f q = d q := if_neg h

theorem modify_push {α : Type} (l : List α) (x : α) (g : α → α) : (l ++ [x]).modify l.length g = l ++ [g x] := by
  induction l with
  | nil => rfl
  | cons a l ih => simpa using ih

theorem getElem?_modify_self {α : Type} {l : List α} {n : Nat} {x : α} (g : α → α) (h : l[n]? = some x) : (l.modify n g)[n]? = some (g x) := by
  rw [List.getElem?_modify, h]; simp

theorem getElem?_modify_ne {α : Type} {l : List α} {n m : Nat} (g : α → α) (h : n ≠ m) : (l.modify n g)[m]? = l[m]? := by
  rw [List.getElem?_modify]; simp [h]

theorem modify_id {α : Type} {l : List α} {n : Nat} {x : α} {g g' : α → α} (h : l[n]? = some x) (e : g x = g' x) : l.modify n g = l.modify n g' := by
  apply List.ext_getElem?
  intro m
  rw [List.getElem?_modify, List.getElem?_modify]
  by_cases hm : n = m
  · subst hm; rw [h]; simp [e]
  · simp [hm]

/-- The elements of a modified list -/
theorem modify_cases {α : Type} {l : List α} {n m : Nat} {x y : α} (g : α → α) (h : l[n]? = some x) (hy : (l.modify n g)[m]? = some y) :
    (m = n ∧ y = g x) ∨ (m ≠ n ∧ l[m]? = some y) := by
  by_cases hm : n = m
  · subst hm
    rw [getElem?_modify_self g h] at hy
    exact Or.inl ⟨rfl, (Option.some.inj hy).symm⟩
  · rw [getElem?_modify_ne g hm] at hy
    exact Or.inr ⟨Ne.symm hm, hy⟩

theorem getElem?_push {α : Type} {l : List α} {x y : α} {m : Nat} (h : (l ++ [x])[m]? = some y) : l[m]? = some y ∨ (m = l.length ∧ y = x) := by
  rcases Nat.lt_trichotomy m l.length with hm | hm | hm
  · rw [List.getElem?_append_left hm] at h; exact Or.inl h
  · subst hm; rw [List.getElem?_concat_length] at h; exact Or.inr ⟨rfl, (Option.some.inj h).symm⟩
  · rw [List.getElem?_eq_none (by simp; omega)] at h; simp at h

/-- What a quiet call may do -/
inductive Move (s : State) : State → Prop
  | same : Move s s
  | status (n : Nat) (e : Ent) (b : Bool) (k : Nat) : s.files[n]? = some e → Move s ⟨s.files.modify n (fun e => { e with status := b }), k, s.disk⟩
  | push (e : Ent) (k : Nat) : e.vars = [] → e.action ≠ .write → Move s ⟨s.files ++ [e], k, s.disk⟩
  | create (e : Ent) (k : Nat) : e.vars = [] → e.action = .write → (∀ e' ∈ s.files, path e'.name ≠ path e.name) →
      Move s ⟨s.files ++ [e], k, setDisk s.disk (path e.name) ⟨k, []⟩⟩
  | find (n : Nat) (e : Ent) (f : Nc) (k : Nat) (v : Var) : s.files[n]? = some e → s.disk (path e.name) = some f → f.vars[k]? = some v →
      v.name ∉ e.vars.map (·.name) → Move s { s with files := s.files.modify n (fun e => { e with vars := e.vars ++ [⟨k, v.type, v.name⟩] }) }
  | define (n : Nat) (e : Ent) (f : Nc) (name : Name) (type : Nat) : s.files[n]? = some e → e.action ≠ .read → s.disk (path e.name) = some f →
      name ∉ f.vars.map (·.name) →
      Move s ⟨s.files.modify n (fun e => { e with vars := e.vars ++ [⟨f.vars.length, type, name⟩] }), s.inFormat,
        setDisk s.disk (path e.name) { f with vars := f.vars ++ [⟨name, type, ⟨0, none⟩⟩] }⟩

theorem findIdx?_some' {α : Type} {l : List α} {p : α → Bool} {n : Nat} (h : l.findIdx? p = some n) : ∃ x, l[n]? = some x ∧ p x = true := by
  rw [List.findIdx?_eq_some_iff_getElem] at h
  obtain ⟨hn, hp, _⟩ := h
  exact ⟨l[n], List.getElem?_eq_getElem hn, hp⟩

theorem varNamed_some {f : Nc} {name : Name} {k : Nat} (h : varNamed f name = some k) : ∃ v, f.vars[k]? = some v ∧ v.name = name := by
  obtain ⟨v, hv, hp⟩ := findIdx?_some' h
  exact ⟨v, hv, by simpa using hp⟩

theorem varNamed_none {f : Nc} {name : Name} (h : varNamed f name = none) : name ∉ f.vars.map (·.name) := by
  unfold varNamed at h
  rw [List.findIdx?_eq_none_iff] at h
  intro hm
  obtain ⟨v, hv, rfl⟩ := List.mem_map.1 hm
  simpa using h v hv

theorem openAt_move_old {s s' : State} {n : Nat} {e : Ent} {file : Name} {a : Action} {r : Int} (he : s.files[n]? = some e) (ha : e.action = a)
    (hw : a ≠ .write) (h : openAt s s.files n file a = .ok (s', r)) : Move s s' ∧ r = n := by
  have hm : s.files.modify n (fun e => { e with status := true, action := a }) = s.files.modify n (fun e => { e with status := true }) :=
    modify_id he (by simp [← ha])
  unfold openAt at h
  cases a with
  | write => exact absurd rfl hw
  | append =>
    simp only at h
    cases hd : s.disk (path file) with
    | none => rw [hd] at h; simp at h
    | some f =>
      rw [hd] at h
      simp only [Except.ok.injEq, Prod.mk.injEq] at h
      obtain ⟨rfl, rfl⟩ := h
      rw [hm]
      exact ⟨.status n e true _ he, rfl⟩
  | read =>
    simp only at h
    cases hd : s.disk (path file) with
    | none => rw [hd] at h; simp at h
    | some f =>
      rw [hd] at h
      simp only [Except.ok.injEq, Prod.mk.injEq] at h
      obtain ⟨rfl, rfl⟩ := h
      rw [hm]
      exact ⟨.status n e true _ he, rfl⟩

theorem openAt_move_new {s s' : State} {file : Name} {a : Action} {r : Int} (hf : a = .write → ∀ e ∈ s.files, path e.name ≠ path file)
    (h : openAt s (s.files ++ [⟨file, a, false, []⟩]) s.files.length file a = .ok (s', r)) : Move s s' ∧ r = s.files.length := by
  unfold openAt at h
  rw [modify_push] at h
  cases a with
  | write =>
    simp only at h
    by_cases hc : creatable s.inFormat = true
    · rw [if_pos hc] at h
      simp only [Except.ok.injEq, Prod.mk.injEq] at h
      obtain ⟨rfl, rfl⟩ := h
      exact ⟨.create ⟨file, .write, true, []⟩ _ rfl rfl (hf rfl), rfl⟩
    · rw [if_neg hc] at h; simp at h
  | append =>
    simp only at h
    cases hd : s.disk (path file) with
    | none => rw [hd] at h; simp at h
    | some f =>
      rw [hd] at h
      simp only [Except.ok.injEq, Prod.mk.injEq] at h
      obtain ⟨rfl, rfl⟩ := h
      exact ⟨.push ⟨file, .append, true, []⟩ _ rfl (by simp), rfl⟩
  | read =>
    simp only at h
    cases hd : s.disk (path file) with
    | none => rw [hd] at h; simp at h
    | some f =>
      rw [hd] at h
      simp only [Except.ok.injEq, Prod.mk.injEq] at h
      obtain ⟨rfl, rfl⟩ := h
      exact ⟨.push ⟨file, .read, true, []⟩ _ rfl (by simp), rfl⟩

theorem mppOpen_move {root : Bool} {s s' : State} {file : Name} {a : Action} {r : Int} (hf : a = .write → ∀ e ∈ s.files, path e.name ≠ path file)
    (h : mppOpen root s file a = .ok (s', r)) : Move s s' := by
  unfold mppOpen at h
  by_cases h1 : a ≠ .read ∧ root = false
  · rw [if_pos h1] at h
    simp only [Except.ok.injEq, Prod.mk.injEq] at h
    rw [← h.1]; exact .same
  rw [if_neg h1] at h
  by_cases h2 : 255 ≤ (path file).length
  · rw [if_pos h2] at h; simp at h
  rw [if_neg h2] at h
  cases hi : s.files.findIdx? (fun e => e.name == file && e.action == a) with
  | none =>
    rw [hi] at h
    simp only at h
    by_cases h3 : s.files.length + 1 > 200
    · rw [if_pos h3] at h; simp at h
    rw [if_neg h3] at h
    exact (openAt_move_new hf h).1
  | some n =>
    rw [hi] at h
    simp only at h
    by_cases h3 : a = .write
    · rw [if_pos h3] at h; simp at h
    rw [if_neg h3] at h
    by_cases h4 : (s.files[n]?.map (·.status)) = some true
    · rw [if_pos h4] at h; simp at h
    rw [if_neg h4] at h
    obtain ⟨e, he, hp⟩ := findIdx?_some' hi
    simp only [Bool.and_eq_true, beq_iff_eq] at hp
    exact (openAt_move_old he hp.2 h3 h).1

theorem mppClose_move {root : Bool} {s s' : State} {fid : Int} (h : mppClose root s fid = .ok s') : Move s s' := by
  unfold mppClose at h
  by_cases h1 : fid = -1 ∧ root = false
  · rw [if_pos h1] at h
    rw [← Except.ok.inj h]; exact .same
  rw [if_neg h1] at h
  by_cases h2 : fid < 0
  · rw [if_pos h2] at h; simp at h
  rw [if_neg h2] at h
  cases he : s.files[fid.toNat]? with
  | none => rw [he] at h; simp at h
  | some e =>
    rw [he] at h
    simp only at h
    by_cases h3 : e.status = true
    · rw [if_pos h3] at h
      rw [← Except.ok.inj h]
      exact .status _ e false _ he
    · rw [if_neg h3] at h; simp at h

/-- A handle for a variable is one from the table, or a new one for a variable of the file -/
theorem varidAt_cases {s s' : State} {fid : Nat} {e : Ent} {name : Name} {r : Int} (h : varidAt s fid e name = .ok (s', r)) :
    (∃ n : Nat, r = n ∧ s' = s ∧ ∃ sl, e.vars[n]? = some sl ∧ sl.name = name) ∨
    (∃ f k v, s.disk (path e.name) = some f ∧ f.vars[k]? = some v ∧ v.name = name ∧ name ∉ e.vars.map (·.name) ∧ r = e.vars.length ∧
      s' = { s with files := s.files.modify fid (fun e => { e with vars := e.vars ++ [⟨k, v.type, name⟩] }) } ∧ e.vars.length + 1 ≤ 1024) := by
  unfold varidAt at h
  cases hi : e.vars.findIdx? (fun v => v.name == name) with
  | some n =>
    rw [hi] at h
    simp only [Except.ok.injEq, Prod.mk.injEq] at h
    obtain ⟨sl, hs, hp⟩ := findIdx?_some' hi
    exact Or.inl ⟨n, h.2.symm, h.1.symm, sl, hs, by simpa using hp⟩
  | none =>
    rw [hi] at h
    simp only at h
    by_cases h1 : e.vars.length + 1 > 1024
    · rw [if_pos h1] at h; simp at h
    rw [if_neg h1] at h
    by_cases h2 : e.status = false
    · rw [if_pos h2] at h; simp at h
    rw [if_neg h2] at h
    cases hd : s.disk (path e.name) with
    | none => rw [hd] at h; simp at h
    | some f =>
      rw [hd] at h
      simp only at h
      cases hv : varNamed f name with
      | none => rw [hv] at h; simp at h
      | some k =>
        rw [hv] at h
        simp only at h
        by_cases h3 : 128 ≤ name.length
        · rw [if_pos h3] at h; simp at h
        rw [if_neg h3] at h
        obtain ⟨v, hk, hn⟩ := varNamed_some hv
        rw [hk] at h
        simp only [Option.map_some, Option.getD_some, Except.ok.injEq, Prod.mk.injEq] at h
        refine Or.inr ⟨f, k, v, rfl, hk, hn, ?_, h.2.symm, h.1.symm, by omega⟩
        rw [List.findIdx?_eq_none_iff] at hi
        intro hm
        obtain ⟨sl, hsl, rfl⟩ := List.mem_map.1 hm
        simpa using hi sl hsl

/-- `mpp_get_varid` answers -1 without doing anything, or looks in an entry of the table -/
theorem getVarid_cases {root : Bool} {s s' : State} {fid : Int} {name : Name} {r : Int} (h : getVarid root s fid name = .ok (s', r)) :
    (s' = s ∧ r = -1) ∨ ∃ e, s.files[fid.toNat]? = some e ∧ varidAt s fid.toNat e name = .ok (s', r) := by
  unfold getVarid at h
  by_cases h1 : fid < 0 ∨ 200 ≤ fid
  · rw [if_pos h1] at h; simp at h
  rw [if_neg h1] at h
  cases he : s.files[fid.toNat]? with
  | none =>
    rw [he] at h
    cases root
    · simp at h; exact Or.inl ⟨h.1.symm, h.2.symm⟩
    · simp at h
  | some e =>
    rw [he] at h
    simp only at h
    by_cases h2 : e.action ≠ .read ∧ root = false
    · rw [if_pos h2] at h
      simp only [Except.ok.injEq, Prod.mk.injEq] at h
      exact Or.inl ⟨h.1.symm, h.2.symm⟩
    · rw [if_neg h2] at h
      exact Or.inr ⟨e, rfl, h⟩

theorem getVarid_move {root : Bool} {s s' : State} {fid : Int} {name : Name} {r : Int} (h : getVarid root s fid name = .ok (s', r)) : Move s s' := by
  rcases getVarid_cases h with ⟨rfl, _⟩ | ⟨e, he, h⟩
  · exact .same
  · rcases varidAt_cases h with ⟨n, _, rfl, _⟩ | ⟨f, k, v, hd, hk, rfl, hn, _, rfl, _⟩
    · exact .same
    · exact .find _ e f k v he hd hk hn

theorem defVar_cases {root : Bool} {s s' : State} {fid : Int} {name : Name} {type : Nat} {r : Int} (h : defVar root s fid name type = .ok (s', r)) :
    (root = false ∧ s' = s) ∨ ∃ e f, s.files[fid.toNat]? = some e ∧ e.action ≠ .read ∧ s.disk (path e.name) = some f ∧
      name ∉ f.vars.map (·.name) ∧ r = e.vars.length ∧ e.vars.length + 1 ≤ 1024 ∧
      s' = ⟨s.files.modify fid.toNat (fun e => { e with vars := e.vars ++ [⟨f.vars.length, type, name⟩] }), s.inFormat,
        setDisk s.disk (path e.name) { f with vars := f.vars ++ [⟨name, type, ⟨0, none⟩⟩] }⟩ := by
  unfold defVar at h
  by_cases h0 : root = false
  · rw [if_pos h0] at h
    simp only [Except.ok.injEq, Prod.mk.injEq] at h
    exact Or.inl ⟨h0, h.1.symm⟩
  rw [if_neg h0] at h
  by_cases h1 : fid < 0
  · rw [if_pos h1] at h; simp at h
  rw [if_neg h1] at h
  cases he : s.files[fid.toNat]? with
  | none => rw [he] at h; simp at h
  | some e =>
    rw [he] at h
    simp only at h
    by_cases h2 : e.status = false ∨ e.action = .read
    · rw [if_pos h2] at h; simp at h
    rw [if_neg h2] at h
    cases hd : s.disk (path e.name) with
    | none => rw [hd] at h; simp at h
    | some f =>
      rw [hd] at h
      simp only at h
      cases hv : varNamed f name with
      | some k => rw [hv] at h; simp at h
      | none =>
        rw [hv] at h
        simp only at h
        by_cases h3 : e.vars.length + 1 > 1024
        · rw [if_pos h3] at h; simp at h
        rw [if_neg h3] at h
        by_cases h4 : 128 ≤ name.length
        · rw [if_pos h4] at h; simp at h
        rw [if_neg h4] at h
        simp only [Except.ok.injEq, Prod.mk.injEq] at h
        exact Or.inr ⟨e, f, rfl, fun hr => h2 (Or.inr hr), hd, varNamed_none hv, h.2.symm, by omega, h.1.symm⟩

theorem defVar_move {root : Bool} {s s' : State} {fid : Int} {name : Name} {type : Nat} {r : Int} (h : defVar root s fid name type = .ok (s', r)) :
    Move s s' := by
  rcases defVar_cases h with ⟨_, rfl⟩ | ⟨e, f, he, ha, hd, hn, _, _, rfl⟩
  · exact .same
  · exact .define _ e f name type he ha hd hn

theorem map_ok {α β : Type} {x : Except Err (α × β)} {y : α} (h : x.map (·.1) = .ok y) : ∃ r, x = .ok (y, r) := by
  cases x with
  | error e => simp [Except.map] at h
  | ok p =>
    simp only [Except.map, Except.ok.injEq] at h
    exact ⟨p.2, by rw [← h]⟩

theorem step_move {root : Bool} {s s' : State} {o : Op} (hf : Fresh s o) (h : step root s o = .ok s') : Move s s' := by
  cases o with
  | «open» file a =>
    obtain ⟨r, hr⟩ := map_ok h
    refine mppOpen_move ?_ hr
    intro ha
    subst ha
    exact hf
  | close fid => exact mppClose_move h
  | varid fid name => obtain ⟨r, hr⟩ := map_ok h; exact getVarid_move hr
  | defVar fid name type => obtain ⟨r, hr⟩ := map_ok h; exact defVar_move hr
  | other p f => exact absurd hf (by simp [Fresh])

/-- The invariant of quiet histories -/
structure Inv (s : State) : Prop where
  slots : ∀ (i : Nat) (e : Ent), s.files[i]? = some e → ∀ sl ∈ e.vars, ∃ f x, s.disk (path e.name) = some f ∧ f.vars[sl.fldid]? = some x ∧ x.name = sl.name ∧ x.type = sl.type
  nodup : ∀ (i : Nat) (e : Ent), s.files[i]? = some e → (e.vars.map (·.name)).Nodup
  names : Names s.disk
  writes : ∀ (i j : Nat) (e e' : Ent), s.files[i]? = some e → s.files[j]? = some e' → e.action = .write → e'.action = .write → path e.name = path e'.name → i = j
  aligned : ∀ (i : Nat) (e : Ent), s.files[i]? = some e → e.action = .write → (∀ (j : Nat) (a : Ent), s.files[j]? = some a → a.action = .append → path a.name ≠ path e.name) →
    ∃ f, s.disk (path e.name) = some f ∧ f.vars.map (·.name) = e.vars.map (·.name) ∧ ∀ (k : Nat) (sl : Slot), e.vars[k]? = some sl → sl.fldid = k

theorem inv_start {disk : Name → Option Nc} (h : Names disk) : Inv (start disk) where
  slots := by intro i e he; simp [start] at he
  nodup := by intro i e he; simp [start] at he
  names := h
  writes := by intro i j e e' he; simp [start] at he
  aligned := by intro i e he; simp [start] at he

theorem mem_of_getElem? {α : Type} {l : List α} {i : Nat} {x : α} (h : l[i]? = some x) : x ∈ l := List.mem_of_getElem? h

/-- Entries keep their name and action, and their tables only grow -/
theorem Move.keep {s s' : State} (m : Move s s') {i : Nat} {e : Ent} (h : s.files[i]? = some e) :
    ∃ e', s'.files[i]? = some e' ∧ e'.name = e.name ∧ e'.action = e.action ∧ ∀ (k : Nat) (sl : Slot), e.vars[k]? = some sl → e'.vars[k]? = some sl := by
  have app : ∀ (l : List Slot) (x sl : Slot) (k : Nat), l[k]? = some sl → (l ++ [x])[k]? = some sl := by
    intro l x sl k hk
    obtain ⟨hlt, _⟩ := List.getElem?_eq_some_iff.1 hk
    rw [List.getElem?_append_left hlt, hk]
  have push : ∀ x : Ent, (s.files ++ [x])[i]? = some e := by
    intro x
    obtain ⟨hlt, _⟩ := List.getElem?_eq_some_iff.1 h
    rw [List.getElem?_append_left hlt, h]
  cases m with
  | same => exact ⟨e, h, rfl, rfl, fun _ _ hk => hk⟩
  | status n e₀ b k h0 =>
    by_cases hn : n = i
    · subst hn
      exact ⟨_, getElem?_modify_self _ h, rfl, rfl, fun _ _ hk => hk⟩
    · exact ⟨e, by simpa only [getElem?_modify_ne _ hn] using h, rfl, rfl, fun _ _ hk => hk⟩
  | push x k _ _ => exact ⟨e, push x, rfl, rfl, fun _ _ hk => hk⟩
  | create x k _ _ _ => exact ⟨e, push x, rfl, rfl, fun _ _ hk => hk⟩
  | find n e₀ f k v h0 hd hk hn =>
    by_cases hi : n = i
    · subst hi
      exact ⟨_, getElem?_modify_self _ h, rfl, rfl, fun j sl hj => app _ _ _ _ hj⟩
    · exact ⟨e, by simpa only [getElem?_modify_ne _ hi] using h, rfl, rfl, fun _ _ hk => hk⟩
  | define n e₀ f name type h0 ha hd hn =>
    by_cases hi : n = i
    · subst hi
      exact ⟨_, getElem?_modify_self _ h, rfl, rfl, fun j sl hj => app _ _ _ _ hj⟩
    · exact ⟨e, by simpa only [getElem?_modify_ne _ hi] using h, rfl, rfl, fun _ _ hk => hk⟩

theorem nodup_push {l : List Slot} {x : Slot} (h : (l.map (·.name)).Nodup) (hx : x.name ∉ l.map (·.name)) : ((l ++ [x]).map (·.name)).Nodup := by
  rw [List.map_append, List.nodup_append]
  refine ⟨h, by simp, ?_⟩
  intro a ha b hb hab
  simp at hb
  subst hb; subst hab
  exact hx ha

theorem Move.inv {s s' : State} (m : Move s s') (I : Inv s) : Inv s' := by
  cases m with
  | same => exact I
  | status n e₀ b k h0 =>
    have back : ∀ (i : Nat) (e : Ent), (s.files.modify n (fun e => { e with status := b }))[i]? = some e →
        ∃ e', s.files[i]? = some e' ∧ e.name = e'.name ∧ e.action = e'.action ∧ e.vars = e'.vars := by
      intro i e he
      rcases modify_cases _ h0 he with ⟨rfl, rfl⟩ | ⟨_, he⟩
      · exact ⟨e₀, h0, rfl, rfl, rfl⟩
      · exact ⟨e, he, rfl, rfl, rfl⟩
    refine ⟨?_, ?_, I.names, ?_, ?_⟩
    · intro i e he sl hsl
      obtain ⟨e', he', hn, _, hv⟩ := back i e he
      rw [hv] at hsl
      simpa only [hn] using I.slots i e' he' sl hsl
    · intro i e he
      obtain ⟨e', he', _, _, hv⟩ := back i e he
      rw [hv]; exact I.nodup i e' he'
    · intro i j e e' he he' ha ha' hp
      obtain ⟨d, hd, hn, hac, _⟩ := back i e he
      obtain ⟨d', hd', hn', hac', _⟩ := back j e' he'
      exact I.writes i j d d' hd hd' (hac ▸ ha) (hac' ▸ ha') (by rw [← hn, ← hn', hp])
    · intro i e he ha hap
      obtain ⟨d, hd, hn, hac, hv⟩ := back i e he
      have := I.aligned i d hd (hac ▸ ha) (by
        intro j a hj haa hpp
        obtain ⟨a', ha', hna, haca, _⟩ := (Move.status (s := s) n e₀ b k h0).keep hj
        exact hap j a' ha' (haca.trans haa) (by rw [hna, hn, hpp]))
      rw [hn, hv]; exact this
  | push x k hx hw =>
    refine ⟨?_, ?_, I.names, ?_, ?_⟩
    · intro i e he sl hsl
      rcases getElem?_push he with he | ⟨_, rfl⟩
      · exact I.slots i e he sl hsl
      · rw [hx] at hsl; simp at hsl
    · intro i e he
      rcases getElem?_push he with he | ⟨_, rfl⟩
      · exact I.nodup i e he
      · rw [hx]; simp
    · intro i j e e' he he' ha ha' hp
      rcases getElem?_push he with he | ⟨_, rfl⟩
      · rcases getElem?_push he' with he' | ⟨_, rfl⟩
        · exact I.writes i j e e' he he' ha ha' hp
        · exact absurd ha' hw
      · exact absurd ha hw
    · intro i e he ha hap
      rcases getElem?_push he with he | ⟨_, rfl⟩
      · refine I.aligned i e he ha ?_
        intro j a hj haa
        obtain ⟨a', ha', hna, haca, _⟩ := (Move.push (s := s) x k hx hw).keep hj
        rw [← hna]
        exact hap j a' ha' (haca.trans haa)
      · exact absurd ha hw
  | create x k hx hw hfr =>
    have old : ∀ (i : Nat) (e : Ent), s.files[i]? = some e → setDisk s.disk (path x.name) ⟨k, []⟩ (path e.name) = s.disk (path e.name) :=
      fun i e he => setDisk_other _ _ (hfr e (mem_of_getElem? he))
    refine ⟨?_, ?_, ?_, ?_, ?_⟩
    · intro i e he sl hsl
      rcases getElem?_push he with he | ⟨_, rfl⟩
      · simp only; rw [old i e he]; exact I.slots i e he sl hsl
      · rw [hx] at hsl; simp at hsl
    · intro i e he
      rcases getElem?_push he with he | ⟨_, rfl⟩
      · exact I.nodup i e he
      · rw [hx]; simp
    · intro p f hp
      by_cases hq : p = path x.name
      · subst hq
        simp only [setDisk_same, Option.some.injEq] at hp
        rw [← hp]; simp
      · simp only [setDisk_other _ _ hq] at hp
        exact I.names p f hp
    · intro i j e e' he he' ha ha' hp
      rcases getElem?_push he with ho | ⟨hi, rfl⟩
      · rcases getElem?_push he' with he' | ⟨_, rfl⟩
        · exact I.writes i j e e' ho he' ha ha' hp
        · exact absurd hp (hfr e (mem_of_getElem? ho))
      · rcases getElem?_push he' with he' | ⟨hj, rfl⟩
        · exact absurd hp.symm (hfr e' (mem_of_getElem? he'))
        · rw [hi, hj]
    · intro i e he ha hap
      rcases getElem?_push he with he | ⟨_, rfl⟩
      · simp only; rw [old i e he]
        refine I.aligned i e he ha ?_
        intro j a hj haa
        obtain ⟨a', ha', hna, haca, _⟩ := (Move.create (s := s) x k hx hw hfr).keep hj
        rw [← hna]
        exact hap j a' ha' (haca.trans haa)
      · exact ⟨⟨k, []⟩, setDisk_same _ _ _, by rw [hx]; rfl, by rw [hx]; intro k' sl h; simp at h⟩
  | find n e₀ f k v h0 hd hk hn =>
    refine ⟨?_, ?_, I.names, ?_, ?_⟩
    · intro i e he sl hsl
      rcases modify_cases _ h0 he with ⟨rfl, rfl⟩ | ⟨_, he⟩
      · rcases List.mem_append.1 hsl with hsl | hsl
        · exact I.slots _ e₀ h0 sl hsl
        · simp at hsl
          subst hsl
          exact ⟨f, v, hd, hk, rfl, rfl⟩
      · exact I.slots i e he sl hsl
    · intro i e he
      rcases modify_cases _ h0 he with ⟨rfl, rfl⟩ | ⟨_, he⟩
      · exact nodup_push (I.nodup _ e₀ h0) hn
      · exact I.nodup i e he
    · intro i j e e' he he' ha ha' hp
      rcases modify_cases _ h0 he with ⟨rfl, rfl⟩ | ⟨hi, ho⟩
      · rcases modify_cases _ h0 he' with ⟨rfl, rfl⟩ | ⟨hj, ho'⟩
        · rfl
        · exact I.writes _ j e₀ e' h0 ho' ha ha' hp
      · rcases modify_cases _ h0 he' with ⟨rfl, rfl⟩ | ⟨hj, ho'⟩
        · exact I.writes i _ e e₀ ho h0 ha ha' hp
        · exact I.writes i j e e' ho ho' ha ha' hp
    · intro i e he ha hap
      have hap' : ∀ (j : Nat) (a : Ent), s.files[j]? = some a → a.action = .append → path a.name ≠ path e.name := by
        intro j a hj haa
        obtain ⟨a', ha', hna, haca, _⟩ := (Move.find (s := s) n e₀ f k v h0 hd hk hn).keep hj
        rw [← hna]
        exact hap j a' ha' (haca.trans haa)
      rcases modify_cases _ h0 he with ⟨rfl, rfl⟩ | ⟨_, he⟩
      · obtain ⟨f', hf', hnames, _⟩ := I.aligned _ e₀ h0 ha hap'
        rw [hd] at hf'
        obtain rfl := Option.some.inj hf'
        exact absurd (hnames ▸ List.mem_map.2 ⟨v, mem_of_getElem? hk, rfl⟩) hn
      · exact I.aligned i e he ha hap'
  | define n e₀ f name type h0 har hd hn =>
    have hsame : ∀ (p : Name) (f' : Nc) (k : Nat) (x : Var), s.disk p = some f' → f'.vars[k]? = some x →
        ∃ f'', setDisk s.disk (path e₀.name) { f with vars := f.vars ++ [⟨name, type, ⟨0, none⟩⟩] } p = some f'' ∧ f''.vars[k]? = some x := by
      intro p f' k x hp hk
      by_cases hq : p = path e₀.name
      · subst hq
        rw [hd] at hp
        obtain rfl := Option.some.inj hp
        refine ⟨_, setDisk_same _ _ _, ?_⟩
        obtain ⟨hlt, _⟩ := List.getElem?_eq_some_iff.1 hk
        simp only
        rw [List.getElem?_append_left hlt, hk]
      · exact ⟨f', by rw [setDisk_other _ _ hq, hp], hk⟩
    refine ⟨?_, ?_, ?_, ?_, ?_⟩
    · intro i e he sl hsl
      rcases modify_cases _ h0 he with ⟨rfl, rfl⟩ | ⟨_, he⟩
      · rcases List.mem_append.1 hsl with hsl | hsl
        · obtain ⟨f', x, hf', hx, h1, h2⟩ := I.slots _ e₀ h0 sl hsl
          obtain ⟨f'', hf'', hx''⟩ := hsame _ f' _ x hf' hx
          exact ⟨f'', x, hf'', hx'', h1, h2⟩
        · simp at hsl
          subst hsl
          exact ⟨_, ⟨name, type, ⟨0, none⟩⟩, setDisk_same _ _ _, by simp, rfl, rfl⟩
      · obtain ⟨f', x, hf', hx, h1, h2⟩ := I.slots i e he sl hsl
        obtain ⟨f'', hf'', hx''⟩ := hsame _ f' _ x hf' hx
        exact ⟨f'', x, hf'', hx'', h1, h2⟩
    · intro i e he
      rcases modify_cases _ h0 he with ⟨rfl, rfl⟩ | ⟨_, he⟩
      · refine nodup_push (I.nodup _ e₀ h0) ?_
        intro hm
        obtain ⟨sl, hsl, hname⟩ := List.mem_map.1 hm
        obtain ⟨f', x, hf', hx, h1, _⟩ := I.slots _ e₀ h0 sl hsl
        rw [hd] at hf'
        obtain rfl := Option.some.inj hf'
        exact hn (List.mem_map.2 ⟨x, mem_of_getElem? hx, h1.trans hname⟩)
      · exact I.nodup i e he
    · intro p f' hp
      by_cases hq : p = path e₀.name
      · subst hq
        simp only [setDisk_same, Option.some.injEq] at hp
        rw [← hp, List.map_append, List.nodup_append]
        refine ⟨I.names _ f hd, by simp, ?_⟩
        intro a ha b hb hab
        simp at hb
        subst hb; subst hab
        exact hn ha
      · simp only [setDisk_other _ _ hq] at hp
        exact I.names p f' hp
    · intro i j e e' he he' ha ha' hp
      rcases modify_cases _ h0 he with ⟨rfl, rfl⟩ | ⟨hi, ho⟩
      · rcases modify_cases _ h0 he' with ⟨rfl, rfl⟩ | ⟨hj, ho'⟩
        · rfl
        · exact I.writes _ j e₀ e' h0 ho' ha ha' hp
      · rcases modify_cases _ h0 he' with ⟨rfl, rfl⟩ | ⟨hj, ho'⟩
        · exact I.writes i _ e e₀ ho h0 ha ha' hp
        · exact I.writes i j e e' ho ho' ha ha' hp
    · intro i e he ha hap
      have hap' : ∀ (j : Nat) (a : Ent), s.files[j]? = some a → a.action = .append → path a.name ≠ path e.name := by
        intro j a hj haa
        obtain ⟨a', ha', hna, haca, _⟩ := (Move.define (s := s) n e₀ f name type h0 har hd hn).keep hj
        rw [← hna]
        exact hap j a' ha' (haca.trans haa)
      rcases modify_cases _ h0 he with ⟨rfl, rfl⟩ | ⟨hi, he⟩
      · obtain ⟨f', hf', hnames, hal⟩ := I.aligned _ e₀ h0 ha hap'
        rw [hd] at hf'
        obtain rfl := Option.some.inj hf'
        have hlen : f.vars.length = e₀.vars.length := by simpa using congrArg List.length hnames
        refine ⟨_, setDisk_same _ _ _, by simp [hnames], ?_⟩
        intro k sl hk
        rcases getElem?_push hk with hk | ⟨rfl, rfl⟩
        · exact hal k sl hk
        · exact hlen
      · obtain ⟨f', hf', hnames, hal⟩ := I.aligned i e he ha hap'
        refine ⟨f', ?_, hnames, hal⟩
        have hne : path e.name ≠ path e₀.name := by
          intro hp
          cases hact : e₀.action with
          | read => exact har hact
          | append => exact hap' n e₀ h0 hact hp.symm
          | write => exact hi (I.writes i n e e₀ he h0 ha hact hp)
        simp only
        rw [setDisk_other _ _ hne, hf']

/-- Over a quiet history the invariant holds, and entries keep their handles -/
theorem run_keep {root : Bool} {ops : List Op} {s s' : State} (I : Inv s) (hq : Quiet root s ops) (h : run root s ops = .ok s') :
    Inv s' ∧ ∀ (i : Nat) (e : Ent), s.files[i]? = some e → ∃ e', s'.files[i]? = some e' ∧ e'.name = e.name ∧ e'.action = e.action ∧
      ∀ (k : Nat) (sl : Slot), e.vars[k]? = some sl → e'.vars[k]? = some sl := by
  induction ops generalizing s with
  | nil =>
    simp only [run, Except.ok.injEq] at h
    subst h
    exact ⟨I, fun i e he => ⟨e, he, rfl, rfl, fun _ _ hk => hk⟩⟩
  | cons o ops ih =>
    unfold run at h
    cases hs : step root s o with
    | error x => rw [hs] at h; simp at h
    | ok s₁ =>
      rw [hs] at h
      simp only at h
      have m := step_move hq.1 hs
      obtain ⟨I', hk'⟩ := ih (m.inv I) (hq.2 s₁ hs) h
      refine ⟨I', ?_⟩
      intro i e he
      obtain ⟨e₁, he₁, hn₁, ha₁, hv₁⟩ := m.keep he
      obtain ⟨e₂, he₂, hn₂, ha₂, hv₂⟩ := hk' i e₁ he₁
      exact ⟨e₂, he₂, hn₂.trans hn₁, ha₂.trans ha₁, fun k sl hk => hv₂ k sl (hv₁ k sl hk)⟩

/-- A slot of the table stands for its name -/
theorem Inv.denotes {s : State} (I : Inv s) {i k : Nat} {e : Ent} {sl : Slot} (he : s.files[i]? = some e) (hk : e.vars[k]? = some sl) :
    Denotes s i k sl.name := by
  obtain ⟨f, x, hf, hx, h1, h2⟩ := I.slots i e he sl (mem_of_getElem? hk)
  exact ⟨e, sl, f, x, he, hk, hf, hx, h1, h2⟩

end Verif.MppIo
