/-
The table of mpp_io.c over arbitrary histories, and the format of created files.
-/
import Verif.Lemmas.MppIo
namespace Verif.MppIo
open Verif.Spec.MppIo

/-- What any call does to the table -/
inductive TMove (o : Op) (l : List Ent) : List Ent → Prop
  | same : TMove o l l
  | opened (n : Nat) (e : Ent) : l[n]? = some e → TMove o l (l.modify n (fun e => { e with status := true }))
  | closed (n : Nat) (e : Ent) : o = .close n → l[n]? = some e → TMove o l (l.modify n (fun e => { e with status := false }))
  | push (e : Ent) : e.vars = [] → e.status = true → (∀ e' ∈ l, ¬ (e'.name = e.name ∧ e'.action = e.action)) → l.length + 1 ≤ 200 → TMove o l (l ++ [e])
  | grow (n : Nat) (e : Ent) (sl : Slot) : l[n]? = some e → e.vars.length + 1 ≤ 1024 → TMove o l (l.modify n (fun e => { e with vars := e.vars ++ [sl] }))

theorem openAt_files {s s' : State} {l : List Ent} {n : Nat} {file : Name} {a : Action} {r : Int} (h : openAt s l n file a = .ok (s', r)) :
    s'.files = l.modify n (fun e => { e with status := true, action := a }) ∧ r = n := by
  unfold openAt at h
  cases a with
  | write =>
    simp only at h
    by_cases hc : creatable s.inFormat = true
    · rw [if_pos hc] at h
      simp only [Except.ok.injEq, Prod.mk.injEq] at h
      rw [← h.1, ← h.2]; exact ⟨rfl, rfl⟩
    · rw [if_neg hc] at h; simp at h
  | append =>
    simp only at h
    cases hd : s.disk (path file) with
    | none => rw [hd] at h; simp at h
    | some f =>
      rw [hd] at h
      simp only [Except.ok.injEq, Prod.mk.injEq] at h
      rw [← h.1, ← h.2]; exact ⟨rfl, rfl⟩
  | read =>
    simp only at h
    cases hd : s.disk (path file) with
    | none => rw [hd] at h; simp at h
    | some f =>
      rw [hd] at h
      simp only [Except.ok.injEq, Prod.mk.injEq] at h
      rw [← h.1, ← h.2]; exact ⟨rfl, rfl⟩

/-- A file that was opened: what the table holds afterwards -/
theorem mppOpen_cases {root : Bool} {s s' : State} {file : Name} {a : Action} {r : Int} (h : mppOpen root s file a = .ok (s', r)) :
    (s' = s ∧ r = -1 ∧ a ≠ .read ∧ root = false) ∨
    (∃ n e, s.files[n]? = some e ∧ e.name = file ∧ e.action = a ∧ a ≠ .write ∧ s'.files = s.files.modify n (fun e => { e with status := true }) ∧ r = n ∧
      openAt s s.files n file a = .ok (s', r)) ∨
    ((∀ e ∈ s.files, ¬ (e.name = file ∧ e.action = a)) ∧ s.files.length + 1 ≤ 200 ∧ s'.files = s.files ++ [⟨file, a, true, []⟩] ∧ r = s.files.length ∧
      openAt s (s.files ++ [⟨file, a, false, []⟩]) s.files.length file a = .ok (s', r)) := by
  unfold mppOpen at h
  by_cases h1 : a ≠ .read ∧ root = false
  · rw [if_pos h1] at h
    simp only [Except.ok.injEq, Prod.mk.injEq] at h
    exact Or.inl ⟨h.1.symm, h.2.symm, h1.1, h1.2⟩
  rw [if_neg h1] at h
  by_cases h2 : 255 ≤ (path file).length
  · rw [if_pos h2] at h; simp at h
  rw [if_neg h2] at h
  cases hi : s.files.findIdx? (fun e => e.name == file && e.action == a) with
  | none =>
    rw [hi] at h
    simp only at h
    by_cases h3 : s.files.length + 1 > 200
    · rw [if_pos h3] at h; simp at h
    rw [if_neg h3] at h
    obtain ⟨hf, hr⟩ := openAt_files h
    rw [modify_push] at hf
    refine Or.inr (Or.inr ⟨?_, by omega, hf, hr, h⟩)
    rw [List.findIdx?_eq_none_iff] at hi
    intro e he hh
    have := hi e he
    simp [hh.1, hh.2] at this
  | some n =>
    rw [hi] at h
    simp only at h
    by_cases h3 : a = .write
    · rw [if_pos h3] at h; simp at h
    rw [if_neg h3] at h
    by_cases h4 : (s.files[n]?.map (·.status)) = some true
    · rw [if_pos h4] at h; simp at h
    rw [if_neg h4] at h
    obtain ⟨e, he, hp⟩ := findIdx?_some' hi
    simp only [Bool.and_eq_true, beq_iff_eq] at hp
    obtain ⟨hf, hr⟩ := openAt_files h
    refine Or.inr (Or.inl ⟨n, e, he, hp.1, hp.2, h3, ?_, hr, h⟩)
    rw [hf]
    exact modify_id he (by simp [← hp.2])

theorem step_table {root : Bool} {s s' : State} {o : Op} (h : step root s o = .ok s') : TMove o s.files s'.files := by
  cases o with
  | «open» file a =>
    obtain ⟨r, hr⟩ := map_ok h
    rcases mppOpen_cases hr with ⟨rfl, _⟩ | ⟨n, e, he, _, _, _, hf, _⟩ | ⟨hn, hl, hf, _⟩
    · exact .same
    · rw [hf]; exact .opened n e he
    · rw [hf]; exact .push _ rfl rfl hn hl
  | close fid =>
    simp only [step] at h
    unfold mppClose at h
    by_cases h1 : fid = -1 ∧ root = false
    · rw [if_pos h1] at h
      rw [← Except.ok.inj h]; exact .same
    rw [if_neg h1] at h
    by_cases h2 : fid < 0
    · rw [if_pos h2] at h; simp at h
    rw [if_neg h2] at h
    cases he : s.files[fid.toNat]? with
    | none => rw [he] at h; simp at h
    | some e =>
      rw [he] at h
      simp only at h
      by_cases h3 : e.status = true
      · rw [if_pos h3] at h
        rw [← Except.ok.inj h]
        refine .closed fid.toNat e ?_ he
        rw [Int.toNat_of_nonneg (by omega)]
      · rw [if_neg h3] at h; simp at h
  | varid fid name =>
    obtain ⟨r, hr⟩ := map_ok h
    rcases getVarid_cases hr with ⟨rfl, _⟩ | ⟨e, he, hr⟩
    · exact .same
    · rcases varidAt_cases hr with ⟨n, _, rfl, _⟩ | ⟨f, k, v, hd, hk, rfl, hn, _, rfl, hl⟩
      · exact .same
      · exact .grow _ e _ he hl
  | defVar fid name type =>
    obtain ⟨r, hr⟩ := map_ok h
    rcases defVar_cases hr with ⟨_, rfl⟩ | ⟨e, f, he, _, _, _, _, hl, rfl⟩
    · exact .same
    · exact .grow _ e _ he hl
  | other p f =>
    simp only [step, Except.ok.injEq] at h
    rw [← h]; exact .same

/-- The invariant of all histories -/
structure Bounds (l : List Ent) : Prop where
  len : l.length ≤ 200
  vars : ∀ (i : Nat) (e : Ent), l[i]? = some e → e.vars.length ≤ 1024
  uniq : ∀ (i j : Nat) (e e' : Ent), l[i]? = some e → l[j]? = some e' → e.name = e'.name → e.action = e'.action → i = j

theorem TMove.back {o : Op} {l l' : List Ent} (m : TMove o l l') {i : Nat} {e : Ent} (h : l'[i]? = some e) :
    (∃ e', l[i]? = some e' ∧ e'.name = e.name ∧ e'.action = e.action ∧ (e.vars.length ≤ e'.vars.length ∨ e.vars.length ≤ 1024)) ∨
    (i = l.length ∧ e.vars = [] ∧ ∀ e' ∈ l, ¬ (e'.name = e.name ∧ e'.action = e.action)) := by
  cases m with
  | same => exact Or.inl ⟨e, h, rfl, rfl, Or.inl (Nat.le_refl _)⟩
  | opened n e₀ h0 =>
    rcases modify_cases _ h0 h with ⟨rfl, rfl⟩ | ⟨_, ho⟩
    · exact Or.inl ⟨e₀, h0, rfl, rfl, Or.inl (Nat.le_refl _)⟩
    · exact Or.inl ⟨e, ho, rfl, rfl, Or.inl (Nat.le_refl _)⟩
  | closed n e₀ _ h0 =>
    rcases modify_cases _ h0 h with ⟨rfl, rfl⟩ | ⟨_, ho⟩
    · exact Or.inl ⟨e₀, h0, rfl, rfl, Or.inl (Nat.le_refl _)⟩
    · exact Or.inl ⟨e, ho, rfl, rfl, Or.inl (Nat.le_refl _)⟩
  | push x hx hs hn hl =>
    rcases getElem?_push h with ho | ⟨hi, rfl⟩
    · exact Or.inl ⟨e, ho, rfl, rfl, Or.inl (Nat.le_refl _)⟩
    · exact Or.inr ⟨hi, hx, hn⟩
  | grow n e₀ sl h0 hl =>
    rcases modify_cases _ h0 h with ⟨rfl, rfl⟩ | ⟨_, ho⟩
    · exact Or.inl ⟨e₀, h0, rfl, rfl, Or.inr (by simpa using hl)⟩
    · exact Or.inl ⟨e, ho, rfl, rfl, Or.inl (Nat.le_refl _)⟩

theorem TMove.bounds {o : Op} {l l' : List Ent} (m : TMove o l l') (B : Bounds l) : Bounds l' := by
  refine ⟨?_, ?_, ?_⟩
  · cases m with
    | same => exact B.len
    | opened n e₀ h0 => rw [List.length_modify]; exact B.len
    | closed n e₀ _ h0 => rw [List.length_modify]; exact B.len
    | push x hx hs hn hl => simpa using hl
    | grow n e₀ sl h0 hl => rw [List.length_modify]; exact B.len
  · intro i e he
    rcases m.back he with ⟨e', he', _, _, hv⟩ | ⟨_, hv, _⟩
    · have := B.vars i e' he'
      omega
    · rw [hv]; simp
  · intro i j e e' he he' hn ha
    rcases m.back he with ⟨d, hd, hdn, hda, _⟩ | ⟨hi, _, hx⟩
    · rcases m.back he' with ⟨d', hd', hdn', hda', _⟩ | ⟨hj, _, hx'⟩
      · exact B.uniq i j d d' hd hd' (by rw [hdn, hdn', hn]) (by rw [hda, hda', ha])
      · exact absurd ⟨hdn.trans hn, hda.trans ha⟩ (hx' d (mem_of_getElem? hd))
    · rcases m.back he' with ⟨d', hd', hdn', hda', _⟩ | ⟨hj, _, hx'⟩
      · exact absurd ⟨hdn'.trans hn.symm, hda'.trans ha.symm⟩ (hx d' (mem_of_getElem? hd'))
      · rw [hi, hj]

theorem run_bounds {root : Bool} {ops : List Op} {s s' : State} (B : Bounds s.files) (h : run root s ops = .ok s') : Bounds s'.files := by
  induction ops generalizing s with
  | nil =>
    simp only [run, Except.ok.injEq] at h
    rw [← h]; exact B
  | cons o ops ih =>
    unfold run at h
    cases hs : step root s o with
    | error x => rw [hs] at h; simp at h
    | ok s₁ => rw [hs] at h; exact ih ((step_table hs).bounds B) h

theorem bounds_start (disk : Name → Option Nc) : Bounds (start disk).files :=
  ⟨by simp [start], by intro i e he; simp [start] at he, by intro i j e e' he; simp [start] at he⟩

/-- An entry keeps its name and action; it stays open unless it is closed -/
theorem TMove.stay {o : Op} {l l' : List Ent} (m : TMove o l l') {i : Nat} {e : Ent} (h : l[i]? = some e) :
    ∃ e', l'[i]? = some e' ∧ e'.name = e.name ∧ e'.action = e.action ∧ (e.status = true → o ≠ .close i → e'.status = true) := by
  cases m with
  | same => exact ⟨e, h, rfl, rfl, fun hs _ => hs⟩
  | opened n e₀ h0 =>
    by_cases hn : n = i
    · subst hn
      exact ⟨_, getElem?_modify_self _ h, rfl, rfl, fun _ _ => rfl⟩
    · exact ⟨e, by rw [getElem?_modify_ne _ hn, h], rfl, rfl, fun hs _ => hs⟩
  | closed n e₀ ho h0 =>
    by_cases hn : n = i
    · subst hn
      exact ⟨_, getElem?_modify_self _ h, rfl, rfl, fun _ hc => absurd ho hc⟩
    · exact ⟨e, by rw [getElem?_modify_ne _ hn, h], rfl, rfl, fun hs _ => hs⟩
  | push x hx hs hn hl =>
    obtain ⟨hlt, _⟩ := List.getElem?_eq_some_iff.1 h
    exact ⟨e, by rw [List.getElem?_append_left hlt, h], rfl, rfl, fun hs _ => hs⟩
  | grow n e₀ sl h0 hl =>
    by_cases hn : n = i
    · subst hn
      exact ⟨_, getElem?_modify_self _ h, rfl, rfl, fun hs _ => hs⟩
    · exact ⟨e, by rw [getElem?_modify_ne _ hn, h], rfl, rfl, fun hs _ => hs⟩

theorem run_stay {root : Bool} {ops : List Op} {s s' : State} {i : Nat} {e : Ent} (h : run root s ops = .ok s') (he : s.files[i]? = some e) :
    ∃ e', s'.files[i]? = some e' ∧ e'.name = e.name ∧ e'.action = e.action ∧ (e.status = true → Op.close i ∉ ops → e'.status = true) := by
  induction ops generalizing s e with
  | nil =>
    simp only [run, Except.ok.injEq] at h
    rw [← h]; exact ⟨e, he, rfl, rfl, fun hs _ => hs⟩
  | cons o ops ih =>
    unfold run at h
    cases hs : step root s o with
    | error x => rw [hs] at h; simp at h
    | ok s₁ =>
      rw [hs] at h
      obtain ⟨e₁, he₁, hn₁, ha₁, hst₁⟩ := (step_table hs).stay he
      obtain ⟨e₂, he₂, hn₂, ha₂, hst₂⟩ := ih h he₁
      refine ⟨e₂, he₂, hn₂.trans hn₁, ha₂.trans ha₁, ?_⟩
      intro hopen hc
      simp only [List.mem_cons, not_or] at hc
      exact hst₂ (hst₁ hopen (Ne.symm hc.1)) hc.2

/-- The entry of a file that was opened -/
theorem mppOpen_entry {root : Bool} {s s' : State} {file : Name} {a : Action} {r : Int} (h : mppOpen root s file a = .ok (s', r)) (h0 : 0 ≤ r) :
    ∃ e, s'.files[r.toNat]? = some e ∧ e.name = file ∧ e.action = a ∧ e.status = true := by
  rcases mppOpen_cases h with ⟨_, hr, _⟩ | ⟨n, e, he, hn, ha, _, hf, rfl, _⟩ | ⟨_, _, hf, rfl, _⟩
  · omega
  · rw [hf]
    refine ⟨{ e with status := true }, ?_, hn, ha, rfl⟩
    rw [Int.toNat_natCast]
    exact getElem?_modify_self _ he
  · rw [hf]
    exact ⟨⟨file, a, true, []⟩, by simp, rfl, rfl, rfl⟩

/-- `strstr(s, ".nc")` -/
theorem hasNc_iff (s : Name) : hasNc s = true ↔ ['.', 'n', 'c'] <:+: s := by
  induction s with
  | nil => simp [hasNc]
  | cons c s ih =>
    rw [hasNc, Bool.or_eq_true, ih, List.infix_cons_iff, List.isPrefixOf_iff_prefix]

theorem run_append {root : Bool} {a b : List Op} {s s' : State} (h : run root s (a ++ b) = .ok s') :
    ∃ s₁, run root s a = .ok s₁ ∧ run root s₁ b = .ok s' := by
  induction a generalizing s with
  | nil => exact ⟨s, rfl, h⟩
  | cons o a ih =>
    rw [List.cons_append] at h
    rw [run] at h
    cases hs : step root s o with
    | error x => rw [hs] at h; simp at h
    | ok s₁ =>
      rw [hs] at h
      obtain ⟨s₂, h1, h2⟩ := ih h
      exact ⟨s₂, by rw [run, hs]; exact h1, h2⟩

/-- A call that reads no file keeps `in_format`; files that have this format keep it; created files get it -/
theorem noRead_step {root : Bool} {s s' : State} {o : Op} (hr : NoRead o) (h : step root s o = .ok s') :
    s'.inFormat = s.inFormat ∧ (∀ p, formatAt s p = some s.inFormat → formatAt s' p = some s.inFormat) ∧
    (∀ f, o = .open f .write → root = true → formatAt s' (path f) = some s.inFormat) := by
  cases o with
  | «open» file a =>
    obtain ⟨r, hx⟩ := map_ok h
    have key : ∀ l n, openAt s l n file a = .ok (s', r) → s'.inFormat = s.inFormat ∧ (∀ p, formatAt s p = some s.inFormat → formatAt s' p = some s.inFormat) ∧
        (a = .write → formatAt s' (path file) = some s.inFormat) := by
      intro l n ho
      unfold openAt at ho
      cases a with
      | read => exact absurd hr (by simp [NoRead])
      | write =>
        simp only at ho
        by_cases hc : creatable s.inFormat = true
        · rw [if_pos hc] at ho
          simp only [Except.ok.injEq, Prod.mk.injEq] at ho
          rw [← ho.1]
          refine ⟨rfl, ?_, ?_⟩
          · intro p hp
            by_cases hq : p = path file
            · subst hq; unfold formatAt; simp only [setDisk_same]; rfl
            · unfold formatAt at hp ⊢; simp only [setDisk_other _ _ hq]; exact hp
          · intro _; unfold formatAt; simp only [setDisk_same]; rfl
        · rw [if_neg hc] at ho; simp at ho
      | append =>
        simp only at ho
        cases hd : s.disk (path file) with
        | none => rw [hd] at ho; simp at ho
        | some f =>
          rw [hd] at ho
          simp only [Except.ok.injEq, Prod.mk.injEq] at ho
          rw [← ho.1]
          exact ⟨rfl, fun p hp => hp, by simp⟩
    rcases mppOpen_cases hx with ⟨rfl, _, _, hroot⟩ | ⟨n, e, _, _, _, _, _, _, ho⟩ | ⟨_, _, _, _, ho⟩
    · refine ⟨rfl, fun p hp => hp, ?_⟩
      intro f _ ht
      rw [hroot] at ht; simp at ht
    · obtain ⟨k1, k2, k3⟩ := key _ _ ho
      refine ⟨k1, k2, ?_⟩
      intro f hf _
      obtain ⟨rfl, rfl⟩ := Op.open.inj hf
      exact k3 rfl
    · obtain ⟨k1, k2, k3⟩ := key _ _ ho
      refine ⟨k1, k2, ?_⟩
      intro f hf _
      obtain ⟨rfl, rfl⟩ := Op.open.inj hf
      exact k3 rfl
  | close fid =>
    refine ⟨?_, ?_, fun f hf => by simp at hf⟩
    all_goals
      simp only [step] at h
      unfold mppClose at h
      by_cases h1 : fid = -1 ∧ root = false
      · rw [if_pos h1] at h
        rw [← Except.ok.inj h]
        try exact fun _ hp => hp
      rw [if_neg h1] at h
      by_cases h2 : fid < 0
      · rw [if_pos h2] at h; simp at h
      rw [if_neg h2] at h
      cases he : s.files[fid.toNat]? with
      | none => rw [he] at h; simp at h
      | some e =>
        rw [he] at h
        simp only at h
        by_cases h3 : e.status = true
        · rw [if_pos h3] at h
          rw [← Except.ok.inj h]
          try exact fun _ hp => hp
        · rw [if_neg h3] at h; simp at h
  | varid fid name =>
    obtain ⟨r, hx⟩ := map_ok h
    rcases getVarid_cases hx with ⟨rfl, _⟩ | ⟨e, he, hx⟩
    · exact ⟨rfl, fun p hp => hp, fun f hf => by simp at hf⟩
    · rcases varidAt_cases hx with ⟨n, _, rfl, _⟩ | ⟨f, k, v, hd, hk, rfl, hn, _, rfl, hl⟩
      · exact ⟨rfl, fun p hp => hp, fun f hf => by simp at hf⟩
      · exact ⟨rfl, fun p hp => hp, fun f hf => by simp at hf⟩
  | defVar fid name type =>
    obtain ⟨r, hx⟩ := map_ok h
    rcases defVar_cases hx with ⟨_, rfl⟩ | ⟨e, f, he, _, hd, _, _, hl, rfl⟩
    · exact ⟨rfl, fun p hp => hp, fun f hf => by simp at hf⟩
    · refine ⟨rfl, ?_, fun f hf => by simp at hf⟩
      intro p hp
      by_cases hq : p = path e.name
      · subst hq
        unfold formatAt at hp ⊢
        simp only [setDisk_same]
        rw [hd] at hp
        exact hp
      · unfold formatAt at hp ⊢
        simp only [setDisk_other _ _ hq]
        exact hp
  | other p f => exact absurd hr (by simp [NoRead])

theorem noRead_run {root : Bool} {ops : List Op} {s s' : State} (hr : ∀ o ∈ ops, NoRead o) (h : run root s ops = .ok s') :
    (∀ p, formatAt s p = some s.inFormat → formatAt s' p = some s.inFormat) ∧
    (root = true → ∀ f, Op.open f .write ∈ ops → formatAt s' (path f) = some s.inFormat) := by
  induction ops generalizing s with
  | nil =>
    simp only [run, Except.ok.injEq] at h
    rw [← h]; exact ⟨fun p hp => hp, fun _ f hf => by simp at hf⟩
  | cons o ops ih =>
    unfold run at h
    cases hs : step root s o with
    | error x => rw [hs] at h; simp at h
    | ok s₁ =>
      rw [hs] at h
      obtain ⟨k1, k2, k3⟩ := noRead_step (hr o (by simp)) hs
      obtain ⟨i1, i2⟩ := ih (fun o' ho' => hr o' (by simp [ho'])) h
      rw [k1] at i1 i2
      refine ⟨fun p hp => i1 p (k2 p hp), ?_⟩
      intro hroot f hf
      rcases List.mem_cons.1 hf with hf | hf
      · exact i1 _ (k3 f hf.symm hroot)
      · exact i2 hroot f hf

/-- Opening a file for reading changes no file and sets `in_format` -/
theorem open_read {root : Bool} {s s' : State} {file : Name} {r : Int} (h : mppOpen root s file .read = .ok (s', r)) :
    s'.disk = s.disk ∧ formatAt s (path file) = some s'.inFormat := by
  have key : ∀ l n, openAt s l n file .read = .ok (s', r) → s'.disk = s.disk ∧ formatAt s (path file) = some s'.inFormat := by
    intro l n ho
    unfold openAt at ho
    simp only at ho
    cases hd : s.disk (path file) with
    | none => rw [hd] at ho; simp at ho
    | some f =>
      rw [hd] at ho
      simp only [Except.ok.injEq, Prod.mk.injEq] at ho
      rw [← ho.1]
      exact ⟨rfl, by unfold formatAt; rw [hd]; rfl⟩
  rcases mppOpen_cases h with ⟨_, _, hn, _⟩ | ⟨n, e, _, _, _, _, _, _, ho⟩ | ⟨_, _, _, _, ho⟩
  · exact absurd rfl hn
  · exact key _ _ ho
  · exact key _ _ ho

theorem openInputs_first {root : Bool} {fs : List Name} {s s' : State} {k : Nat} {j : Option Nat} (h : openInputs root s fs (some k) = .ok (s', j)) :
    j = some k := by
  induction fs generalizing s with
  | nil => simp only [openInputs, Except.ok.injEq, Prod.mk.injEq] at h; exact h.2.symm
  | cons f fs ih =>
    unfold openInputs at h
    cases ho : mppOpen root s f .read with
    | error e => rw [ho] at h; simp at h
    | ok p => rw [ho] at h; exact ih h

end Verif.MppIo
