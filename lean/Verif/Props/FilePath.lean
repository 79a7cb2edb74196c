import Verif.Model.FilePath
import Verif.Spec.FilePath
import Mathlib.Tactic.NormNum
/-
C150: names of files that belong to a mosaic.
-/
namespace Verif
open FilePath Spec.FilePath

private theorem parts_ne (w : List Char) : parts w ≠ [] := by
  cases w with
  | nil => simp [parts]
  | cons c cs =>
    rw [parts]
    by_cases h : c = '/'
    · rw [if_pos h]; simp
    · rw [if_neg h]; cases parts cs <;> simp

private theorem parts_name {w : List Char} (h : '/' ∉ w) : parts w = [w] := by
  induction w with
  | nil => rfl
  | cons c cs ih =>
    rw [parts, if_neg (fun e : c = '/' => h (e ▸ List.mem_cons_self)), ih (fun e => h (List.mem_cons_of_mem _ e))]

private theorem parts_append (a b : List Char) : parts (a ++ '/' :: b) = parts a ++ parts b := by
  induction a with
  | nil => simp [parts]
  | cons c cs ih =>
    rw [List.cons_append, parts, parts, ih]
    by_cases h : c = '/'
    · rw [if_pos h, if_pos h]; rfl
    · rw [if_neg h, if_neg h]
      cases e : parts cs with
      | nil => exact absurd e (parts_ne cs)
      | cons p ps => rfl

private theorem slash_some {f : List Char} {k : Nat} (h : lastSlash f = some k) : ∃ a b, f = a ++ '/' :: b ∧ a.length = k ∧ '/' ∉ b := by
  have none_of : ∀ g : List Char, lastSlash g = none → '/' ∉ g := by
    intro g
    induction g with
    | nil => intro _; simp
    | cons c cs ih =>
      intro e
      rw [lastSlash] at e
      cases d : lastSlash cs with
      | some m => rw [d] at e; simp at e
      | none =>
        rw [d] at e
        have c' : c ≠ '/' := by
          intro h; simp [h] at e
        have := ih d
        simp only [List.mem_cons, not_or]
        exact ⟨fun h => c' h.symm, this⟩
  induction f generalizing k with
  | nil => simp [lastSlash] at h
  | cons c cs ih =>
    rw [lastSlash] at h
    cases d : lastSlash cs with
    | some m =>
      rw [d] at h
      obtain ⟨a, b, e, l, s⟩ := ih d
      refine ⟨c :: a, b, by rw [e]; rfl, ?_, s⟩
      simp only [Option.some.injEq] at h
      simp [l, h]
    | none =>
      rw [d] at h
      by_cases hc : c = '/'
      · simp only [hc, if_true, Option.some.injEq] at h
        exact ⟨[], cs, by rw [hc]; rfl, by simpa using h, none_of cs d⟩
      · simp [hc] at h

private theorem slash_none {g : List Char} (e : lastSlash g = none) : '/' ∉ g := by
  induction g with
  | nil => simp
  | cons c cs ih =>
    rw [lastSlash] at e
    cases d : lastSlash cs with
    | some m => rw [d] at e; simp at e
    | none =>
      rw [d] at e
      have c' : c ≠ '/' := by
        intro h; simp [h] at e
      simp only [List.mem_cons, not_or]
      exact ⟨fun h => c' h.symm, ih d⟩

private theorem store_fits {mem w : List Char} (h : w.length ≤ mem.length) : store mem w = some (w ++ mem.drop w.length) := if_pos h

private theorem takeWhile_nul (w rest : List Char) (h : nul ∉ w) : (w ++ nul :: rest).takeWhile (· ≠ nul) = w := by
  induction w with
  | nil => simp
  | cons c cs ih =>
    simp only [List.mem_cons, not_or] at h
    rw [List.cons_append, List.takeWhile_cons_of_pos (by simpa using fun e => h.1 e.symm), ih h.2]

private theorem text_stored {w rest : List Char} (h : nul ∉ w) : text ((w ++ [nul]) ++ rest) = some w := by
  unfold text
  rw [if_pos (by simp)]
  rw [List.append_assoc, List.singleton_append, takeWhile_nul w rest h]

private theorem head_append (a b : List Char) : ((a ++ '/' :: b).head? = some '/') ↔ (a = [] ∨ a.head? = some '/') := by
  cases a <;> simp

/-- The file opened for a tile is the file of that name in the directory of the mosaic, if the arrays are long enough. -/
theorem C150_same_directory (cwd : List (List Char)) (file name b dirMem outMem : List Char) (hfile : Char.ofNat 0 ∉ file) (hb : (parts file).getLast? = some b) (hb' : Name b)
    (hname : Name name) (h1 : 2 ≤ dirMem.length) (h2 : file.length ≤ dirMem.length) (h3 : file.length + name.length + 2 ≤ outMem.length) :
    ∃ p D, gridFile file name dirMem outMem = some p ∧ resolve cwd file = D ++ [b] ∧ resolve cwd p = D ++ [name] := by
  have bf : [b].filter (fun w => decide (w ≠ [] ∧ w ≠ ['.'])) = [b] := by
    rw [List.filter_cons_of_pos (by simpa using ⟨hb'.1, hb'.2.1⟩)]; rfl
  have nf : [name].filter (fun w => decide (w ≠ [] ∧ w ≠ ['.'])) = [name] := by
    rw [List.filter_cons_of_pos (by simpa using ⟨hname.1, hname.2.1⟩)]; rfl
  cases e : lastSlash file with
  | none =>
    have hs := slash_none e
    have pf := parts_name hs
    obtain rfl : file = b := by rw [pf] at hb; simpa using hb
    have hne : 1 ≤ file.length := List.length_pos_iff.2 hb'.1
    refine ⟨'.' :: '/' :: name, cwd, ?_, ?_, ?_⟩
    · unfold gridFile getFilePath
      rw [e]
      simp only
      rw [store_fits (by simpa using h1)]
      simp only
      rw [show ['.', nul] = ['.'] ++ [nul] from rfl, text_stored (by decide)]
      simp only
      rw [store_fits (by simp; omega)]
      simp only
      rw [show ['.'] ++ '/' :: (name ++ [nul]) = ('.' :: '/' :: name) ++ [nul] from rfl, text_stored]
      simp only [List.mem_cons, not_or]
      exact ⟨by decide, by decide, hname.2.2.2⟩
    · unfold resolve
      rw [pf, bf, if_neg]
      intro h
      exact hs (List.mem_of_mem_head? h)
    · unfold resolve
      rw [show '.' :: '/' :: name = ['.'] ++ '/' :: name from rfl, parts_append, parts_name hname.2.2.1, List.filter_append, nf, if_neg (by simp)]
      rfl
  | some k =>
    obtain ⟨a, b', ef, el, hs⟩ := slash_some e
    have eb : b' = b := by
      rw [ef, parts_append, parts_name hs] at hb
      simpa using hb
    subst eb
    have la : file.length = a.length + 1 + b'.length := by rw [ef]; simp; omega
    have hne : 1 ≤ b'.length := List.length_pos_iff.2 hb'.1
    have na : nul ∉ a := fun h => hfile (by rw [ef]; exact List.mem_append_left _ h)
    refine ⟨a ++ '/' :: name, (if a = [] ∨ a.head? = some '/' then [] else cwd) ++ (parts a).filter (fun w => decide (w ≠ [] ∧ w ≠ ['.'])), ?_, ?_, ?_⟩
    · unfold gridFile getFilePath
      rw [e]
      have tk : file.take k = a := by rw [ef, ← el]; simp
      simp only
      rw [tk, store_fits (by simp; omega)]
      simp only
      rw [text_stored na]
      simp only
      rw [store_fits (by simp; omega)]
      simp only
      rw [show a ++ '/' :: (name ++ [nul]) = (a ++ '/' :: name) ++ [nul] by simp, text_stored]
      simp only [List.mem_append, List.mem_cons, not_or]
      exact ⟨na, by decide, hname.2.2.2⟩
    · unfold resolve
      rw [ef, parts_append, parts_name hb'.2.2.1, List.filter_append, bf, List.append_assoc]
      simp only [head_append]
    · unfold resolve
      rw [parts_append, parts_name hname.2.2.1, List.filter_append, nf, List.append_assoc]
      simp only [head_append]

example : ∃ p D, gridFile "/data/grid/mosaic.nc".toList "tile1.nc".toList (List.replicate 256 'x') (List.replicate 256 'y') = some p ∧
    resolve [] "/data/grid/mosaic.nc".toList = D ++ ["mosaic.nc".toList] ∧ resolve [] p = D ++ ["tile1.nc".toList] :=
  C150_same_directory [] _ _ _ _ _ (by decide) (by decide) (by unfold Name; decide) (by unfold Name; decide) (by rw [List.length_replicate]; decide)
    (by rw [List.length_replicate]; decide) (by rw [List.length_replicate]; decide)

/-- A long directory and a long name, each of which fits, overflow the array in which they are put together. -/
theorem C150_long_wrong (d b name dirMem outMem : List Char) (hb : '/' ∉ b) (hd : Char.ofNat 0 ∉ d) (h1 : dirMem.length = 256) (h2 : outMem.length = 256) (hl : d.length < 256)
    (h : 255 ≤ d.length + name.length) : gridFile (d ++ '/' :: b) name dirMem outMem = none := by
  cases e : lastSlash (d ++ '/' :: b) with
  | none => exact absurd (by simp) (slash_none e)
  | some k =>
    obtain ⟨a, b', ef, el, hs⟩ := slash_some e
    have eb : d = a ∧ b = b' := by
      have p1 : ∀ (u v x y : List Char), '/' ∉ v → '/' ∉ y → u ++ '/' :: v = x ++ '/' :: y → u = x ∧ v = y := by
        intro u
        induction u with
        | nil =>
          intro v x y hv hy h
          cases x with
          | nil => simpa using h
          | cons c cs =>
            simp only [List.nil_append, List.cons_append, List.cons.injEq] at h
            exact absurd (by rw [h.2]; simp) hv
        | cons c cs ih =>
          intro v x y hv hy h
          cases x with
          | nil =>
            simp only [List.nil_append, List.cons_append, List.cons.injEq] at h
            exact absurd (by rw [← h.2]; simp) hy
          | cons c' cs' =>
            simp only [List.cons_append, List.cons.injEq] at h
            obtain ⟨q, r⟩ := ih v cs' y hv hy h.2
            exact ⟨by rw [h.1, q], r⟩
      exact p1 d b a b' hb hs ef
    obtain ⟨rfl, rfl⟩ := eb
    unfold gridFile getFilePath
    rw [e]
    have tk : (d ++ '/' :: b).take k = d := by rw [← el]; simp
    simp only
    rw [tk, store_fits (by simp; omega)]
    simp only
    rw [text_stored hd]
    simp only
    have : store outMem (d ++ '/' :: (name ++ [nul])) = none := if_neg (by simp; omega)
    rw [this]

example : gridFile (List.replicate 200 'd' ++ '/' :: "mosaic.nc".toList) (List.replicate 60 'n') (List.replicate 256 ' ') (List.replicate 256 ' ') = none :=
  C150_long_wrong _ _ _ _ _ (by decide) (fun h => absurd (List.eq_of_mem_replicate h) (by decide)) List.length_replicate List.length_replicate
    (by rw [List.length_replicate]; decide) (by rw [List.length_replicate, List.length_replicate]; decide)

/-- make_coupler_mosaic stores the name of each mosaic file; directory and name together mean the file that was given. For a path with a slash: if the byte behind the directory was zero
before. -/
theorem C150_coupler_partial (cwd : List (List Char)) (file dirMem nameMem : List Char) (hfile : Char.ofNat 0 ∉ file) (h1 : file.length < dirMem.length) (h1' : 3 ≤ dirMem.length)
    (h2 : file.length < nameMem.length) (hz : ∀ k, lastSlash file = some k → dirMem[k + 1]? = some (Char.ofNat 0)) :
    ∃ d n dir name, dirAndName file dirMem nameMem = some (d, n) ∧ text d = some dir ∧ text n = some name ∧ '/' ∉ name ∧ resolve cwd (dir ++ name) = resolve cwd file ∧
      ('/' ∈ file → dir ++ name = file) := by
  cases e : lastSlash file with
  | none =>
    have hs := slash_none e
    refine ⟨['.', '/', nul] ++ dirMem.drop 3, (file ++ [nul]) ++ nameMem.drop (file ++ [nul]).length, ['.', '/'], file, ?_, ?_, ?_, hs, ?_, fun h => absurd h hs⟩
    · unfold dirAndName
      rw [e]
      simp only
      rw [store_fits (by simp; omega), store_fits (by simpa using h1')]
      rfl
    · exact text_stored (w := ['.', '/']) (by decide)
    · exact text_stored hfile
    · unfold resolve
      rw [show ['.', '/'] ++ file = ['.'] ++ '/' :: file from rfl, parts_append, List.filter_append, if_neg (by simp), if_neg (show ¬ file.head? = some '/' from fun h => hs (List.mem_of_mem_head? h))]
      rfl
  | some k =>
    obtain ⟨a, b, ef, el, hs⟩ := slash_some e
    have la : file.length = a.length + 1 + b.length := by rw [ef]; simp; omega
    have tk : file.take (k + 1) = a ++ ['/'] := by rw [ef, ← el, show a ++ '/' :: b = (a ++ ['/']) ++ b by simp, show a.length + 1 = (a ++ ['/']).length by simp, List.take_left]
    have dk : file.drop (k + 1) = b := by rw [ef, ← el, show a ++ '/' :: b = (a ++ ['/']) ++ b by simp, show a.length + 1 = (a ++ ['/']).length by simp, List.drop_left]
    have na : nul ∉ a ++ ['/'] := by
      intro h
      apply hfile
      rw [ef, show a ++ '/' :: b = (a ++ ['/']) ++ b by simp]
      exact List.mem_append_left _ h
    have nb : nul ∉ b := fun h => hfile (by rw [ef]; exact List.mem_append_right _ (List.mem_cons_of_mem _ h))
    refine ⟨(a ++ ['/']) ++ dirMem.drop (a ++ ['/']).length, (b ++ [nul]) ++ nameMem.drop (b ++ [nul]).length, a ++ ['/'], b, ?_, ?_, ?_, hs, by rw [ef]; simp, fun _ => by rw [ef]; simp⟩
    · unfold dirAndName
      rw [e]
      simp only
      rw [dk, tk, store_fits (by simp; omega), store_fits (by simp; omega)]
    · have hd : dirMem.drop (a ++ ['/']).length = nul :: dirMem.drop ((a ++ ['/']).length + 1) := by
        have := hz k e
        rw [List.getElem?_eq_some_iff] at this
        obtain ⟨hl, hv⟩ := this
        rw [show (a ++ ['/']).length = k + 1 by simp [el], List.drop_eq_getElem_cons hl, hv]
        rfl
      rw [hd, show ∀ u v : List Char, u ++ nul :: v = (u ++ [nul]) ++ v by simp]
      exact text_stored na
    · exact text_stored nb

/-- `strncpy` leaves the directory without end: with any other byte behind it, what is stored as `atm_mosaic_dir` is not the directory. -/
theorem C150_coupler_wrong (file dirMem nameMem : List Char) (k : Nat) (hk : lastSlash file = some k) (h1 : file.length < dirMem.length)
    (h2 : file.length < nameMem.length) (c : Char) (hz : dirMem[k + 1]? = some c) (hc : c ≠ Char.ofNat 0) :
    ∃ d n, dirAndName file dirMem nameMem = some (d, n) ∧ text d ≠ some (file.take (k + 1)) := by
  obtain ⟨a, b, ef, el, hs⟩ := slash_some hk
  have la : file.length = a.length + 1 + b.length := by rw [ef]; simp; omega
  have tk : file.take (k + 1) = a ++ ['/'] := by rw [ef, ← el, show a ++ '/' :: b = (a ++ ['/']) ++ b by simp, show a.length + 1 = (a ++ ['/']).length by simp, List.take_left]
  have dk : file.drop (k + 1) = b := by rw [ef, ← el, show a ++ '/' :: b = (a ++ ['/']) ++ b by simp, show a.length + 1 = (a ++ ['/']).length by simp, List.drop_left]
  refine ⟨(a ++ ['/']) ++ dirMem.drop (a ++ ['/']).length, (b ++ [nul]) ++ nameMem.drop (b ++ [nul]).length, ?_, ?_⟩
  · unfold dirAndName
    rw [hk]
    simp only
    rw [dk, tk, store_fits (by simp; omega), store_fits (by simp; omega)]
  · have hd : dirMem.drop (a ++ ['/']).length = c :: dirMem.drop ((a ++ ['/']).length + 1) := by
      rw [List.getElem?_eq_some_iff] at hz
      obtain ⟨hl, hv⟩ := hz
      rw [show (a ++ ['/']).length = k + 1 by simp [el], List.drop_eq_getElem_cons hl, hv]
    rw [hd, tk]
    unfold text
    split_ifs with hm
    · intro h
      simp only [Option.some.injEq] at h
      by_cases ha : nul ∈ a ++ ['/']
      · rw [← h] at ha
        have q : ∀ l : List Char, nul ∉ l.takeWhile (· ≠ nul) := by
          intro l
          induction l with
          | nil => simp
          | cons x xs ih =>
            by_cases hx : x = nul
            · simp [hx]
            · rw [List.takeWhile_cons_of_pos (by simpa using hx)]
              simp only [List.mem_cons, not_or]
              exact ⟨fun e => hx e.symm, ih⟩
        exact q _ ha
      · have : ((a ++ ['/']) ++ c :: dirMem.drop ((a ++ ['/']).length + 1)).takeWhile (· ≠ nul) = (a ++ ['/']) ++ (c :: dirMem.drop ((a ++ ['/']).length + 1)).takeWhile (· ≠ nul) := by
          rw [List.takeWhile_append_of_pos]
          intro x hx
          simp only [decide_eq_true_eq]
          exact fun e => ha (e ▸ hx)
        rw [this, List.takeWhile_cons_of_pos (by rw [decide_eq_true_eq]; exact hc)] at h
        have := congrArg List.length h
        simp at this
    · simp

/-- `./grid/mosaic.nc`, and an array full of `x` with zero at its end. -/
example : ∃ d n, dirAndName "grid/mosaic.nc".toList (List.replicate 254 'x' ++ [nul]) (List.replicate 255 'x') = some (d, n) ∧ text d ≠ some ("grid/".toList) :=
  C150_coupler_wrong "grid/mosaic.nc".toList _ _ 4 (by decide) (by rw [List.length_append, List.length_replicate]; decide) (by rw [List.length_replicate]; decide) 'x' (by decide) (by decide)

end Verif
