import Verif.Model.Affinity
/-
C153: cores of processes and threads.
-/
namespace Verif
open Affinity

namespace Spec.Affinity
/-- The cores of a mask in increasing order, `k` numbers from `c`. -/
def cores (m : Mask) (c k : Nat) : List Nat := (List.range' c k).filter m
end Spec.Affinity
open Spec.Affinity

private theorem cores_cons (m : Mask) (c k : Nat) : cores m c (k + 1) = if m c then c :: cores m (c + 1) k else cores m (c + 1) k := by
  unfold cores
  rw [List.range'_succ, List.filter_cons]

private theorem first_eq (m : Mask) : ∀ (k c : Nat), firstFrom m k c = match cores m c k with | [] => -1 | x :: _ => (x : Int)
  | 0, _ => rfl
  | k + 1, c => by
    rw [firstFrom, cores_cons]
    by_cases h : m c = true
    · rw [if_pos h, if_pos h]
    · rw [if_neg h, if_neg h, first_eq m k (c + 1)]

private theorem fill_ok (m : Mask) (fsz : Nat) : ∀ (k c : Nat) (done rest : List Nat), (cores m c k).length ≤ rest.length → done.length + (cores m c k).length ≤ fsz + 1 →
    fill m fsz k c done.length (done ++ rest) = some (((done.length + (cores m c k).length : Nat) : Int), done ++ cores m c k ++ rest.drop (cores m c k).length)
  | 0, c, done, rest, _, _ => by simp [fill, cores]
  | k + 1, c, done, rest, hr, hf => by
    rw [fill]
    rw [cores_cons] at hr hf ⊢
    by_cases h : m c = true
    · rw [if_pos h] at hr hf ⊢
      rw [if_pos h]
      rw [List.length_cons] at hr hf
      cases rest with
      | nil => simp at hr
      | cons r rs =>
        rw [if_neg (by omega), if_pos (by rw [List.length_append, List.length_cons]; omega)]
        have ih := fill_ok m fsz k (c + 1) (done ++ [c]) rs (by rw [List.length_cons] at hr; omega) (by rw [List.length_append, List.length_singleton]; omega)
        rw [List.length_append, List.length_singleton] at ih
        have e : (done ++ r :: rs).set done.length c = done ++ [c] ++ rs := by simp
        rw [e, ih]
        simp
        omega
    · rw [if_neg h] at hr hf ⊢
      rw [if_neg h]
      exact fill_ok m fsz k (c + 1) done rest hr hf

private theorem fill_over (m : Mask) (fsz : Nat) : ∀ (k c count : Nat) (out : List Nat), out.length = fsz → count ≤ fsz → fsz < count + (cores m c k).length → fill m fsz k c count out = none
  | 0, c, count, out, _, h1, h2 => by simp [cores] at h2; omega
  | k + 1, c, count, out, h0, h1, h2 => by
    rw [fill]
    rw [cores_cons] at h2
    by_cases h : m c = true
    · rw [if_pos h] at h2 ⊢
      rw [if_neg (by omega)]
      by_cases q : count < out.length
      · rw [if_pos q]
        rw [List.length_cons] at h2
        exact fill_over m fsz k (c + 1) (count + 1) _ (by rw [List.length_set, h0]) (by omega) (by omega)
      · rw [if_neg q]
    · rw [if_neg h] at h2 ⊢
      exact fill_over m fsz k (c + 1) count out h0 h1 h2

/-- A thread bound to one core gets the number of this core, a thread without cores -1. -/
theorem C153_affinity_partial (m : Mask) :
    (∀ c, cores m 0 1024 = [c] → getAffinity m = c) ∧ (cores m 0 1024 = [] → getAffinity m = -1) := by
  constructor
  · intro c h; unfold getAffinity setSize; rw [first_eq, h]
  · intro h; unfold getAffinity setSize; rw [first_eq, h]

/-- A thread that is not bound to a single core gets its first core, not -1. -/
theorem C153_affinity_wrong (m : Mask) (a b : Nat) (rest : List Nat) (h : cores m 0 1024 = a :: b :: rest) : getAffinity m = a := by
  unfold getAffinity setSize; rw [first_eq, h]

/-- If the array has room for all cores of the thread, it begins with them in increasing order and their number is returned; the rest of the array is as before. -/
theorem C153_cpuset_partial (m : Mask) (fsz : Nat) (out : List Nat) (ho : out.length = fsz) (h : (cores m 0 1024).length ≤ fsz) :
    getCpuset m fsz out = some (((cores m 0 1024).length : Int), cores m 0 1024 ++ out.drop (cores m 0 1024).length) := by
  have := fill_ok m fsz 1024 0 [] out (by omega) (by simp; omega)
  simpa [getCpuset, setSize] using this

/-- If it has not, a core is written behind the array before the error is found. -/
theorem C153_cpuset_wrong (m : Mask) (fsz : Nat) (out : List Nat) (ho : out.length = fsz) (h : fsz < (cores m 0 1024).length) : getCpuset m fsz out = none :=
  fill_over m fsz 1024 0 0 out ho (Nat.zero_le _) (by rw [Nat.zero_add]; exact h)

private theorem pinned {permitted m : Mask} {a : Nat} {l : List Nat} {k : Nat} (h : cores m 0 1024 = a :: l) (hk : a + k < 1024) (hp : permitted (a + k) = true) (c : Nat) :
    threadMask permitted m k c = true ↔ c = a + k := by
  have e : getAffinity m = a := by unfold getAffinity setSize; rw [first_eq, h]
  unfold threadMask setAffinity
  rw [e, if_pos ⟨by omega, by unfold setSize; omega, by rw [show ((a : Int) + (k : Int)).toNat = a + k by omega]; exact hp⟩]
  simp only [decide_eq_true_eq]
  omega

/-- If the process has at least as many neighbouring cores from its first one as threads, each thread gets one core of the process and no two threads the same one. -/
theorem C153_threads_partial (permitted m : Mask) (a : Nat) (l : List Nat) (threads : Nat) (h : cores m 0 1024 = a :: l) (hs : a + threads ≤ 1024)
    (hm : ∀ k, k < threads → m (a + k) = true) (hp : ∀ c, m c = true → permitted c = true) :
    (∀ k, k < threads → ∃ c, m c = true ∧ ∀ d, threadMask permitted m k d = true ↔ d = c) ∧
    (∀ j k c, j < threads → k < threads → threadMask permitted m j c = true → threadMask permitted m k c = true → j = k) := by
  constructor
  · intro k hk
    exact ⟨a + k, hm k hk, fun d => pinned h (by omega) (hp _ (hm k hk)) d⟩
  · intro j k c hj hk h1 h2
    have := (pinned h (by omega) (hp _ (hm j hj)) c).1 h1
    have := (pinned h (by omega) (hp _ (hm k hk)) c).1 h2
    omega

/-- A thread is bound to a core that the process was not given, if the system permits it. -/
theorem C153_outside_wrong (permitted m : Mask) (a : Nat) (l : List Nat) (k : Nat) (h : cores m 0 1024 = a :: l) (hk : a + k < 1024) (hm : m (a + k) = false) (hp : permitted (a + k) = true) :
    threadMask permitted m k (a + k) = true ∧ m (a + k) = false := ⟨(pinned h hk hp _).2 rfl, hm⟩

/-- A thread whose core does not exist, or is not permitted, keeps the cores it had. -/
theorem C153_not_permitted (permitted m : Mask) (a : Nat) (l : List Nat) (k : Nat) (h : cores m 0 1024 = a :: l) (hp : 1024 ≤ a + k ∨ permitted (a + k) = false) : threadMask permitted m k = m := by
  have e : getAffinity m = a := by unfold getAffinity setSize; rw [first_eq, h]
  unfold threadMask setAffinity setSize
  rw [e, if_neg]
  rintro ⟨_, h2, h3⟩
  rcases hp with q | q
  · omega
  · have : ((a : Int) + k).toNat = a + k := by omega
    rw [this, q] at h3
    exact Bool.false_ne_true h3

/-- Processes on one node that are not bound have the same mask: the threads with the same number share one core. -/
theorem C153_ranks_wrong (permitted m₁ m₂ : Mask) (a : Nat) (l₁ l₂ : List Nat) (h₁ : cores m₁ 0 1024 = a :: l₁) (h₂ : cores m₂ 0 1024 = a :: l₂) (k : Nat) (hk : a + k < 1024)
    (hp : permitted (a + k) = true) (c : Nat) : (threadMask permitted m₁ k c = true ↔ c = a + k) ∧ (threadMask permitted m₂ k c = true ↔ c = a + k) :=
  ⟨pinned h₁ hk hp c, pinned h₂ hk hp c⟩

/-- Cores 2, 3 and 5. -/
def c153Mask : Mask := fun c => c = 2 || c = 3 || c = 5

private theorem c153Cores : cores c153Mask 0 1024 = [2, 3, 5] := by decide +kernel

example : getAffinity c153Mask = 2 := C153_affinity_wrong _ 2 3 [5] c153Cores

example : getCpuset c153Mask 4 [9, 9, 9, 9] = some (3, [2, 3, 5, 9]) := by
  rw [C153_cpuset_partial c153Mask 4 _ rfl (by rw [c153Cores]; decide), c153Cores]; rfl

example : getCpuset c153Mask 2 [9, 9] = none := C153_cpuset_wrong _ 2 _ rfl (by rw [c153Cores]; decide)

/-- Two threads get the cores 2 and 3, a third one core 4, which is not in the mask. -/
example : (∀ k, k < 2 → ∃ c, c153Mask c = true ∧ ∀ d, threadMask (fun _ => true) c153Mask k d = true ↔ d = c) ∧ (threadMask (fun _ => true) c153Mask 2 4 = true ∧ c153Mask 4 = false) :=
  ⟨(C153_threads_partial (fun _ => true) c153Mask 2 [3, 5] 2 c153Cores (by decide) (by decide) (fun _ _ => rfl)).1,
   C153_outside_wrong (fun _ => true) c153Mask 2 [3, 5] 2 c153Cores (by decide) (by decide) rfl⟩

/-- Two processes with these cores: the first threads of both are bound to core 2. -/
example (c : Nat) : (threadMask c153Mask c153Mask 0 c = true ↔ c = 2 + 0) ∧ (threadMask c153Mask c153Mask 0 c = true ↔ c = 2 + 0) :=
  C153_ranks_wrong c153Mask c153Mask c153Mask 2 [3, 5] [3, 5] c153Cores c153Cores 0 (by decide) (by decide) c

/-- The third thread, if only these cores are permitted. -/
example : threadMask c153Mask c153Mask 2 = c153Mask := C153_not_permitted c153Mask c153Mask 2 [3, 5] 2 c153Cores (.inr rfl)

/-- A process with core 2 only. -/
example : getAffinity (fun c => c = 2) = 2 := (C153_affinity_partial _).1 2 (by decide +kernel)

end Verif
