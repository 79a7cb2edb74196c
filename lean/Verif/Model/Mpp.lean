/-
Message passing of lib/libfrencutils/mpp.c: `mpp_send_*` 165-200, `mpp_recv_*` 206-228,
`mpp_sync_self` 133-143.

A processor is a program over send / receive / wait-for-my-sends. A network state is one program per
processor and one FIFO queue per ordered pair of processors (MPI's non-overtaking rule for messages
with the same source, destination, communicator and tag; `tag` is the constant 1).

Two step relations are used.

* `strict = false`: any behaviour an MPI library may show. A send never blocks (the message is
  buffered), a wait for outstanding sends may return at any time.
* `strict = true`: only the moves that are certain to be possible. `MPI_Wait` on an outstanding send
  returns only once the message has been received (rendezvous), so `mpp_send` to a processor whose
  queue is not empty and `mpp_sync_self` with a non-empty outgoing queue have to wait.

`mpp_sync` (a barrier, used only at the end of `mpp_global_field_double_3D`) is not modelled.
-/
namespace Verif

/-- The communication behaviour of one processor. `β` is its result. -/
inductive Prog (α β : Type) where
  | done (b : β)
  /-- `mpp_send_*(data, size, dst)` (mpp.c 165-200) -/
  | send (dst : Nat) (m : List α) (k : Prog α β)
  /-- `mpp_recv_*(data, size, src)` (mpp.c 206-228) -/
  | recv (src : Nat) (k : List α → Prog α β)
  /-- `mpp_sync_self()` (mpp.c 133-143) -/
  | sync (k : Prog α β)

/-- State of all processors and all queues; `chan p q` holds the messages from `p` to `q` that were
sent and not received, oldest first. -/
@[ext] structure Net (α β : Type) where
  prog : Nat → Prog α β
  chan : Nat → Nat → List (List α)

/-- Function update. -/
def set1 {γ : Type} (f : Nat → γ) (p : Nat) (v : γ) : Nat → γ := fun x => if x = p then v else f x

/-- Two-argument function update. -/
def set2 {γ : Type} (f : Nat → Nat → γ) (p q : Nat) (v : γ) : Nat → Nat → γ :=
  fun x y => if x = p ∧ y = q then v else f x y

/-- One step of processor `p`. -/
inductive NStep {α β : Type} (strict : Bool) (p : Nat) : Net α β → Net α β → Prop
  | send (N : Net α β) (q : Nat) (m : List α) (k : Prog α β) (h : N.prog p = .send q m k)
      (hs : strict = true → N.chan p q = []) :
      NStep strict p N ⟨set1 N.prog p k, set2 N.chan p q (N.chan p q ++ [m])⟩
  | recv (N : Net α β) (q : Nat) (k : List α → Prog α β) (m : List α) (rest : List (List α))
      (h : N.prog p = .recv q k) (hc : N.chan q p = m :: rest) :
      NStep strict p N ⟨set1 N.prog p (k m), set2 N.chan q p rest⟩
  | sync (N : Net α β) (k : Prog α β) (h : N.prog p = .sync k)
      (hs : strict = true → ∀ q, N.chan p q = []) :
      NStep strict p N ⟨set1 N.prog p k, N.chan⟩

/-- `Exec strict n N N'`: the network can go from `N` to `N'` in `n` steps of any processors in any
order. -/
inductive Exec {α β : Type} (strict : Bool) : Nat → Net α β → Net α β → Prop
  | nil (N : Net α β) : Exec strict 0 N N
  | cons {n : Nat} {N N' N'' : Net α β} (p : Nat) (h : NStep strict p N N')
      (t : Exec strict n N' N'') : Exec strict (n + 1) N N''

/-- Every processor has finished. -/
def Net.AllDone {α β : Type} (N : Net α β) : Prop := ∀ p, ∃ b, N.prog p = .done b

/-- Start state: no message is in flight. -/
def Net.start {α β : Type} (prog : Nat → Prog α β) : Net α β := ⟨prog, fun _ _ => []⟩

/-- A loop `for(p = 0; p < npes; p++) if(sel p) mpp_send(m p, p)`, then `k`. -/
def sendLoop {α β : Type} (sel : Nat → Bool) (m : Nat → List α) (k : Prog α β) :
    List Nat → Prog α β
  | [] => k
  | p :: ps => if sel p then .send p (m p) (sendLoop sel m k ps) else sendLoop sel m k ps

/-- A loop `for(p = 0; p < npes; p++) if(sel p) { mpp_recv(buf, p); use(buf) } else local(p)`, then
`k`, with a local state `s`. -/
def recvLoop {α β σ : Type} (sel : Nat → Bool) (use : σ → Nat → List α → σ) (loc : σ → Nat → σ)
    (k : σ → Prog α β) : List Nat → σ → Prog α β
  | [], s => k s
  | p :: ps, s =>
    if sel p then .recv p (fun m => recvLoop sel use loc k ps (use s p m))
    else recvLoop sel use loc k ps (loc s p)

/-- What `recvLoop` computes when the message from `p` is `m p`. -/
def recvFold {α σ : Type} (sel : Nat → Bool) (use : σ → Nat → List α → σ) (loc : σ → Nat → σ)
    (m : Nat → List α) (ps : List Nat) (s : σ) : σ :=
  ps.foldl (fun s p => if sel p then use s p (m p) else loc s p) s

end Verif
