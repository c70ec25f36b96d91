import Verif.WM.Machine
/-!
# The lock-free queues of nodes under the C++ memory model — model (C95)

`/repo/include/stdexec/__detail/__atomic_intrusive_queue.hpp` 42-88 (`push`, `pop_all`; used by run_loop) and
`/repo/include/exec/detail/atomic_intrusive_queue.hpp` 46-108 (`push_front`, `try_push_front`, `pop_all`, `pop_all_reversed`; used by
static_thread_pool and io_uring) on the machine of `Verif.WM.Machine`. Thread `t ≠ 0` pushes node `t`, once; any thread may take
the whole list, again and again, and then walks along it, using each node (`make`, `make_reversed`: reading and writing its link;
then whatever it does with the node, such as executing and destroying it).
Simplifications: `prepend` (a chain of nodes pushed at once) is not modelled; the exchange of `stdexec`'s `pop_all` and the CAS of
`exec`'s `reset_head` are both a read-modify-write that writes null.
-/
namespace Verif.WmQueue

open Verif.WM

/-- The one atomic object. -/
inductive Loc
  | head
  deriving DecidableEq, Repr

inductive What
  /-- the producer writes node `n`, payload and link -/
  | put (n : Nat)
  /-- a consumer uses node `n` -/
  | use (n : Nat)
  | atom
  deriving DecidableEq, Repr

structure Acc where
  who : Nat
  what : What
  deriving DecidableEq, Repr

/-- Accesses to the same node conflict. -/
def conf (a b : Acc) : Bool :=
  match a.what, b.what with
  | .put i, .put j => i == j
  | .put i, .use j => i == j
  | .use i, .put j => i == j
  | .use i, .use j => i == j
  | _, _ => false

structure Cfg where
  /-- the CAS that pushes (acq_rel) -/
  ordPush : Ord
  /-- the exchange or CAS that takes the list (acquire, acq_rel) -/
  ordPop : Ord

inductive PC
  | idle
  /-- has read the head -/
  | got (old : Nat)
  /-- has written the node -/
  | ready (old : Nat)
  | pushed
  deriving DecidableEq, Repr

structure St where
  m : Mem Loc Acc
  pc : Nat → PC
  /-- the link of each node (not atomic) -/
  nxt : Nat → Nat
  /-- where thread `t` is in its walk; 0: no walk -/
  walk : Nat → Nat
  /-- the nodes thread `t` has used in its current (or last) walk -/
  vis : Nat → List Nat
  /-- all nodes used -/
  out : List Nat
  /-- ghost: newest message of the head -/
  kh : Nat
  /-- ghost: nodes pushed since the list was taken last, newest first -/
  pend : List Nat
  /-- ghost: what `pend` was when thread `t` took the list last -/
  batch : Nat → List Nat
  /-- ghost: what is left of it -/
  rest : Nat → List Nat

def init : St :=
  { m := .init fun _ => 0, pc := fun _ => .idle, nxt := fun _ => 0, walk := fun _ => 0, vis := fun _ => [], out := [], kh := 0
    pend := [], batch := fun _ => [], rest := fun _ => [] }

inductive Act
  /-- the producer goes on; a CAS succeeds -/
  | go (t ts : Nat)
  /-- a CAS fails -/
  | fail (t ts : Nat)
  /-- take the list -/
  | take (t ts : Nat)
  /-- next node of the walk -/
  | visit (t : Nat)
  deriving DecidableEq, Repr

/-- One step. -/
def step (c : Cfg) (s : St) : Act → Option St
  | .go t ts =>
    if t = 0 then none
    else match s.pc t with
    | .idle => (s.m.load conf .rlx t .head ts ⟨t, .atom⟩).map fun r => { s with m := r.2, pc := upd s.pc t (.got r.1) }
    | .got old => some { s with m := s.m.touch conf t ⟨t, .put t⟩, nxt := upd s.nxt t old, pc := upd s.pc t (.ready old) }
    | .ready old =>
      (s.m.rmw conf c.ordPush t .head ts (fun _ => t) ⟨t, .atom⟩).bind fun r =>
        if r.1 = old then some { s with m := r.2, pc := upd s.pc t .pushed, kh := ts + 1, pend := t :: s.pend } else none
    | .pushed => none
  | .fail t ts =>
    match s.pc t with
    | .ready _ => (s.m.load conf .rlx t .head ts ⟨t, .atom⟩).map fun r => { s with m := r.2, pc := upd s.pc t (.got r.1) }
    | _ => none
  | .take t ts =>
    if s.walk t = 0 then
      (s.m.rmw conf c.ordPop t .head ts (fun _ => 0) ⟨t, .atom⟩).map fun r =>
        { s with m := r.2, kh := ts + 1, walk := upd s.walk t r.1, vis := upd s.vis t [], batch := upd s.batch t s.pend,
                 rest := upd s.rest t s.pend, pend := [] }
    else none
  | .visit t =>
    if s.walk t = 0 then none
    else some { s with
                m := s.m.touch conf t ⟨t, .use (s.walk t)⟩, walk := upd s.walk t (s.nxt (s.walk t))
                vis := upd s.vis t (s.vis t ++ [s.walk t]), out := s.out ++ [s.walk t], rest := upd s.rest t (s.rest t).tail }

abbrev Reachable (c : Cfg) (s : St) : Prop := Reach init (step c) s

end Verif.WmQueue
