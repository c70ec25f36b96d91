import Verif.WM.Machine
/-!
# The intrusive MPSC queue under the C++ memory model — model (C96)

`/repo/include/stdexec/__detail/__intrusive_mpsc_queue.hpp` 36-104 (the command queue of `timed_thread_scheduler`) on the machine of
`Verif.WM.Machine`. Thread `n ≥ 1` pushes node `n`, once; thread 0 is the consumer, who calls `pop_front` again and again. Node 0 is
the stub. Pointers are numbers: null is 0, node `n` is `n + 1`.
-/
namespace Verif.WmMpsc

open Verif.WM

/-- The atomic objects: `__head_`, and the link of each node. -/
inductive Loc
  | head
  | next (n : Nat)
  deriving DecidableEq, Repr

inductive What
  /-- the producer writes node `n`'s payload -/
  | put (n : Nat)
  /-- the link of node `n` is accessed (atomically) -/
  | lnk (n : Nat)
  /-- the consumer has got node `n` and uses (and destroys) it -/
  | use (n : Nat)
  | atom
  deriving DecidableEq, Repr

structure Acc where
  who : Nat
  what : What
  deriving DecidableEq, Repr

/-- The access is to node `n`. -/
def What.on (n : Nat) : What → Bool
  | .put j => j == n
  | .lnk j => j == n
  | .use j => j == n
  | .atom => false

/-- Writing the payload and using the node conflict with every access to the node, accesses to its link not with each other. -/
def conf (a b : Acc) : Bool :=
  match a.what, b.what with
  | .put n, w => w.on n
  | .use n, w => w.on n
  | .lnk n, .put j => n == j
  | .lnk n, .use j => n == j
  | _, _ => false

structure Cfg where
  /-- the exchange of the head (:52, acq_rel) -/
  ordX : Ord
  /-- the store of the link (:53, release) -/
  ordL : Ord
  /-- the loads of links (:61, :71, :94, acquire) -/
  ordN : Ord
  /-- the load of the head (:82, acquire) -/
  ordH : Ord
  /-- the store that clears a link (:51, relaxed) -/
  ordZ : Ord

/-- Producers (`push_back`, :49-55). -/
inductive PC
  | idle
  /-- to clear the link -/
  | st
  /-- to exchange the head -/
  | ex
  /-- to link: the exchange gave node `x` -/
  | lk (x : Nat)
  | done
  deriving DecidableEq, Repr

/-- Consumer (`pop_front`, :57-102). -/
inductive CPC
  /-- called; to load the link of the tail (:61) -/
  | c0
  /-- the tail has moved past the stub; to load its link (:71) -/
  | c1
  /-- there is no next node; to load the head (:82) -/
  | c3
  /-- to clear the link of the stub (:91, :51) -/
  | c4
  /-- to exchange the head (:91, :52) -/
  | c5
  /-- to link the stub behind node `x` (:91, :53) -/
  | c6 (x : Nat)
  /-- to load the link of the tail again (:93) -/
  | c7
  /-- returned node `x`, which is used now -/
  | ret (x : Nat)
  deriving DecidableEq, Repr

structure St where
  m : Mem Loc Acc
  pc : Nat → PC
  c : CPC
  /-- `__tail_` -/
  tail : Nat
  /-- nodes returned and used -/
  out : List Nat
  /-- ghost: nodes in the order of the exchanges -/
  ord : List Nat
  /-- ghost: newest message of the head -/
  kh : Nat
  /-- ghost: node of each message of the head -/
  seq : Nat → Nat
  /-- ghost: message of the head written by each producer -/
  idx : Nat → Nat
  /-- ghost: message of the head whose node is the tail -/
  p : Nat
  /-- ghost: last message of the head with the stub -/
  sp : Nat
  /-- ghost: the node of message `j` has been linked to that of message `j + 1` -/
  lkd : Nat → Bool
  /-- ghost: newest message of each link -/
  kn : Nat → Nat

def init : St :=
  { m := .init fun l => match l with | .head => 1 | .next _ => 0
    pc := fun _ => .idle, c := .c0, tail := 0, out := [], ord := [], kh := 0, seq := fun _ => 0, idx := fun _ => 0, p := 0, sp := 0
    lkd := fun _ => false, kn := fun _ => 0 }

/-- Producer `n` (:49-55; before it, the node is written). -/
def stepP (c : Cfg) (s : St) (n ts : Nat) : Option St :=
  match s.pc n with
  | .idle => some { s with m := s.m.touch conf n ⟨n, .put n⟩, pc := upd s.pc n .st }
  | .st => (s.m.store conf c.ordZ n (.next n) ts 0 ⟨n, .lnk n⟩).map fun m => { s with m := m, pc := upd s.pc n .ex, kn := upd s.kn n ts }
  | .ex =>
    (s.m.rmw conf c.ordX n .head ts (fun _ => n + 1) ⟨n, .atom⟩).map fun r =>
      { s with m := r.2, pc := upd s.pc n (.lk (r.1 - 1)), ord := s.ord ++ [n], kh := ts + 1, seq := upd s.seq (ts + 1) n
               idx := upd s.idx n (ts + 1) }
  | .lk x =>
    (s.m.store conf c.ordL n (.next x) ts (n + 1) ⟨n, .lnk x⟩).map fun m =>
      { s with m := m, pc := upd s.pc n .done, lkd := upd s.lkd (s.idx n - 1) true, kn := upd s.kn x ts }
  | .done => none

/-- Consumer (:57-102). -/
def stepC (c : Cfg) (s : St) (ts : Nat) : Option St :=
  match s.c with
  | .c0 =>
    (s.m.load conf c.ordN 0 (.next s.tail) ts ⟨0, .lnk s.tail⟩).map fun r =>
      if r.1 = 0 then { s with m := r.2, c := if s.tail = 0 then .c0 else .c3 }
      else { s with m := r.2, c := if s.tail = 0 then .c1 else .ret s.tail, tail := r.1 - 1, p := s.p + 1 }
  | .c1 =>
    (s.m.load conf c.ordN 0 (.next s.tail) ts ⟨0, .lnk s.tail⟩).map fun r =>
      if r.1 = 0 then { s with m := r.2, c := .c3 }
      else { s with m := r.2, c := .ret s.tail, tail := r.1 - 1, p := s.p + 1 }
  | .c3 =>
    (s.m.load conf c.ordH 0 .head ts ⟨0, .atom⟩).map fun r =>
      { s with m := r.2, c := if r.1 = s.tail + 1 then .c4 else .c0 }
  | .c4 => (s.m.store conf c.ordZ 0 (.next 0) ts 0 ⟨0, .lnk 0⟩).map fun m => { s with m := m, c := .c5, kn := upd s.kn 0 ts }
  | .c5 =>
    (s.m.rmw conf c.ordX 0 .head ts (fun _ => 1) ⟨0, .atom⟩).map fun r =>
      { s with m := r.2, c := .c6 (r.1 - 1), kh := ts + 1, seq := upd s.seq (ts + 1) 0, sp := ts + 1 }
  | .c6 x =>
    (s.m.store conf c.ordL 0 (.next x) ts 1 ⟨0, .lnk x⟩).map fun m =>
      { s with m := m, c := .c7, lkd := upd s.lkd (s.sp - 1) true, kn := upd s.kn x ts }
  | .c7 =>
    (s.m.load conf c.ordN 0 (.next s.tail) ts ⟨0, .lnk s.tail⟩).map fun r =>
      if r.1 = 0 then { s with m := r.2, c := .c0 }
      else { s with m := r.2, c := .ret s.tail, tail := r.1 - 1, p := s.p + 1 }
  | .ret x => some { s with m := s.m.touch conf 0 ⟨0, .use x⟩, c := .c0, out := s.out ++ [x] }

/-- One step of thread `t`; `ts` is the message read or written. -/
def step (c : Cfg) (s : St) (a : Nat × Nat) : Option St :=
  if a.1 = 0 then stepC c s a.2 else stepP c s a.1 a.2

abbrev Reachable (c : Cfg) (s : St) : Prop := Reach init (step c) s

/-- The orders in the code. -/
def code : Cfg := ⟨.ar, .rel, .acq, .acq, .rlx⟩

end Verif.WmMpsc
