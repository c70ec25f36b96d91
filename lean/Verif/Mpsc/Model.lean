import Verif.Common
/-!
# `__intrusive_mpsc_queue` (C12), pointer level

Models `/repo/include/stdexec/__detail/__intrusive_mpsc_queue.hpp` 33-105. Nodes are positive numbers, the
stub is node 0; any number of producer threads in `push_back`, one consumer in `pop_front`. Every access to
`__head_` or a `next` pointer is one step (`__tail_` is private to the consumer). Sequentially
consistent memory. Nodes may be pushed again after they were popped.
-/
namespace Verif.Mpsc

/-- A producer in `push_back` (50-56). -/
inductive PPc
  | idle
  /-- `next` of the new node has been set to null; about to exchange `__head_` (53) -/
  | exch (n : Nat)
  /-- exchanged, got `prev`; about to store `prev->next = n` (54) -/
  | link (n prev : Nat)
  /-- about to return `prev == &__stub_` (55) -/
  | ret (n prev : Nat)
  deriving DecidableEq, Repr

/-- The consumer in `pop_front` (58-104). -/
inductive CPc
  | idle
  /-- about to load `__tail->next` (62) -/
  | ld1
  /-- moved past the stub; about to load `__tail->next` (72) -/
  | ld2
  /-- `next` was null; about to load `__head_` (83) -/
  | hd
  /-- in `push_back(&__stub_)`: about to clear the stub's `next` (52) -/
  | st0
  /-- … about to exchange `__head_` (53) -/
  | st1
  /-- … about to store `prev->next = &__stub_` (54) -/
  | st2 (prev : Nat)
  /-- about to reload `__tail->next` (94) -/
  | ld3
  deriving DecidableEq, Repr

inductive Ev
  /-- `push_back(n)` returned the Boolean -/
  | pushRet (n : Nat) (wasEmpty : Bool)
  | popCall
  /-- `pop_front` returned a node, or null -/
  | popRet (n : Option Nat)
  deriving DecidableEq, Repr

structure St where
  head : Nat := 0
  tail : Nat := 0
  next : Nat → Option Nat := fun _ => none
  prod : Nat → PPc := fun _ => .idle
  cons : CPc := .idle
  log : List Ev := []
  /-- ghost: nodes in the order in which their `push_back` took effect (the exchange) -/
  effect : List Nat := []
  /-- nodes returned by `pop_front`, in order -/
  got : List Nat := []
  /-- ghost: nodes from tail to head in exchange order, the stub included -/
  seq : List Nat := [0]
  /-- ghost: successor in exchange order -/
  succ : Nat → Option Nat := fun _ => none
  /-- ghost: the node may not be used by clients -/
  busy : Nat → Bool := fun n => n == 0

inductive Act
  | push (t n : Nat)   -- thread `t` calls `push_back(n)`
  | prod (t : Nat)     -- thread `t` goes on
  | pop                -- the consumer calls `pop_front`
  | cons               -- the consumer goes on

/-- `pop_front` returns the tail node and moves on to `nx`. -/
def St.take (s : St) (nx : Nat) : St :=
  { s with tail := nx, cons := .idle, got := s.got ++ [s.tail], log := s.log ++ [.popRet (some s.tail)]
           seq := s.seq.tail, busy := upd s.busy s.tail false }

/-- `pop_front` returns null. -/
def St.null (s : St) : St := { s with cons := .idle, log := s.log ++ [.popRet none] }

def step (s : St) (a : Act) : Option St :=
  match a with
  | .push t n =>
    if s.prod t = .idle ∧ s.busy n = false then
      some { s with prod := upd s.prod t (.exch n), next := upd s.next n none, busy := upd s.busy n true }
    else none
  | .prod t => match s.prod t with
    | .exch n =>
        some { s with head := n, prod := upd s.prod t (.link n s.head), effect := s.effect ++ [n]
                      seq := s.seq ++ [n], succ := upd (upd s.succ s.head (some n)) n none }
    | .link n prev => some { s with next := upd s.next prev (some n), prod := upd s.prod t (.ret n prev) }
    | .ret n prev => some { s with prod := upd s.prod t .idle, log := s.log ++ [.pushRet n (prev == 0)] }
    | .idle => none
  | .pop => if s.cons = .idle then some { s with cons := .ld1, log := s.log ++ [.popCall] } else none
  | .cons => match s.cons with
    | .idle => none
    | .ld1 =>
      if s.tail = 0 then match s.next 0 with
        | none => some s.null
        | some n => some { s with tail := n, cons := .ld2, seq := s.seq.tail, busy := upd s.busy 0 true }
      else match s.next s.tail with
        | some n => some (s.take n)
        | none => some { s with cons := .hd }
    | .ld2 => match s.next s.tail with
        | some n => some (s.take n)
        | none => some { s with cons := .hd }
    | .hd => if s.tail = s.head then some { s with cons := .st0 } else some s.null
    | .st0 => some { s with next := upd s.next 0 none, cons := .st1 }
    | .st1 => some { s with head := 0, cons := .st2 s.head
                            seq := s.seq ++ [0], succ := upd (upd s.succ s.head (some 0)) 0 none }
    | .st2 prev => some { s with next := upd s.next prev (some 0), cons := .ld3 }
    | .ld3 => match s.next s.tail with
        | some n => some (s.take n)
        | none => some s.null

def init : St := {}
abbrev Reachable (s : St) : Prop := Reach init step s

end Verif.Mpsc
