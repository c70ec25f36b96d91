import Verif.Common
/-!
# `__atomic_intrusive_queue` (C11), pointer level

Models `/repo/include/stdexec/__detail/__atomic_intrusive_queue.hpp` (`push`, `pop_all`) and
`/repo/include/exec/detail/atomic_intrusive_queue.hpp` (`push_front`, `try_push_front`, `prepend`,
`pop_all`, `pop_all_reversed`), together with `__intrusive_queue::make`, `make_reversed` and iteration
(`/repo/include/stdexec/__detail/__intrusive_queue.hpp` 71-103, 190-260).

Nodes and threads are natural numbers. Every load, store and compare-exchange of `__head_` and every
access to a node's `next` pointer is a separate step. Simplifications: sequential consistency;
`reset_head` (exec 92-101), whose CAS loop never uses the value it loaded, is one exchange; the read-only
tail search of `make` (94-102) is not a step; `notify_one` is in the `RunLoop` model.
-/
namespace Verif.AtomicQueue

/-- Who may access a node (ghost; only used to say what a legal client does). -/
inductive Own
  | free
  | prod (t : Nat)
  | inq
  | cons (i : Nat)
  deriving DecidableEq, Repr

/-- A producer inside `push` / `push_front` (`seg` is one node), `try_push_front` (`once`), or `prepend`
(`seg` is the passed queue from front to back). -/
inductive PPc
  | idle
  /-- about to load `__head_` (stdexec 50; exec 48, 56, 70) -/
  | load (seg : List Nat) (once : Bool)
  /-- about to write `old` to the next pointer of the last node (stdexec 53; exec 49, 59, 71, 76) -/
  | store (seg : List Nat) (once : Bool) (old : Option Nat)
  /-- about to compare-exchange `__head_` from `old` to the first node (stdexec 55; exec 50, 61, 72) -/
  | cas (seg : List Nat) (once : Bool) (old : Option Nat)
  deriving DecidableEq, Repr

/-- A consumer after its exchange of `__head_`. -/
inductive CPc
  | none
  /-- in the loop of `make_reversed` (`__intrusive_queue.hpp` 75-81): `__list`, `__new_head` -/
  | rev (cur prev : Option Nat)
  /-- iterating over the returned queue, `acc` = the items seen so far -/
  | walk (cur : Option Nat) (acc : List Nat)
  | done (acc : List Nat)
  deriving DecidableEq, Repr

structure St where
  head : Option Nat := Option.none
  next : Nat → Option Nat := fun _ => Option.none
  prod : Nat → PPc := fun _ => .idle
  /-- number of `pop_all` calls so far; call `i` is the one that exchanged `__head_` as number `i` -/
  pops : Nat := 0
  cons : Nat → CPc := fun _ => .none
  /-- was call `i` a reversing one (FIFO) -/
  fifo : Nat → Bool := fun _ => true
  /-- ghost: nodes in the order in which their push took effect -/
  effect : List Nat := []
  /-- ghost -/
  owner : Nat → Own := fun _ => .free
  /-- results of pushes: thread, success, reported "was empty" -/
  rets : List (Nat × Bool × Bool) := []

inductive Act
  /-- thread `t` calls `push`/`push_front` (`seg = [n]`), `try_push_front` (`[n]`, `once`) or `prepend` -/
  | call (t : Nat) (seg : List Nat) (once : Bool)
  | load (t : Nat)
  | store (t : Nat)
  /-- compare-exchange; `ok = false` is a failure, spurious ones (weak) included -/
  | cas (t : Nat) (ok : Bool)
  /-- someone calls `pop_all`; `fifo` = it reverses (stdexec `pop_all`, exec `pop_all_reversed`) -/
  | pop (fifo : Bool)
  /-- the caller of `pop_all` number `i` goes on -/
  | cons (i : Nat)

/-- A queue built by the caller: its nodes are linked from front to back. -/
def link (next : Nat → Option Nat) : List Nat → (Nat → Option Nat)
  | a :: b :: l => link (upd next a (some b)) (b :: l)
  | _ => next

/-- Give a list of nodes to an owner. -/
def give (owner : Nat → Own) (l : List Nat) (o : Own) : Nat → Own :=
  fun n => if n ∈ l then o else owner n

def step (s : St) (a : Act) : Option St :=
  match a with
  | .call t seg once =>
    if s.prod t = .idle ∧ seg ≠ [] ∧ seg.Nodup ∧ (∀ n ∈ seg, s.owner n = .free) then
      some { s with prod := upd s.prod t (.load seg once), next := link s.next seg
                    owner := give s.owner seg (.prod t) }
    else none
  | .load t => match s.prod t with
    | .load seg once => some { s with prod := upd s.prod t (.store seg once s.head) }
    | _ => none
  | .store t => match s.prod t with
    | .store seg once old =>
      some { s with prod := upd s.prod t (.cas seg once old)
                    next := match seg.getLast? with
                      | some n => upd s.next n old
                      | none => s.next }
    | _ => none
  | .cas t ok => match s.prod t with
    | .cas seg once old =>
      if ok then
        if s.head = old then
          some { s with prod := upd s.prod t .idle, head := seg.head?, effect := s.effect ++ seg.reverse
                        owner := give s.owner seg .inq, rets := s.rets ++ [(t, true, old == none)] }
        else none
      else if once then
        if s.head = old then none   -- compare_exchange_strong does not fail spuriously
        else some { s with prod := upd s.prod t .idle, owner := give s.owner seg .free
                           rets := s.rets ++ [(t, false, s.head == none)] }
      else some { s with prod := upd s.prod t (.store seg once s.head) }
    | _ => none
  | .pop fifo =>
      some { s with head := none, pops := s.pops + 1
                    cons := upd s.cons s.pops (if fifo then .rev s.head none else .walk s.head [])
                    fifo := upd s.fifo s.pops fifo
                    owner := fun n => if s.owner n = .inq then .cons s.pops else s.owner n }
  | .cons i => match s.cons i with
    | .rev (some n) prev =>
        some { s with cons := upd s.cons i (.rev (s.next n) (some n)), next := upd s.next n prev }
    | .rev none prev => some { s with cons := upd s.cons i (.walk prev []) }
    | .walk (some n) acc =>
        some { s with cons := upd s.cons i (.walk (s.next n) (acc ++ [n])), owner := upd s.owner n .free }
    | .walk none acc => some { s with cons := upd s.cons i (.done acc) }
    | _ => none

def init : St := {}
abbrev Reachable (s : St) : Prop := Reach init step s

end Verif.AtomicQueue
