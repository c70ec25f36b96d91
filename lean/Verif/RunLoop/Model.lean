import Verif.Common
/-!
# `run_loop` (C06–C09)

Models `/repo/include/stdexec/__detail/__run_loop.hpp` 50-217 over the queue of
`__atomic_intrusive_queue.hpp`, taken here as an atomic stack (`push` = its successful CAS, `pop_all` =
its exchange; the pointer-level correctness of both is `Verif.AtomicQueue`, C11), with its
`notify_one`/`wait` as separate steps.

Agents: one call of `start()` per task (task = operation state, started at most once), any number of
calls of `finish()`, one call of `run()`. A `start()` made from inside a task executing on the loop is an
agent like any other: its steps may interleave with everything (a superset of what the C++ can do).
Simplifications: sequential consistency; `atomic::wait`'s check-and-block is one step (its contract);
`yield` is not a step.
-/
namespace Verif.RunLoop

/-- An entry of the queue: an operation state, or `__noop_task` (216). -/
inductive Item
  | task (n : Nat)
  | noop
  deriving DecidableEq, Repr

/-- A call of `__opstate_t::start` (161-165) for task `n`. -/
inductive SPc
  /-- not called -/
  | idle
  /-- `__task_count_->fetch_add(1)` done (163) -/
  | counted
  /-- the CAS of `push` succeeded on an empty queue; `notify_one` not yet called
  (`__atomic_intrusive_queue.hpp` 60-68) -/
  | notify
  | done
  deriving DecidableEq, Repr

/-- A call of `finish()` (89-109). -/
inductive FPc
  | idle
  /-- `fetch_add(2)` done (95) -/
  | counted
  /-- `__finishing_.exchange(true)` returned `false` (96) -/
  | first
  /-- `__finishing_.exchange(true)` returned `true` (96) -/
  | second
  /-- the noop was pushed onto an empty queue, `notify_one` pending (101) -/
  | notify
  /-- the noop was pushed; `fetch_sub(1)` pending (104) -/
  | pushed
  | done
  deriving DecidableEq, Repr

/-- The call of `run()` (62-86). `drain` tells the second loop from the first. -/
inductive RPc
  | notCalled
  /-- evaluating `while (!__finishing_.load())` (65) -/
  | test
  /-- in `__head_.wait(nullptr)`, about to (re)check the head (67) -/
  | check
  /-- blocked in `wait` (67) -/
  | asleep
  /-- about to call `pop_all` in `__execute_all` (173) -/
  | pop (drain : Bool)
  /-- executing the batch: tasks still to execute, number executed (184-192) -/
  | batch (drain : Bool) (todo : List Item) (k : Nat)
  /-- `__task_count_.load() == 0`? (79) -/
  | load
  | returned
  deriving DecidableEq, Repr

structure St where
  count : Nat := 0
  finishing : Bool := false
  /-- the queue, newest first -/
  q : List Item := []
  sp : Nat → SPc := fun _ => .idle
  fp : Nat → FPc := fun _ => .idle
  rp : RPc := .notCalled
  /-- stop requested on the token of task `n`'s receiver -/
  stop : Nat → Bool := fun _ => false
  /-- ghost: tasks whose `start()` has counted itself in, in order -/
  started : List Nat := []
  /-- ghost: `finish()` calls begun -/
  fins : List Nat := []
  /-- ghost: queue entries in the order in which their push took effect -/
  pushed : List Item := []
  /-- the queue entries executed, in order (all by the thread in `run`) -/
  executed : List Item := []
  /-- how the receiver of a task was completed: `true` = `set_stopped`, `false` = `set_value` -/
  compl : List (Nat × Bool) := []
  /-- ghost: some `start()`/`finish()` was called after `run()` returned -/
  late : Bool := false
  dead : Bool := false
  /-- some thread touched the loop after its destruction; who -/
  uafStart : Bool := false
  uafFinish : Bool := false

inductive Act
  | start (n : Nat)      -- next step of `start()` of task `n`
  | finish (f : Nat)     -- next step of `finish()` call `f`
  | run                  -- next step of `run()`
  | requestStop (n : Nat)
  | destroy              -- `~run_loop()`

/-- `notify_one` on the head. -/
def wake : RPc → RPc
  | .asleep => .check
  | p => p

/-- Executing one queue entry: 143-155 for a task, 210 for the noop. `stoppable n`: the receiver's stop
token can be stopped. -/
def execItem (stoppable : Nat → Bool) (s : St) (i : Item) : St :=
  match i with
  | .noop => { s with executed := s.executed ++ [.noop] }
  | .task n => { s with executed := s.executed ++ [.task n]
                        compl := s.compl ++ [(n, stoppable n && s.stop n)] }

/-- One step of `start()`. -/
def stepStart (s : St) (n : Nat) : Option St :=
  match s.sp n with
  | .idle => if s.dead then none else
      some { s with sp := upd s.sp n .counted, count := s.count + 1, started := s.started ++ [n]
                    late := s.late || s.rp == .returned }
  | .counted =>
      some { s with sp := upd s.sp n (if s.q = [] then .notify else .done), q := .task n :: s.q
                    pushed := s.pushed ++ [.task n], uafStart := s.uafStart || s.dead }
  | .notify => some { s with sp := upd s.sp n .done, rp := wake s.rp, uafStart := s.uafStart || s.dead }
  | .done => none

/-- One step of `finish()`. -/
def stepFinish (s : St) (f : Nat) : Option St :=
  match s.fp f with
  | .idle => if s.dead then none else
      some { s with fp := upd s.fp f .counted, count := s.count + 2, fins := s.fins ++ [f]
                    late := s.late || s.rp == .returned }
  | .counted =>
      some { s with fp := upd s.fp f (if s.finishing then .second else .first), finishing := true
                    uafFinish := s.uafFinish || s.dead }
  | .first =>
      some { s with fp := upd s.fp f (if s.q = [] then .notify else .pushed), q := .noop :: s.q
                    pushed := s.pushed ++ [.noop], uafFinish := s.uafFinish || s.dead }
  | .notify => some { s with fp := upd s.fp f .pushed, rp := wake s.rp, uafFinish := s.uafFinish || s.dead }
  | .pushed => some { s with fp := upd s.fp f .done, count := s.count - 1, uafFinish := s.uafFinish || s.dead }
  | .second => some { s with fp := upd s.fp f .done, count := s.count - 2, uafFinish := s.uafFinish || s.dead }
  | .done => none

/-- One step of `run()`. -/
def stepRun (stoppable : Nat → Bool) (s : St) : Option St :=
  match s.rp with
  | .notCalled => some { s with rp := .test }
  | .test => some { s with rp := if s.finishing then .pop true else .check }
  | .check => some { s with rp := if s.q = [] then .asleep else .pop false }
  | .asleep => none
  | .pop d =>
      some { s with q := [], rp := if s.q = [] then (if d then .load else .test) else .batch d s.q.reverse 0 }
  | .batch d (i :: l) k => some { execItem stoppable s i with rp := .batch d l (k + 1) }
  | .batch d [] k => some { s with count := s.count - k, rp := if d then .pop true else .test }
  | .load => some { s with rp := if s.count = 0 then .returned else .pop true }
  | .returned => none

def step (stoppable : Nat → Bool) (s : St) (a : Act) : Option St :=
  match a with
  | .start n => stepStart s n
  | .finish f => stepFinish s f
  | .run => stepRun stoppable s
  | .requestStop n => some { s with stop := upd s.stop n true }
  -- legal use: `run()` has returned, and nobody called `start()`/`finish()` since
  | .destroy => if s.rp = .returned ∧ s.late = false ∧ s.dead = false then some { s with dead := true } else none

def init : St := {}
abbrev Reachable (st : Nat → Bool) (s : St) : Prop := Reach init (step st) s

end Verif.RunLoop
