import Verif.Common
/-!
# `async_scope::spawn_future` — model (C47)

Models `/repo/include/exec/async_scope.hpp`: `__future_step` 275-282, `__forward_stopped` 287-295,
`__future_opstate` 308-421 (`__complete_` 315-361, destructor 381-397, `start` 399-420), `__future_state_base` 477-529,
`__future_receiver` 531-609 (`__dispatch_result_` 535-556, `set_*` 576-602), `__future` 644-707 (defaulted move
assignment 655, destructor 657-674, constructor 698-703), `spawn_future` 826-833.

Agents: the *worker* (the thread that completes the spawned sender), the *owner* (holds the future, then the operation
state made from it), a thread that requests stop on the token of the receiver connected to the future, and a thread
that requests stop on the scope. Sequentially consistent; critical sections on `__mutex_` that contain no blocking
call are one step, the worker's contains `__forward_scope_.reset()` (546), which waits for a running callback, so it is
three steps and `lock` says it is being held.
Simplifications: one operation state per future (the sender is move-only); a completion is a number or stopped;
the exception paths (throwing locks) are left out; storing an exception instead of a value that throws while being
copied (569-573) is part of the choice of `c`.
-/
namespace Verif.AsyncFuture

inductive Compl
  | value (v : Nat)
  | error (e : Nat)
  | stopped
  deriving DecidableEq, Repr

/-- `__future_step` (275-282). -/
inductive Step
  | created | future | noFuture | deleted
  deriving DecidableEq, Repr

/-- Registration of a stop callback. `dead`: deregistered or finished. -/
inductive Cb
  | none | reg | running | dead
  deriving DecidableEq, Repr

/-- The worker. -/
inductive WPc
  /-- the spawned sender runs -/
  | working
  /-- holds the mutex, result stored and subscribers taken (580-581, 538) -/
  | stored
  /-- holds the mutex, scope callback reset (539) -/
  | reset
  /-- nobody waits: unlocked, about to delete the state (545-546) -/
  | delete
  /-- in `__complete_` of the subscribed operation -/
  | complete1 | complete2 | complete3
  | done
  deriving DecidableEq, Repr

/-- The owner. -/
inductive OPc
  /-- inside `spawn_future`, state made and work started -/
  | making
  /-- holds the future -/
  | future
  /-- destructor of the future or of the operation found a result: drop the callback, then delete the state -/
  | dropOwned | deleteOwned
  /-- destructor of the operation handed the state over: the callback is still registered -/
  | dropHanded
  /-- holds the operation state -/
  | op
  /-- `start` found a result: in `__complete_` -/
  | complete1 | complete2 | complete3
  /-- subscribed -/
  | waiting
  /-- its receiver was completed; may destroy the operation state -/
  | gone
  deriving DecidableEq, Repr

structure St where
  -- the shared state
  step : Step := .created
  lock : Bool := false
  data : Option Compl := none
  subs : Bool := false
  noFut : Bool := false
  /-- the state's own `__stop_source_` -/
  src : Bool := false
  /-- `__forward_scope_` -/
  scb : Cb := .reg
  -- environment
  /-- stop requested on the scope; this is what the token in the work's environment says (484-486) -/
  stopS : Bool := false
  /-- stop requested on the receiver's token -/
  stopR : Bool := false
  /-- `__forward_consumer_` -/
  rcb : Cb := .none
  wpc : WPc := .working
  opc : OPc := .making
  -- ghost
  alive : Bool := true
  deletes : Nat := 0
  uaf : Bool := false
  bad : Bool := false
  /-- completions of the receiver connected to the future -/
  log : List Compl := []
  /-- the future was assigned to -/
  assigned : Bool := false
  /-- the operation state was started -/
  started : Bool := false
  /-- the operation state was destroyed before the work completed -/
  abandoned : Bool := false
  deriving DecidableEq, Repr

inductive Act
  /-- the spawned sender completes -/
  | workCompletes (c : Compl)
  | worker
  | owner
  /-- the owner's choices -/
  | destroyFuture | assignFuture | connect | destroyOp | start
  /-- `request_stop` on the receiver's token; then its callback -/
  | stopR | runR | endR
  | stopS | runS | endS
  deriving DecidableEq, Repr

/-- An access to the shared state. -/
def touch (s : St) : St := { s with uaf := s.uaf || !s.alive }
/-- `delete` of the state; `~__future_state_base` (489-502): the step asserted is `created`, `future` or `deleted`. -/
def delete (s : St) : St :=
  { s with uaf := s.uaf || !s.alive, alive := false, deletes := s.deletes + 1, bad := s.bad || (s.step == .noFuture) }

/-- `__complete_` after the lock was taken (323-352): which signal the receiver gets. -/
def deliver (s : St) : St :=
  { s with
    uaf := s.uaf || !s.alive
    bad := s.bad || s.noFut || s.step != .future || (s.data == none && !s.stopR)
    log := s.log ++ [if s.stopR then .stopped else s.data.getD .stopped] }

def stepW (s : St) : Option St :=
  match s.wpc with
  | .working => none
  | .done => none
  | .stored => -- 539: waits for the callback if it is running
    if s.scb = .running then none else some { touch s with scb := .dead, wpc := .reset }
  | .reset =>
    if s.noFut then -- 540-545
      some { touch s with bad := s.bad || s.step != .noFuture, step := .deleted, lock := false, wpc := .delete }
    else -- 549-554
      some { touch s with lock := false, wpc := if s.subs then .complete1 else .done }
  | .delete => some { delete s with wpc := .done }
  | .complete1 => -- 319: waits for the callback if it is running
    if s.rcb = .running then none else some { s with rcb := .dead, wpc := .complete2 }
  | .complete2 => if s.lock then none else some { deliver s with wpc := .complete3, opc := .gone }
  | .complete3 => if s.lock then none else some { delete s with wpc := .done }

def stepO (s : St) : Option St :=
  match s.opc with
  | .making => -- 698-703
    if s.lock then none else
    some { touch s with bad := s.bad || s.step != .created, step := .future, opc := .future }
  | .dropOwned => if s.rcb = .running then none else some { s with rcb := .dead, opc := .deleteOwned }
  | .deleteOwned => if s.lock then none else some { delete s with opc := .gone }
  | .dropHanded => if s.rcb = .running then none else some { s with rcb := .dead, opc := .gone }
  | .complete1 => if s.rcb = .running then none else some { s with rcb := .dead, opc := .complete2 }
  | .complete2 => if s.lock then none else some { deliver s with opc := .complete3 }
  | .complete3 => if s.lock then none else some { delete s with opc := .gone }
  | .future | .op | .waiting | .gone => none

def step (s : St) : Act → Option St
  | .workCompletes c => -- 576-602, 565-566, 538
    if s.wpc = .working ∧ s.lock = false then
      some { touch s with lock := true, data := some c, wpc := .stored }
    else none
  | .worker => stepW s
  | .owner => stepO s
  | .destroyFuture => -- 657-674
    if s.opc = .future ∧ s.lock = false then
      if s.data ≠ none then some { touch s with opc := .deleteOwned }
      else some { touch s with noFut := true, bad := s.bad || s.step != .future, step := .noFuture, opc := .gone }
    else none
  | .assignFuture => -- 655: the unique_ptr's assignment deletes the state (its destructor locks the mutex)
    if s.opc = .future ∧ s.lock = false ∧ s.scb ≠ .running then
      some { delete s with scb := .dead, opc := .gone, assigned := true } else none
  | .connect => -- 367-379: constructing the callback runs it at once if stop was already requested
    if s.opc = .future then
      if s.stopR then some { touch s with src := true, rcb := .dead, opc := .op }
      else some { s with rcb := .reg, opc := .op }
    else none
  | .destroyOp => -- 381-397
    if s.opc = .op ∧ s.lock = false then
      if s.data ≠ none then some { touch s with opc := .dropOwned }
      else some { touch s with noFut := true, bad := s.bad || s.step != .future, step := .noFuture, opc := .dropHanded,
                               abandoned := true }
    else none
  | .start => -- 399-420
    if s.opc = .op ∧ s.lock = false then
      if s.data ≠ none then some { touch s with opc := .complete1, started := true }
      else some { touch s with subs := true, opc := .waiting, started := true }
    else none
  | .stopR => if s.stopR = false then
      some { s with stopR := true, rcb := if s.rcb = .reg then .running else s.rcb } else none
  | .runR => if s.rcb = .running ∧ s.src = false then some { touch s with src := true } else none
  | .endR => if s.rcb = .running ∧ s.src = true then some { touch s with rcb := .dead } else none
  | .stopS => if s.stopS = false then
      some { s with stopS := true, scb := if s.scb = .reg then .running else s.scb } else none
  | .runS => if s.scb = .running ∧ s.src = false then some { touch s with src := true } else none
  | .endS => if s.scb = .running ∧ s.src = true then some { touch s with scb := .dead } else none

def init : St := {}
abbrev Reachable (s : St) : Prop := Reach init step s

end Verif.AsyncFuture
