import Verif.Common
import Verif.ListSum
/-!
# `split` / `ensure_started` — model (C22, C23)

Models `/repo/include/exec/detail/shared.hpp`: `__local_state` 145-252 (`start` 167-199, the stop callback 202-228,
`__notify` 234-244, destructor 159-165), `__shared_state_base` 256-335 (`__complete` 271-291, `__notify_waiters`
295-322), `__shared_state` 342-448 (`__set_started` 354-366, `__try_start` 370-392, `__try_add_waiter` 394-417,
`__detach` 419-430, `__set_completed` 432-435), `__sndr` 481-540; `/repo/include/exec/ensure_started.hpp` 58-72.

Any number of consumers; a consumer is a sender copy, then the operation state connected from it. Each holds one
reference to the shared state; `refs` is the use count of the `std::shared_ptr` (an atomic counter), `startedRef`
says whether `__started_ref_` holds a reference. One step per atomic access; a critical section under `__mutex_` is
one step. Stop callbacks follow the contract proved in C02-C04 (destroying one waits for a running invocation). The
shared operation completes at any time after it was started, on any thread, including inline.
Simplifications: the intrusive list of waiters is a list of consumers (`Verif.SList` treats the pointers);
`shared_from_this` in `__set_started` and the store into `__started_ref_` are one step.
-/
namespace Verif.Shared

inductive Res
  | value (v : Nat)
  | error (e : Nat)
  | stopped
  | exn
  deriving DecidableEq, Repr

/-- Why a consumer detaches: `start` gives up, the stop callback, or the destructor of a sender / operation state. -/
inductive Why
  | start | cb | dtor
  deriving DecidableEq, Repr

inductive Pc
  | unborn
  /-- a sender, or an operation state not yet started -/
  | holder
  /-- stop callback constructed, about to test the stop token (183) -/
  | check
  /-- about to `test_and_set` `__started_` (356); `eager`: called by `ensure_started` -/
  | tryStart (eager : Bool)
  /-- about to set `__started_ref_` (360) -/
  | setRef (eager : Bool)
  /-- about to test the shared stop source and start the operation (378-390) -/
  | startOp (eager : Bool)
  /-- about to run `__try_add_waiter` (186, 394) -/
  | addWaiter
  /-- in the list of waiters -/
  | waiting
  /-- `__notify` called from `__try_add_waiter` (402) -/
  | notifySelf
  /-- about to reset the stop callback after a stop request (196) -/
  | rst
  /-- in `__detach`: about to load `__started_ref_` (422) -/
  | det (w : Why)
  /-- about to read the use count (426); `ptr`: the loaded pointer is not null -/
  | use (w : Why) (ptr : Bool)
  /-- about to release the loaded pointer -/
  | dropP (w : Why)
  /-- about to release the consumer's own reference -/
  | drop (w : Why)
  /-- about to complete with stopped (198, 227) -/
  | fin (w : Why)
  /-- completed; the operation state still holds its reference -/
  | doneHeld
  /-- completed; reference released -/
  | done
  | gone
  deriving DecidableEq, Repr

/-- The stop callback of a consumer. -/
inductive Cb
  | none
  | armed
  /-- running, about to lock and remove (207-219) -/
  | lock
  /-- running, removed the consumer from the list; `pc` follows -/
  | busy
  /-- about to return -/
  | ret
  | off
  deriving DecidableEq, Repr

/-- The shared operation. -/
inductive Op
  | notStarted
  | running
  /-- result stored, about to swap the list (300-303) -/
  | swap
  /-- notifying the swapped-out waiters (306-316) -/
  | notifying
  | done
  deriving DecidableEq, Repr

structure St where
  /-- `none`: the tombstone -/
  waiters : Option (List Nat) := some []
  pc : Nat → Pc := fun i => if i = 0 then .holder else .unborn
  cb : Nat → Cb := fun _ => .none
  /-- stop requested on the consumer's token -/
  stopReq : Nat → Bool := fun _ => false
  startedFlag : Bool := false
  startedRef : Bool := false
  refs : Nat := 1
  op : Op := .notStarted
  todo : List Nat := []
  result : Res := .stopped
  /-- stop requested on the shared operation -/
  workStop : Bool := false
  -- ghost
  agents : List Nat := [0]
  results : Nat → List Res := fun _ => []
  begun : Nat → Bool := fun _ => false
  starts : Nat := 0
  destroyed : Bool := false
  uaf : Bool := false
  /-- two consumers were detaching at the same time -/
  overlap : Bool := false

inductive Act
  | copy (i j : Nat)
  | eager (i : Nat)
  | start (i : Nat)
  | destroy (i : Nat)
  | stop (i : Nat)
  | step (i : Nat)
  | cb (i : Nat)
  /-- the shared operation completes; storing the result may throw -/
  | complete (r : Res) (throws : Bool)
  /-- the completing thread moves -/
  | notify
  deriving DecidableEq, Repr

def touch (s : St) : St := { s with uaf := s.uaf || s.destroyed }

/-- Release one reference. -/
def release (s : St) : St := { s with refs := s.refs - 1, destroyed := s.destroyed || s.refs == 1 }

def setPc (s : St) (i : Nat) (p : Pc) : St := { s with pc := upd s.pc i p }

/-- Within `__detach` or just releasing. -/
def Pc.detaching : Pc → Bool
  | .det _ | .use _ _ | .dropP _ | .drop _ => true
  | _ => false

/-- Enter `__detach`. -/
def beginDet (s : St) (i : Nat) (w : Why) : St :=
  { s with pc := upd s.pc i (.det w), overlap := s.overlap || s.agents.any fun j => j != i && (s.pc j).detaching }

/-- Resetting the stop callback does not block. -/
def cbIdle (c : Cb) : Bool :=
  match c with
  | .lock | .busy | .ret => false
  | _ => true

def deliver (s : St) (i : Nat) (r : Res) : St := { s with results := upd s.results i (s.results i ++ [r]) }

def afterDrop (w : Why) : Pc :=
  match w with
  | .dtor => .gone
  | w => .fin w

def stepC (s : St) (i : Nat) : Option St :=
  match s.pc i with
  | .check => if s.stopReq i then some (setPc s i .rst) else some (setPc s i (.tryStart false))
  | .tryStart e =>
    let s := touch s
    if s.startedFlag then some (setPc s i (if e then .holder else .addWaiter))
    else some { setPc s i (.setRef e) with startedFlag := true }
  | .setRef e => some { setPc (touch s) i (.startOp e) with startedRef := true, refs := s.refs + 1 }
  | .startOp e =>
    let s := setPc (touch s) i (if e then .holder else .addWaiter)
    if s.workStop then some { s with op := .swap } else some { s with op := .running, starts := s.starts + 1 }
  | .addWaiter =>
    let s := touch s
    match s.waiters with
    | none => some (setPc s i .notifySelf)
    | some l =>
      if s.stopReq i then some (setPc s i .rst)
      else some { setPc s i .waiting with waiters := some (i :: l) }
  | .notifySelf =>
    if cbIdle (s.cb i) then
      some { setPc (deliver (touch s) i s.result) i .doneHeld with cb := upd s.cb i .off }
    else none
  | .rst => if cbIdle (s.cb i) then some { beginDet s i .start with cb := upd s.cb i .off } else none
  | .det w =>
    if s.startedRef then some { setPc (touch s) i (.use w true) with refs := s.refs + 1 }
    else some (setPc (touch s) i (.use w false))
  | .use w ptr =>
    if ptr then
      if s.refs = 3 then some { setPc (touch s) i (.dropP w) with workStop := true }
      else some (setPc s i (.dropP w))
    else some (setPc s i (.drop w))
  | .dropP w => some (setPc (release s) i (.drop w))
  | .drop w => some (setPc (release s) i (afterDrop w))
  | .fin w =>
    let s := setPc (deliver s i .stopped) i .done
    match w with
    | .cb => some { s with cb := upd s.cb i .ret }
    | _ => some s
  | _ => none

def step (s : St) : Act → Option St
  | .copy i j =>
    if s.pc i = .holder ∧ s.pc j = .unborn then
      some { s with pc := upd s.pc j .holder, refs := s.refs + 1, agents := s.agents ++ [j] }
    else none
  | .eager i => if s.pc i = .holder then some (setPc s i (.tryStart true)) else none
  | .start i =>
    if s.pc i = .holder then
      some { (if s.stopReq i then touch s else s) with
        pc := upd s.pc i .check, cb := upd s.cb i (if s.stopReq i then .off else .armed), begun := upd s.begun i true }
    else none
  | .destroy i =>
    if s.pc i = .holder ∨ s.pc i = .doneHeld then some (beginDet s i .dtor)
    else if s.pc i = .done then some (setPc s i .gone) else none
  | .stop i =>
    if s.stopReq i = false then
      some { s with stopReq := upd s.stopReq i true, cb := if s.cb i = .armed then upd s.cb i .lock else s.cb }
    else none
  | .step i => stepC s i
  | .cb i => match s.cb i with
    | .lock =>
      let s := touch s
      match s.waiters with
      | some l =>
        if i ∈ l then some { beginDet s i .cb with waiters := some (l.erase i), cb := upd s.cb i .busy }
        else some { s with cb := upd s.cb i .ret }
      | none => some { s with cb := upd s.cb i .ret }
    | .ret => some { s with cb := upd s.cb i .off }
    | _ => none
  | .complete r throws =>
    if s.op = .running then some { touch s with op := .swap, result := if throws then .exn else r } else none
  | .notify => match s.op with
    | .swap =>
      let s := touch s
      some { s with op := .notifying, todo := s.waiters.getD [], waiters := none }
    | .notifying => match s.todo with
      | i :: l =>
        if cbIdle (s.cb i) then
          some { setPc (deliver (touch s) i s.result) i .doneHeld with cb := upd s.cb i .off, todo := l }
        else none
      | [] => some { release (touch s) with op := .done, startedRef := false }
    | _ => none

def init : St := {}
abbrev Reachable (s : St) : Prop := Reach init step s

end Verif.Shared
