import Verif.Common
import Verif.ListSum
/-!
# A stoppable I/O operation of `exec::io_uring_context` (`__stoppable_task_facade`, `__stop_operation`)

One operation, its two stop callbacks (on the context's stop token and on the receiver's), and the driving thread of the
context. The context itself (request queue, rings, wake-up) is C55: here it takes the operation and its stop operation
from the queue in any order, and completes what is in the ring in any order.

All lines are of `exec/linux/io_uring_context.hpp`. Registering, invoking and removing a stop callback are single steps
except that removing one waits while it runs (C01-C04).
-/
namespace Verif.UringOp

/-- The two stop sources. -/
inductive Src
  | ctx   -- the context's
  | rcv   -- the receiver's
  deriving DecidableEq, Repr

/-- Where `__stop_operation::start` is (`:928-940`). -/
inductive CbPc
  | cas    -- before the compare-exchange of `__n_ops_` (`:930-933`)
  | push   -- before `context().submit(this)` (`:935`)
  | wake   -- before `context().wakeup()` (`:937`)
  deriving DecidableEq, Repr

/-- A stop callback. -/
inductive Cb
  | off                            -- not registered
  | armed
  | run (p : CbPc) (byDrv : Bool)  -- running; `byDrv`: in its constructor, on the driving thread
  | fin                            -- has returned
  deriving DecidableEq, Repr

/-- Where the operation is. -/
inductive Mn
  | idle     -- not started
  | queued   -- pushed by `start()`
  | s1       -- in `submit`, after the increment of `__n_ops_` (`:1035`)
  | s2       -- … after `__on_context_stop_.emplace` (`:1039`)
  | s3       -- … after `__on_receiver_stop_.emplace` (`:1040-1041`)
  | ring     -- in the kernel
  | gone     -- `complete` was called
  deriving DecidableEq, Repr

/-- Where the driving thread is in `__stoppable_task_facade::complete` (`m = true`, `:1045-1063`) or
    `__stop_operation::complete` (`m = false`, `:918-926`); `c`: the result was `-ECANCELED`. -/
inductive Dr
  | free
  | dec (m c : Bool)    -- before the decrement
  | rstC (m c : Bool)   -- before `__on_context_stop_.reset()`
  | rstR (m c : Bool)   -- before `__on_receiver_stop_.reset()`
  | fire (m c : Bool)   -- before completing the receiver
  deriving DecidableEq, Repr

/-- The members of `__stoppable_task_facade` and `__stop_operation` (`:872-1090`) and history. -/
structure St where
  closed : Bool         -- (constant) the context has been stopped and closed before the operation is started
  main : Mn
  nops : Int            -- `__n_ops_`
  flag : Src → Bool     -- stop was requested
  cb : Src → Cb
  linked : Nat          -- how often the stop operation is in a queue
  ringS : Nat           -- how often it is in the kernel
  dr : Dr
  done : Nat            -- how often the receiver was completed
  stopd : Bool          -- the last time with `set_stopped`
  -- history
  canc : Bool           -- the kernel (or the context) reported `-ECANCELED`
  pushes : Nat          -- how often the stop operation was submitted
  dbl : Bool            -- it was linked into a queue while it already was in one
  uaf : Bool            -- a stop callback used the operation after its receiver was completed

/-- A constructed operation (`__n_ops_` is 0). -/
def init (closed : Bool) : St :=
  { closed := closed, main := .idle, nops := 0, flag := fun _ => false, cb := fun _ => .off, linked := 0, ringS := 0
    dr := .free, done := 0, stopd := false, canc := false, pushes := 0, dbl := false, uaf := false }

/-- Runs on the driving thread right now. -/
def Cb.onDrv : Cb → Bool
  | .run _ b => b
  | _ => false

/-- Runs right now (`reset()` of the optional holding the callback waits for this, C04). -/
def Cb.running : Cb → Bool
  | .run _ _ => true
  | _ => false

/-- Registering a stop callback (`optional::emplace`): invoked at once if stop was requested. -/
def emplace (s : St) (x : Src) : St :=
  { s with cb := upd s.cb x (if s.flag x then .run .cas true else .armed) }

/-- One step of the driving thread inside `complete`. -/
def stepDr (s : St) : Option St :=
  match s.dr with
  | .free => none
  | .dec m c => some { s with nops := s.nops - 1, dr := if s.nops = 1 then .rstC m c else .free }
  | .rstC m c =>
    if (s.cb .ctx).running then none else some { s with cb := upd s.cb .ctx .off, dr := .rstR m c }
  | .rstR m c =>
    if (s.cb .rcv).running then none else some { s with cb := upd s.cb .rcv .off, dr := .fire m c }
  | .fire m c =>
    some { s with done := s.done + 1, stopd := !m || c || s.flag .ctx || s.flag .rcv, dr := .free }

/-- One step of `__stop_operation::start` (`:928-940`). -/
def stepCb (s : St) (x : Src) : Option St :=
  match s.cb x with
  | .run .cas b =>
    some { s with
      uaf := s.uaf || decide (0 < s.done)
      nops := if s.nops = 1 then 2 else s.nops
      cb := upd s.cb x (if s.nops = 1 then .run .push b else .fin) }
  | .run .push b =>
    some { s with
      linked := s.linked + 1, pushes := s.pushes + 1, dbl := s.dbl || decide (0 < s.linked)
      cb := upd s.cb x (.run .wake b) }
  | .run .wake _ => some { s with uaf := s.uaf || decide (0 < s.done), cb := upd s.cb x .fin }
  | _ => none

/-- The actions. -/
inductive Act
  | start            -- `start()` (`:814-824`): enqueued, or completed inline by a closed context (`:486-490`)
  | sub0             -- the context calls `submit` (`:1032-1043`): the increment
  | sub1             -- registers the callback on the context's token
  | sub2             -- registers the callback on the receiver's token
  | sub3 (c : Bool)  -- into the ring, or (`c`) completed with `-ECANCELED` by a stopped context (`:263-266`)
  | kmain (c : Bool) -- the operation's completion (`c`: cancelled) is taken from the completion ring
  | take             -- the context submits the stop operation to the kernel
  | takeC            -- a stopped context completes the stop operation itself (without `IORING_OP_ASYNC_CANCEL`)
  | kstop            -- the stop operation's completion is taken from the completion ring
  | dr               -- next step of `complete`
  | req (x : Src)    -- somebody requests stop
  | cb (x : Src)     -- next step of a running callback
  deriving DecidableEq, Repr

/-- One action; the lines are beside the constructors of `Act`. -/
def step (s : St) : Act → Option St
  | .start =>
    if s.main = .idle then
      if s.closed then some { s with main := .gone, canc := true, dr := .dec true true }
      else some { s with main := .queued }
    else none
  | .sub0 => if s.main = .queued ∧ s.dr = .free then some { s with main := .s1, nops := s.nops + 1 } else none
  | .sub1 => if s.main = .s1 then some { emplace s .ctx with main := .s2 } else none
  | .sub2 => if s.main = .s2 ∧ (s.cb .ctx).onDrv = false then some { emplace s .rcv with main := .s3 } else none
  | .sub3 c =>
    if s.main = .s3 ∧ (s.cb .rcv).onDrv = false then
      if c then
        if s.flag .ctx then some { s with main := .gone, canc := true, dr := .dec true true } else none
      else some { s with main := .ring }
    else none
  | .kmain c =>
    if s.main = .ring ∧ s.dr = .free then
      some { s with main := .gone, canc := c || s.canc, dr := .dec true c }
    else none
  | .take =>
    if 0 < s.linked ∧ s.dr = .free ∧ s.main ≠ .s1 ∧ s.main ≠ .s2 ∧ s.main ≠ .s3 then
      some { s with linked := s.linked - 1, ringS := s.ringS + 1 }
    else none
  | .takeC =>
    if 0 < s.linked ∧ s.dr = .free ∧ s.main ≠ .s1 ∧ s.main ≠ .s2 ∧ s.main ≠ .s3 ∧ s.flag .ctx = true then
      some { s with linked := s.linked - 1, dr := .dec false true }
    else none
  | .kstop =>
    if 0 < s.ringS ∧ s.dr = .free ∧ s.main ≠ .s1 ∧ s.main ≠ .s2 ∧ s.main ≠ .s3 then
      some { s with ringS := s.ringS - 1, dr := .dec false false }
    else none
  | .dr => stepDr s
  | .req x =>
    if s.flag x then none
    else some { s with flag := upd s.flag x true, cb := upd s.cb x (if s.cb x = .armed then .run .cas false else s.cb x) }
  | .cb x => stepCb s x

end Verif.UringOp
