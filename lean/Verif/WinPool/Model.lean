import Verif.Common
/-!
# `windows_thread_pool`: cancellable `schedule`, `schedule_at`, `schedule_after`

`exec/windows/windows_thread_pool.hpp`: `_cancellable_schedule_op_base` (`:160-421`) and `_time_schedule_op` (`:515-729`), which follow the
same protocol (`SubmitThreadpoolWork` / `SetThreadpoolTimer`, `WaitForThreadpoolWorkCallbacks` / `WaitForThreadpoolTimerCallbacks`).

One operation; three threads: the starter, the pool's thread that runs the callback, and the thread that requests stop. Every access to the
shared state is one step. The receiver destroys the operation state when it is completed. The pool: a submitted callback may start at any
time; waiting with `cancelPending` removes a callback that has not started and waits for one that has. The stop callback: it runs
on the requesting thread, or inside its own registration if stop was requested before (C01-C06); destroying it waits for a run on another
thread (C02).
-/
namespace Verif.WinPool

/-- The starter (`start_impl`, `:205-257`, `:560-602`). -/
inductive SPC
  | idle
  | check       -- `stopToken.stop_requested()` (`:212`)
  | early       -- `set_stopped_impl()` at once (`:214`)
  | reg         -- `stopCallback_.__construct` (`:218`)
  | inLoad      -- `request_stop` inside the registration: load (`:335`)
  | inCas (sub stp stg run : Bool)   -- its `compare_exchange` (`:347`), with the expected value
  | submit      -- `SubmitThreadpoolWork` (`:225`)
  | add         -- `fetch_add(submit_complete_flag)` (`:230`)
  | wait        -- `complete_with_done` (`:240`): `WaitForThreadpoolWorkCallbacks` (`:378`)
  | unreg       -- `stopCallback_.__destroy()` (`:383`)
  | stopped     -- `set_stopped_impl()` (`:387`)
  | del         -- `delete state` (`:251`)
  | usubmit     -- `SubmitThreadpoolWork` without a stop token (`:257`)
  | ret
  deriving DecidableEq, Repr

/-- The pool's thread (`stoppable_work_callback`, `:281-330`; `unstoppable_work_callback`, `:272-279`). -/
inductive WPC
  | off
  | queued      -- submitted, not started
  | start       -- `fetch_add(starting_flag)` (`:286`)
  | unreg       -- `stopCallback_.__destroy()` (`:305`)
  | run         -- `fetch_add(running_flag)` (`:307`)
  | detach      -- `op.state_ = nullptr` (`:319`)
  | value       -- `op.set_value_impl()` (`:322`)
  | ret
  deriving DecidableEq, Repr

/-- The thread that requests stop and runs the callback (`request_stop`, `:333-371`; `complete_with_done`, `:374-388`). -/
inductive TPC
  | idle
  | load
  | cas (sub stp stg run : Bool)
  | wait
  | unreg
  | stopped
  | ret
  deriving DecidableEq, Repr

/-- The stop callback. -/
inductive Cb
  | none        -- not constructed
  | armed
  | running     -- on the requesting thread
  | ran         -- constructed, has run
  | gone        -- destroyed
  deriving DecidableEq, Repr

inductive Sig | value | stopped
  deriving DecidableEq, Repr

structure St where
  sub : Bool := false      -- `submit_complete_flag`
  stp : Bool := false      -- `stop_requested_flag`
  stg : Bool := false      -- `starting_flag`
  run : Bool := false      -- `running_flag`
  ptr : Bool               -- `state_ != nullptr`
  freed : Nat := 0         -- ghost: how often the flags' memory was freed
  alive : Bool := true     -- the operation state exists
  cb : Cb := .none
  stopReq : Bool := false  -- stop was requested
  started : Bool := false  -- ghost: `start` was called
  s : SPC := .idle
  w : WPC := .off
  t : TPC := .idle
  sigs : List Sig := []    -- ghost: completions
  bad : Bool := false      -- ghost: use after destruction, or an assertion failed
  deriving DecidableEq, Repr

/-- `isStopPossible` (`:439`, `:745`, `:821`): whether the operation allocates its flags. -/
def init (possible : Bool) : St := { ptr := possible }

/-- An access to the operation state. -/
def St.op (x : St) : St := { x with bad := x.bad || !x.alive }
/-- An access to the flags through `state_`. -/
def St.fl (x : St) : St := { x with bad := x.bad || !x.alive || !x.ptr || decide (x.freed ≠ 0) }
/-- A (re)load of the flags in `request_stop`, with the assertion that follows (`:338`). -/
def St.ld (x : St) : St := { x.fl with bad := x.fl.bad || x.run }
/-- An access to the flags through the starter's copy of the pointer (`:223`). -/
def St.flCopy (x : St) : St := { x with bad := x.bad || decide (x.freed ≠ 0) }
/-- The receiver is completed and destroys the operation state, whose destructor frees the flags (`:170-175`). -/
def St.done (x : St) (g : Sig) : St :=
  { x.op with sigs := x.sigs ++ [g], alive := false, freed := if x.ptr then x.freed + 1 else x.freed,
              cb := x.cb, bad := x.bad || !x.alive || decide (x.cb = .armed) || decide (x.cb = .ran) }

inductive Act
  | start            -- the owner starts the operation
  | drop             -- the owner destroys the operation without starting it
  | s                -- the starter's next step
  | fire             -- the pool starts the callback
  | w                -- the pool thread's next step
  | reqStop          -- somebody requests stop
  | t                -- the requesting thread's next step
  deriving DecidableEq, Repr

/-- Has the callback returned, or not been started (and is removed)? (`WaitForThreadpoolWorkCallbacks(…, TRUE)`) -/
def WPC.idle : WPC → Bool
  | .off => true | .queued => true | .ret => true
  | _ => false

/-- One step. -/
def step (x : St) : Act → Option St
  | .start => if x.s = .idle ∧ x.alive then some { x with started := true, s := if x.ptr then .check else .usubmit } else none
  | .drop =>
    if x.s = .idle ∧ x.alive then some { x with s := .ret, alive := false, freed := if x.ptr then x.freed + 1 else x.freed } else none
  | .s =>
    match x.s with
    | .idle => none
    | .check => some { x.op with s := if x.stopReq then .early else .reg }
    | .early => some { x.done .stopped with s := .ret }
    | .reg => some { x.op with s := if x.stopReq then .inLoad else .submit, cb := if x.stopReq then .ran else .armed }
    | .inLoad =>
      if x.stg then some { x.ld with s := .submit } else some { x.ld with s := .inCas x.sub x.stp x.stg x.run }
    | .inCas a b c d =>
      if x.sub = a ∧ x.stp = b ∧ x.stg = c ∧ x.run = d then
        some { x.fl with stp := true, s := if a then .wait else .submit }
      else if x.stg then some { x.ld with s := .submit } else some { x.ld with s := .inCas x.sub x.stp x.stg x.run }
    | .submit => some { x.op with w := .queued, s := .add }
    | .add => some { x.flCopy with sub := true, s := if x.stp then .wait else if x.run then .del else .ret }
    | .wait => if x.w.idle then some { x.op with w := if x.w = .queued then .off else x.w, s := .unreg } else none
    | .unreg => if x.cb = .running then none else some { x.op with cb := .gone, s := .stopped }
    | .stopped => some { x.done .stopped with s := .ret }
    | .del => some { x with freed := x.freed + 1, s := .ret }
    | .usubmit => some { x.op with w := .queued, s := .ret }
    | .ret => none
  | .fire => if x.w = .queued then some { x.op with w := if x.ptr then .start else .value } else none
  | .w =>
    match x.w with
    | .start => some { x.fl with stg := true, w := if x.stp then .ret else .unreg }
    | .unreg => if x.cb = .running then none else some { x.op with cb := .gone, w := .run }
    | .run => some { x.fl with run := true, w := if x.sub = false ∧ x.stp = false ∧ x.run = false then .detach else .value }
    | .detach => some { x.op with ptr := false, w := .value }
    | .value => some { x.done .value with w := .ret }
    | _ => none
  | .reqStop =>
    if x.stopReq then none
    else if x.cb = .armed then some { x with stopReq := true, cb := .running, t := .load }
    else some { x with stopReq := true }
  | .t =>
    match x.t with
    | .load =>
      if x.stg then some { x.ld with t := .ret, cb := .ran } else some { x.ld with t := .cas x.sub x.stp x.stg x.run }
    | .cas a b c d =>
      if x.sub = a ∧ x.stp = b ∧ x.stg = c ∧ x.run = d then
        if a then some { x.fl with stp := true, t := .wait }
        else some { x.fl with stp := true, t := .ret, cb := .ran }
      else if x.stg then some { x.ld with t := .ret, cb := .ran } else some { x.ld with t := .cas x.sub x.stp x.stg x.run }
    | .wait => if x.w.idle then some { x.op with w := if x.w = .queued then .off else x.w, t := .unreg } else none
    | .unreg => some { x.op with cb := .gone, t := .stopped }
    | .stopped => some { x.done .stopped with t := .ret }
    | _ => none

end Verif.WinPool
