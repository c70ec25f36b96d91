import Verif.Common
/-!
# Operation states of `parallel_scheduler` and `task_scheduler`

What the operation states own, and when they let go of it: `__system_op` (`__parallel_scheduler.hpp:199-235`), `__system_bulk_op` with
`__bulk_intermediate_receiver` and `__typed_forward_args_receiver` (`:345-646`), `__any_opstate` (`__task_scheduler.hpp:298-325`),
`__bulk_opstate` with `__bulk_state` and `__bulk_receiver` (`:366-583`); the back ends' operations (`__operation`,
`__parallel_scheduler_default_impl.hpp:106-158`; `__opstate`, `__task_scheduler.hpp:676-722`) and their receiver `__proxy_receiver`
(`__parallel_scheduler_backend.hpp:387-430`); stop callbacks (`:160-206`).

An operation state is used by one thread at a time (the starter, then whoever completes the predecessor, then the pool), so one call is one
step; `request_stop` may come between any two. Not represented: the values, `execute` (C60), the pool itself.
-/
namespace Verif.ParOp

inductive Front | par | task
  deriving DecidableEq, Repr

/-- The stop token of the receiver's environment. -/
inductive Tok
  | never      -- an unstoppable token
  | inplace    -- `inplace_stop_token`: passed on as it is
  | other      -- any other: translated by a callback that stops an `inplace_stop_source`
  deriving DecidableEq, Repr

structure Cfg where
  front : Front
  bulk : Bool          -- `bulk*` or `schedule`
  tok : Tok
  deriving DecidableEq, Repr

/-- What can live in the operation state's storage. -/
inductive Obj
  | ref        -- the reference to the back end (`__backend_ptr_t`)
  | inner      -- the operation of the predecessor
  | pool       -- the back end's operation
  deriving DecidableEq, Repr

inductive Sig | value | error | stopped
  deriving DecidableEq, Repr

/-- The progress of the operation. -/
inductive Phase
  | made       -- connected
  | inner      -- the predecessor is running (bulk)
  | pool       -- the back end's operation is running
  | done       -- the receiver has been completed
  | ub         -- `__std::unreachable()`
  deriving DecidableEq, Repr

structure St where
  phase : Phase := .made
  slot : Option Obj := none      -- what lives in `__preallocated_` / `__storage_`
  heap : Bool := false           -- the back end's operation lives on the heap
  args : Bool := false           -- the stored values (`__forward_args_helper_`) exist
  cb : Bool := false             -- the stop callback is registered
  src : Bool := false            -- stop requested on the internal source
  stopReq : Bool := false        -- stop requested by the user
  sigs : List Sig := []          -- ghost: completions sent
  reached : Bool := false        -- ghost: the back end was asked to run the operation
  alive : Bool := true           -- the operation state exists
  left : Bool := false           -- ghost: something still lived in the storage, or on the heap, when the operation state was destroyed
  fault : Bool := false          -- ghost: storage overwritten or an object used that does not exist
  deriving DecidableEq, Repr

/-- The state after `connect`: `__system_op` keeps the reference in the storage (`__parallel_scheduler.hpp:202-211`), `__system_bulk_op`
the predecessor's operation (`:619-630`); in a `task_scheduler`'s operations both are ordinary members, the storage is empty. -/
def init (c : Cfg) : St :=
  match c.front with
  | .par => { slot := some (if c.bulk then .inner else .ref) }
  | .task => {}

/-- A completion: `__unregister_stop_callback` (`__parallel_scheduler_backend.hpp:236-268, 348-352`), then the receiver. -/
def complete (s : St) (g : Sig) : St := { s with phase := .done, cb := false, sigs := s.sigs ++ [g] }

/-- Destroy the object `o` in the storage. -/
def unslot (s : St) (o : Obj) : St := { s with slot := none, fault := s.fault || decide (s.slot ≠ some o) }

/-- The back end constructs its operation in the storage or on the heap and starts it (`__parallel_scheduler_default_impl.hpp:262-326`,
`__task_scheduler.hpp:743-778`). If that throws: `set_error` on the proxy (for bulk on a `parallel_scheduler` that destroys the stored
values, `__parallel_scheduler.hpp:383-389`); on a `task_scheduler` `unreachable`. -/
def launch (c : Cfg) (s : St) (throws heap : Bool) : St :=
  let s := { s with reached := true }
  if throws then
    match c.front with
    | .par => complete { s with args := false } .error
    | .task => { s with phase := .ub }
  else if heap then { s with phase := .pool, heap := true }
  else { s with phase := .pool, slot := some .pool, fault := s.fault || decide (s.slot ≠ none) }

/-- The receiver's token reports a stop request. -/
def stopSeen (c : Cfg) (s : St) : Bool := decide (c.tok ≠ .never) && s.stopReq

/-- The stop request that the back end's operation can see: `__query(get_stop_token_t)` (`__parallel_scheduler_backend.hpp:289-318`); for
bulk on a `parallel_scheduler` only an `inplace_stop_token` is passed on (`__parallel_scheduler.hpp:444-456`); bulk on a
`task_scheduler` runs with an unstoppable environment (`__task_scheduler.hpp:800-822`). -/
def backendSees (c : Cfg) (s : St) : Bool :=
  match c.tok with
  | .never => false
  | .inplace => if c.front = .task ∧ c.bulk = true then false else s.stopReq
  | .other => if c.bulk then false else s.src

inductive Act
  | stop                                   -- the user requests stop
  | start (throws heap : Bool)             -- the owner starts the operation; the flags resolve `launch`
  | inner (g : Sig) (throws heap : Bool)   -- the predecessor completes; the flags resolve `launch`
  | pool (g : Sig)                         -- the back end's operation completes
  | destroy                                -- the owner destroys the operation state
  deriving DecidableEq, Repr

/-- One step. -/
def step (c : Cfg) (s : St) : Act → Option St
  -- a registered callback forwards the request (`__forward_stop_request`)
  | .stop =>
    some { s with stopReq := true, src := s.src || s.cb, fault := s.fault || (s.cb && !s.alive) }
  | .start throws heap =>
    if s.alive = false ∨ s.phase ≠ .made then none else
    match c.bulk with
    -- `__system_bulk_op::start`, `__bulk_opstate::start`
    | true => some { s with phase := .inner }
    | false =>
      match c.front with
      -- `__system_op::start` (`__parallel_scheduler.hpp:213-225`): register (a callback registered after the request runs at once), then
      -- give up or move the reference out of the storage and schedule
      | .par =>
        let s := { s with cb := decide (c.tok = .other), src := decide (c.tok = .other) && s.stopReq }
        if stopSeen c s then some (complete s .stopped)
        else some (launch c (unslot s .ref) throws heap)
      -- `__any_opstate::start` (`__task_scheduler.hpp:313-316`)
      | .task => some (launch c s throws heap)
  | .inner g throws heap =>
    if s.alive = false ∨ s.phase ≠ .inner then none else
    match g with
    | .value =>
      match c.front with
      -- `__bulk_intermediate_receiver::set_value` (`__parallel_scheduler.hpp:505-545`)
      | .par =>
        if stopSeen c s then some (complete s .stopped)
        else some (launch c (unslot { s with args := true } .inner) throws heap)
      -- `__bulk_receiver::set_value` (`__task_scheduler.hpp:374-401`)
      | .task => some (launch c { s with args := true } throws heap)
    | g => some (complete s g)
  -- `__proxy_receiver::set_*`: destroy the back end's operation, then complete the proxy: the stored values are destroyed
  -- (`__parallel_scheduler.hpp:370-399`; on a `task_scheduler` with the operation state) and the receiver is completed
  | .pool g =>
    if s.alive = false ∨ s.phase ≠ .pool ∨ (g = .stopped ∧ backendSees c s = false) then none else
    let s1 := if s.heap then { s with heap := false } else unslot s .pool
    if c.front = .task ∧ g = .error then some { s1 with phase := .ub }   -- infallible (`__parallel_scheduler_backend.hpp:236-242`)
    else some (complete { s1 with args := decide (c.front = .task) && s1.args } g)
  -- `~__system_op`, `~__system_bulk_op`: implicit, the storage is bytes; the operation states of a `task_scheduler` destroy their members
  | .destroy =>
    if s.alive = false ∨ (s.phase ≠ .made ∧ s.phase ≠ .done) then none else
    some { s with alive := false, cb := false, args := decide (c.front = .par) && s.args,
                  left := decide (s.slot ≠ none) || s.heap || (decide (c.front = .par) && s.args) }

/-! ## Alignment -/

/-- `__ensure_alignment` (`__parallel_scheduler_default_impl.hpp:90-109`): address and size of the usable part of the storage, `none` for an
empty span. -/
def ensureAlignment (p : BitVec 64) (size : Nat) (al : BitVec 64) : Option (BitVec 64 × Nat) :=
  if p.toNat % al.toNat = 0 then some (p, size)
  else if size < al.toNat then none
  else
    let q := (p + al - 1) &&& ~~~(al - 1)
    some (q, size - (q - p).toNat)

end Verif.ParOp
