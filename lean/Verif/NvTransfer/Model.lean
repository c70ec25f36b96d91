import Verif.Common
/-!
# Transfers to and from a GPU stream (`nvexec/stream/continues_on.cuh`, `nvexec/stream/schedule_from.cuh`, `nvexec/stream/common.cuh`)

Each operation as the list of what it does, for any completion of the sender and any failure of the CUDA runtime.

Models `_continues_on_kernel` (:39-44) and `_trnsfr::receiver` (:46-176) of `continues_on.cuh` with the rites of
`defer_temp_storage_destruction` (common.cuh:694-729) and `~opstate` (common.cuh:876-881); `_schfr::opstate` (schedule_from.cuh:35-115) and the
same members of `_strm::opstate` (common.cuh:836-896), `stream_enqueue_receiver` (common.cuh:520-567), `continuation_task`
(common.cuh:591-645) and `host_allocate` (detail/memory.cuh:109-137).

Simplifications: values and error codes are numbers; a kernel that was accepted runs; the device's queue runs a task that was pushed once and
frees it (C80); the operation state is destroyed when its receiver has been completed, or without having been started.
-/
namespace Verif.NvTransfer

/-- The three channels. -/
inductive Tag
  | value | error | stopped
  deriving DecidableEq, Repr

/-- A completion. -/
structure Sig where
  tag : Tag
  args : List Nat
  deriving DecidableEq, Repr

/-! ## To the stream -/

/-- Everything that is not decided by the receiver of `continues_on`. -/
structure To where
  first : Sig            -- how the sender completes
  copyable : Bool        -- what it delivers is trivially copyable
  trivial : Bool         -- the storage for it is trivially destructible
  getDevice : Nat        -- what `cudaGetDevice` returns: 0, or an error
  getAttr : Nat          -- what `cudaDeviceGetAttribute` returns
  managed : Bool         -- the device may access managed memory concurrently
  prefetch : Nat         -- what `cudaMemPrefetchAsync` returns
  launch : Nat           -- the error of the launch of the kernel
  back : Bool            -- somebody prefetches the storage to the host later (`sync_wait`)
  deriving Repr

/-- Host or device. -/
inductive Side
  | host | device
  deriving DecidableEq, Repr

/-- What happens. -/
inductive Ev
  | construct (at_ : Side) (args : List Nat)   -- the delivered values are copied or moved into the storage
  | complete (s : Sig)                         -- the receiver is completed
  | destroy (at_ : Side)                       -- the storage is destroyed
  | dealloc                                    -- the storage is deallocated
  deriving DecidableEq, Repr

/-- `complete_error` (continues_on.cuh:88-95), then the end of the operation state. -/
def failed (w : To) (c : Nat) : List Ev :=
  (if w.copyable = true then [] else [.destroy .host]) ++ [.complete ⟨.error, [c]⟩, .dealloc]

/-- The last part (continues_on.cuh:140-155): propagation by reference to the storage, and the rites, which destroy on the device unless
    the storage was prefetched to the host last (common.cuh:711-725). -/
def passed (w : To) (args : List Nat) : List Ev :=
  [.complete ⟨w.first.tag, args⟩]
    ++ (if w.trivial = true then [] else [.destroy (if w.back = true then .host else .device)]) ++ [.dealloc]

/-- `receiver::complete` (continues_on.cuh:57-157). -/
def to (w : To) : List Ev :=
  if w.first.args = [] then [.complete ⟨w.first.tag, []⟩, .dealloc]                    -- :64-67
  else
    let pre : List Ev := if w.copyable = true then [] else [.construct .host w.first.args]   -- :82-86
    if w.getDevice ≠ 0 then pre ++ failed w w.getDevice                                 -- :97-103
    else if w.getAttr ≠ 0 then pre ++ failed w w.getAttr                                -- :105-114
    else if w.managed = true ∧ w.prefetch ≠ 0 then pre ++ failed w w.prefetch           -- :118-127
    else if w.copyable = true then
      if w.launch ≠ 0 then pre ++ failed w w.launch                                     -- :131-137
      else pre ++ [.construct .device w.first.args] ++ passed w w.first.args
    else pre ++ passed w w.first.args

/-! ## From the stream -/

/-- Everything that is not decided by the operation state of `schedule_from`. -/
structure From where
  plain : Bool           -- `_strm::opstate` instead of `_schfr::opstate`: it frees the task in its destructor if it was not started
  allocStorage : Bool    -- the three allocations succeed
  allocTask : Bool
  allocEnv : Bool
  taskStatus : Nat       -- the status of the task: the allocation of its link on the device, and its clearing
  started : Bool         -- the operation is started
  first : Sig            -- how the sender completes
  exception : Bool       -- with a `std::exception_ptr`
  deriving Repr

/-- What happens. -/
inductive Fv
  | storage | freeStorage
  | task | freeTask
  | env | freeEnv
  | complete (s : Sig)
  deriving DecidableEq, Repr

/-- The status after the allocations (memory.cuh:114-134; schedule_from.cuh:74-87, common.cuh:843-862): once an allocation fails, no other is
    tried. -/
def status (w : From) : Nat :=
  if w.allocStorage = false ∨ w.allocTask = false ∨ w.allocEnv = false then 2 else w.taskStatus

/-- The constructor. -/
def built (w : From) : List Fv :=
  if w.allocStorage = false then []
  else if w.allocTask = false then [.storage]
  else if w.allocEnv = false then [.storage, .task]
  else [.storage, .task, .env]

/-- The destructor: `env_` and `storage_` are owners; `task_` is not (common.cuh:868-875). -/
def gone (w : From) : List Fv :=
  (if w.plain = true ∧ w.started = false ∧ w.allocStorage = true ∧ w.allocTask = true then [.freeTask] else [])
    ++ (if w.allocStorage = true ∧ w.allocTask = true ∧ w.allocEnv = true then [.freeEnv] else [])
    ++ (if w.allocStorage = true then [.freeStorage] else [])

/-- What `stream_enqueue_receiver` stores (common.cuh:534-567) and the task delivers (:602-614). -/
def stored (w : From) : Sig :=
  if w.first.tag = .error ∧ w.exception = true then ⟨.error, [999]⟩ else w.first   -- `cudaErrorUnknown`

/-- The life of the operation state: constructed, started or not (schedule_from.cuh:92-104, common.cuh:886-917), destroyed; the task is freed
    by the queue that has run it. -/
def «from» (w : From) : List Fv :=
  built w ++
    (if w.started = true then
      if status w ≠ 0 then [.complete ⟨.error, [status w]⟩] else [.complete (stored w), .freeTask]
    else []) ++ gone w

end Verif.NvTransfer
