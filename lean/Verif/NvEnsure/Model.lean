import Verif.Common
import Verif.Run

/-!
# nvexec `ensure_started` — model (C83)

`/repo/include/nvexec/stream/ensure_started.cuh`: `receiver` 63-126, `sh_state` 153-262 (`notify` 235-244, `detach`
246-249, destructor 207-233), `opstate` 264-365 (destructor 285-293, `notify` 297-328, `start` 330-364),
`ensure_started_sender` 368-426; `__forward_stop_request` (`/repo/include/stdexec/stop_token.hpp:472-480`).

Agents: the child, started by the constructor of the shared state, which completes on any thread; the owner of the
sender or of the operation, who drops it, or starts it and destroys it once it has completed; the stop callback
registered with the receiver's token; the GPU, which executes the kernel that copies the child's result whenever it
likes, and may fail to. Each step is one atomic access, one CUDA call, one call to the inner stop source, one release
of a reference, or the completion of the receiver. The receiver's stop token is modelled by the contract of its
callbacks (C02-C04): a callback constructed after the stop request runs inside the constructor; its destructor waits
for an invocation on another thread, but not for one it is called from.

Simplifications: atomics sequentially consistent; a child's values are one number; CUDA errors are numbers; the
receiver's stream does nothing but wait for the event and then use the values, so that a wait for the event is a host
wait; the destruction of the shared state (207-233), its waits included, is one step together with the release of the
last reference; for a child that is not a stream sender, the pass through the queue (C80) and the write of the
variant by `stream_enqueue_receiver` (common.cuh:534-567) are one step.
-/
namespace Verif.NvEnsure

/-- What the child completes with. -/
inductive Outcome
  | value (v : Nat)
  | error (e : Nat)
  | stopped
  deriving DecidableEq, Repr

/-- Static facts: whether the child is a `stream_sender` (80, 207), and the error of the first CUDA call of the
constructor of the shared state that failed (169-205). -/
structure Cfg where
  stream : Bool
  ctor : Option Nat := none

/-- The thread on which the child completes. -/
inductive Child
  /-- has not completed -/
  | run
  /-- about to look at the status, set the index and launch the copy (80-89, 93-95) -/
  | result (o : Outcome)
  /-- about to record the event (90-92) -/
  | record
  /-- about to `opstate1_.exchange(this)` (238) -/
  | xchg
  /-- found the operation, about to `on_stop_.reset()` (300) -/
  | reset
  /-- about to look at the status and `cudaStreamWaitEvent` (304-310) -/
  | wait
  /-- about to complete the receiver (312-327) -/
  | deliver
  /-- about to `shared_state_.reset()` (103, 111, 118) -/
  | release
  | done
  deriving DecidableEq, Repr

/-- The owner of the sender, then of the operation. -/
inductive Owner
  /-- has the sender, or an operation that was not started -/
  | fresh
  /-- in `start()`, about to load `opstate1_` (335) -/
  | load
  /-- about to construct the stop callback (343) -/
  | emplace
  /-- the callback runs inside its constructor -/
  | inl
  /-- about to ask the inner stop source (346) -/
  | check
  /-- about to CAS `opstate1_` (357) -/
  | cas
  /-- in `notify(this)` (338, 362), about to `on_stop_.reset()` (300) -/
  | reset
  /-- about to look at the status and wait for the event (304-310) -/
  | wait
  /-- about to complete the receiver (312-327) -/
  | deliver
  /-- `start()` has returned -/
  | started
  /-- in the destructor of the operation, about to load `opstate1_` (289) -/
  | dload
  /-- about to `detach()` (291; 389 for a sender) -/
  | detach
  /-- about to release the reference -/
  | release
  /-- about to destroy the stop callback, which is declared before the reference (273-274) -/
  | dcb
  | gone
  deriving DecidableEq, Repr

/-- `opstate1_` (260): null, the operation, or `this` (237). -/
inductive Cell
  | null | op | completed
  deriving DecidableEq, Repr

/-- The copy kernel (86-89). -/
inductive Gpu
  | none
  | queued (o : Outcome)
  | ran
  | failed
  deriving DecidableEq, Repr

/-- The kernel is in the stream. -/
def Gpu.busy : Gpu → Bool
  | .queued _ => true
  | _ => false

/-- Completions of the receiver: the result of the child, a CUDA error (326), stopped because a stop was requested
before (350); `garbage`: a variant that was not written is visited (312-322). -/
inductive Res
  | result (o : Outcome)
  | cuda (e : Nat)
  | early
  | garbage
  deriving DecidableEq, Repr

/-- The stop callback. -/
inductive Cb
  | off
  /-- invoked, about to `stop_source_.request_stop()` (stop_token.hpp:476) -/
  | enter
  /-- inside `request_stop()`, which runs the child's callbacks and then goes on using the stop source -/
  | inside
  | fin
  deriving DecidableEq, Repr

/-- Members of `sh_state` (251-261) and of `opstate` (273-274); the references to the shared state; ghost state. -/
structure St where
  child : Child := .run
  owner : Owner := .fresh
  cb : Cb := .off
  /-- the child completed inside the callback's `request_stop()` -/
  nested : Bool := false
  cell : Cell := .null
  status : Option Nat
  gpu : Gpu := .none
  /-- `*data_` -/
  mem : Option Outcome := none
  /-- `completion_copy_started_` (90) -/
  copied : Bool := false
  /-- `event_recorded_` (93) -/
  recorded : Bool := false
  srcStopped : Bool := false
  /-- the stop callback is registered -/
  reg : Bool := false
  parentStopped : Bool := false
  childRef : Bool := true
  ownerRef : Bool := true
  /-- completions of the receiver, newest first -/
  results : List Res := []
  -- ghost
  outcome : Option Outcome := none
  /-- CUDA calls that returned an error -/
  cudaErrs : List Nat
  /-- the compare-exchange (357) failed although the value was the expected one -/
  spurious : Bool := false
  /-- a kernel failed -/
  gpuFailed : Bool := false
  /-- a result was written to a null pointer -/
  nullWrite : Bool := false
  /-- the shared state was used after it was freed -/
  uaf : Bool := false
  /-- the operation was used by the child after the receiver was completed -/
  opUaf : Bool := false
  /-- number of times the shared state was destroyed -/
  frees : Nat := 0
  /-- shared state destroyed while the kernel could still write to it -/
  badFree : Bool := false

/-- No reference to the shared state is left. -/
def St.freed (s : St) : Bool := !s.childRef && !s.ownerRef

/-- The shared state is used. -/
def St.touch (s : St) : St := { s with uaf := s.uaf || s.freed }

/-- The child's thread uses the shared state and the operation. -/
def St.touchOp (s : St) : St := { s with uaf := s.uaf || s.freed, opUaf := s.opUaf || !s.results.isEmpty }

/-- A CUDA call returned `r`. -/
def St.note (s : St) (r : Option Nat) : St := { s with cudaErrs := r.toList ++ s.cudaErrs }

/-- What `notify` completes the receiver with (304-327). -/
def St.answer (s : St) (looked : Option Nat) : Res :=
  match looked with
  | some e => .cuda e
  | none => match s.mem with
    | some o => .result o
    | none => .garbage

inductive Act
  /-- the child completes; `inCb`: from within the callback's `request_stop()` -/
  | complete (o : Outcome) (inCb : Bool)
  /-- the child's thread goes on; `r`: the result of the CUDA call, if there is one -/
  | child (r : Option Nat)
  /-- the owner calls `start()` -/
  | start
  /-- the owner destroys the sender (`true`) or the operation -/
  | destroy (sender : Bool)
  /-- the owner's thread goes on; `spurious`: the weak compare-exchange fails without cause -/
  | owner (r : Option Nat) (spurious : Bool)
  /-- the callback goes on -/
  | cb
  /-- the GPU executes the copy -/
  | gpu (ok : Bool)
  /-- stop is requested on the receiver's token -/
  | parentStop
  deriving DecidableEq, Repr

/-- The callback is running. -/
def Cb.busy : Cb → Bool
  | .enter | .inside => true
  | _ => false

/-- The reference count reached zero: the destructor (207-233) waits for the kernel if there is one, by the event if
it was recorded and by the stream if not. -/
def St.destroy (s : St) : Option St :=
  if s.freed then
    if s.copied ∧ s.gpu.busy then none else some { s with frees := s.frees + 1, badFree := s.badFree || s.gpu.busy }
  else some s

/-- The steps of `notify(op)` (297-328) up to the completion, on behalf of the child. -/
def stepChild (c : Cfg) (s : St) (r : Option Nat) : Option St :=
  match s.child with
  | .result o =>
    if c.stream then
      if s.status = none then
        some { s.touch with child := .record, gpu := .queued o, copied := true, nullWrite := s.nullWrite || c.ctor.isSome }
      else some { s.touch with child := .xchg }
    else some { s.touch with child := .xchg, mem := some o, nullWrite := s.nullWrite || c.ctor.isSome }
  | .record => match r with
    | none => some { s.touch with child := .xchg, recorded := true }
    | some e => some { (s.touch.note r) with child := .xchg, status := some e }
  | .xchg => match s.cell with
    | .op => some { s.touch with child := .reset, cell := .completed }
    | _ => some { s.touch with child := .release, cell := .completed }
  | .reset =>
    if s.cb.busy ∧ s.nested = false then none
    else some { s.touchOp with child := .wait, reg := false }
  | .wait =>
    if s.status = none ∧ c.stream then match r with
      | none =>
        if s.recorded ∧ s.gpu.busy then none else some { s.touchOp with child := .deliver }
      | some e =>
        -- the status is stored, but the variant is visited all the same: see `.deliver`
        some { (s.touchOp.note r) with child := .release, results := s.answer none :: s.results, status := some e }
    else some { s.touchOp with child := .deliver }
  | .deliver => some { s.touchOp with child := .release, results := s.answer s.status :: s.results }
  | .release => ({ s.touch with child := .done, childRef := false }).destroy
  | .run | .done => none

/-- The steps of the owner's thread. -/
def stepOwner (c : Cfg) (s : St) (r : Option Nat) (sp : Bool) : Option St :=
  match s.owner with
  | .load => match s.cell with
    | .completed => some { s.touch with owner := .reset }
    | _ => some { s.touch with owner := .emplace }
  | .emplace =>
    if s.parentStopped then some { s.touch with owner := .inl, cb := .enter }
    else some { s.touch with owner := .check, reg := true }
  | .inl => if s.cb = .fin then some { s with owner := .check } else none
  | .check =>
    if s.srcStopped then some { s.touch with owner := .started, results := .early :: s.results }
    else some { s.touch with owner := .cas }
  | .cas => match s.cell with
    | .null =>
      if sp then some { s.touch with owner := .reset, spurious := true }
      else some { s.touch with owner := .started, cell := .op }
    | _ => some { s.touch with owner := .reset }
  | .reset =>
    if s.cb.busy then none else some { s.touch with owner := .wait, reg := false }
  | .wait =>
    if s.status = none ∧ c.stream then match r with
      | none =>
        if s.recorded ∧ s.gpu.busy then none else some { s.touch with owner := .deliver }
      | some e =>
        some { (s.touch.note r) with owner := .started, results := s.answer none :: s.results, status := some e }
    else some { s.touch with owner := .deliver }
  | .deliver => some { s.touch with owner := .started, results := s.answer s.status :: s.results }
  | .dload => match s.cell with
    | .null => some { s.touch with owner := .detach }
    | _ => some { s.touch with owner := .release }
  | .detach => some { s.touch with owner := .release, srcStopped := true }
  | .release => ({ s.touch with owner := .dcb, ownerRef := false }).destroy
  | .dcb => if s.cb.busy then none else some { s with owner := .gone, reg := false }
  | .fresh | .started | .gone => none

def step (c : Cfg) (s : St) : Act → Option St
  | .complete o inCb =>
    if s.child = .run ∧ (inCb = true → s.cb = .inside) then
      some { s with child := .result o, outcome := some o, nested := inCb }
    else none
  | .child r => stepChild c s r
  | .start => if s.owner = .fresh then some { s with owner := .load } else none
  | .destroy sender =>
    if sender then if s.owner = .fresh then some { s with owner := .detach } else none
    else if s.owner = .fresh ∨ (s.owner = .started ∧ s.results ≠ []) then some { s with owner := .dload } else none
  | .owner r sp => stepOwner c s r sp
  | .cb => match s.cb with
    | .enter => some { s.touch with cb := if s.srcStopped then .fin else .inside, srcStopped := true }
    | .inside =>
      if s.nested = true ∧ s.child ≠ .done then none else some { s.touch with cb := .fin }
    | _ => none
  | .gpu ok => match s.gpu with
    | .queued o => if ok then some { s with gpu := .ran, mem := some o }
                   else some { s with gpu := .failed, gpuFailed := true }
    | _ => none
  | .parentStop =>
    if s.parentStopped then none
    else if s.reg then some { s with parentStopped := true, reg := false, cb := .enter }
    else some { s with parentStopped := true }

/-- The constructors of `ensure_started_sender` (378-381) and `sh_state` (169-205), which starts the child. -/
def init (c : Cfg) : St :=
  { status := c.ctor, cudaErrs := c.ctor.toList }

abbrev Reachable (c : Cfg) (s : St) : Prop := Reach (init c) (step c) s

end Verif.NvEnsure
