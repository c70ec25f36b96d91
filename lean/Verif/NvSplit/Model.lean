import Verif.Common
import Verif.Run
import Verif.Count

/-!
# nvexec `split` — model (C84)

`/repo/include/nvexec/stream/split.cuh`: `receiver` 64-121, `sh_state` 149-255 (constructors 162-193, destructor
195-212, `_initialize_stopped` 219-227, `notify` 229-241), `opstate` 257-356 (`notify` 278-307, `start` 309-356),
`split_sender` 359-413; `__forward_stop_request` (`/repo/include/stdexec/stop_token.hpp:472-480`).

Agents: the owner of the sender, who connects it any number of times and destroys it; the owners of the operations,
numbered from 0, who start and destroy them; the notifier: the thread on which the child completes or, if the child is
not started because a stop was requested (342-348), the thread that found so; the stop callbacks; the GPU, which
executes the kernel that copies the child's result whenever it likes, and may fail to. Each step is one atomic access,
one CUDA call, one call to the inner stop source, one release of a reference, or the completion of a receiver. The
receivers' stop tokens are modelled by the contract of their callbacks (C02-C04): a callback constructed after the
stop request runs inside the constructor; its destructor waits for an invocation on another thread, but not for one it
is called from.

Simplifications: atomics sequentially consistent (`status_`, which is not atomic, too); a child's values are one
number; CUDA errors are numbers; the receivers' streams do nothing but wait for the event and then use the values, so that a
wait for the event is a host wait; `compare_exchange_weak` compares the list and not the pointer to its first element,
which is the same because an operation is not removed from the list before it is completed; `cudaFree` waits for the
kernel; for a child that is not a stream sender, the pass through the queue (C80) and the write of the variant by
`stream_enqueue_receiver` (common.cuh:534-567) are one step.
-/
namespace Verif.NvSplit

/-- What the child completes with. -/
inductive Outcome
  | value (v : Nat)
  | error (e : Nat)
  | stopped
  deriving DecidableEq, Repr

/-- The index of the alternative of the variant (87, 96, 224). -/
def Outcome.alt : Outcome → Nat
  | .value _ => 0
  | .error _ => 1
  | .stopped => 2

/-- How the constructor of the shared state went (162-193): all CUDA calls succeeded; no memory for the result; a later
call failed. -/
inductive Ctor
  | ok
  | noMem (e : Nat)
  | other (e : Nat)
  deriving DecidableEq, Repr

/-- The status after the constructor. -/
def Ctor.err : Ctor → Option Nat
  | .ok => none
  | .noMem e | .other e => some e

/-- Static facts: whether the child is a `stream_sender` (82), the result of the constructor, the number of operations. -/
structure Cfg where
  stream : Bool
  ctor : Ctor := .ok
  n : Nat

/-- An operation. -/
inductive Op
  /-- not connected yet -/
  | off
  /-- not started yet -/
  | fresh
  /-- in `start()`, about to load `head_` (314) -/
  | load
  /-- about to construct the stop callback (318), with the value of `head_` -/
  | emplace (old : List Nat)
  /-- the callback runs inside its constructor -/
  | inl (old : List Nat)
  /-- about to CAS `head_` (331-334) -/
  | push (old : List Nat)
  /-- the first in the list, about to ask the inner stop source (339) -/
  | check
  /-- about to start the child (348-349) -/
  | go
  /-- in `notify(this)` (326), about to `on_stop_.reset()` (281) -/
  | reset
  /-- about to look at the status and wait for the event (284-290) -/
  | wait
  /-- about to complete the receiver (292-306) -/
  | deliver
  /-- `start()` is over, or does nothing any more with the operation -/
  | started
  | gone
  deriving DecidableEq, Repr

/-- The operation exists, and holds a reference to the shared state (267). -/
def Op.alive : Op → Bool
  | .off | .gone => false
  | _ => true

/-- The thread that calls `notify()` (229-241). -/
inductive Ntf
  /-- the child has not completed -/
  | idle
  /-- the child completed, about to set the index and launch the copy (84-88, 96) -/
  | result (o : Outcome)
  /-- about to record the event (89-90) -/
  | record
  /-- about to exchange `head_` (232) -/
  | xchg
  /-- about to take the next operation (235-240) -/
  | pick (rest : List Nat)
  /-- about to reset its stop callback (281) -/
  | reset (k : Nat) (rest : List Nat)
  /-- about to look at the status and wait for the event (284-290) -/
  | wait (k : Nat) (rest : List Nat)
  /-- about to complete its receiver (292-306) -/
  | deliver (k : Nat) (rest : List Nat)
  | done
  deriving DecidableEq, Repr

/-- The copy kernel (86-88). -/
inductive Gpu
  | none
  | queued (o : Outcome)
  | ran
  | failed
  deriving DecidableEq, Repr

/-- The kernel is in the stream. -/
def Gpu.busy : Gpu → Bool
  | .queued _ => true
  | _ => false

/-- Completions of a receiver: what the variant contains, a CUDA error (305); `garbage`: a variant that was not written
or has another alternative is visited (292-301). -/
inductive Res
  | result (o : Outcome)
  | cuda (e : Nat)
  | garbage
  deriving DecidableEq, Repr

/-- A stop callback. -/
inductive Cb
  | off
  /-- invoked, about to `stop_source_.request_stop()` (stop_token.hpp:476) -/
  | enter
  /-- inside `request_stop()`, which runs the child's callbacks and then goes on using the stop source -/
  | inside
  | fin
  deriving DecidableEq, Repr

/-- The callback is running. -/
def Cb.busy : Cb → Bool
  | .enter | .inside => true
  | _ => false

/-- Members of `sh_state` (243-254), `opstate` (266-267), the reference of the sender (412); ghost state. -/
structure St where
  op : Nat → Op := fun _ => .off
  ntf : Ntf := .idle
  cb : Nat → Cb := fun _ => .off
  /-- the stop callback is registered -/
  reg : Nat → Bool := fun _ => false
  parentStopped : Nat → Bool := fun _ => false
  /-- `head_`: `none` is the completion state, `some []` null -/
  head : Option (List Nat) := some []
  status : Option Nat
  gpu : Gpu := .none
  /-- `*data_`; `none`: `data_` is null -/
  mem : Option Outcome
  /-- the alternative `index_` -/
  idx : Nat := 2
  recorded : Bool := false
  srcStopped : Bool := false
  senderRef : Bool := true
  /-- completions of the receivers, newest first -/
  results : Nat → List Res := fun _ => []
  -- ghost
  /-- the child completed inside the `request_stop()` of this operation's callback -/
  nestedIn : Option Nat := none
  outcome : Option Outcome := none
  /-- number of times the child was started -/
  starts : Nat := 0
  /-- the operations were completed without the child (345) -/
  skipped : Bool := false
  /-- CUDA calls that returned an error -/
  cudaErrs : List Nat
  /-- a kernel failed -/
  gpuFailed : Bool := false
  /-- a result was written to a null pointer -/
  nullWrite : Bool := false
  /-- the shared state was used after it was destroyed -/
  uaf : Bool := false
  /-- an operation was used by the notifier after its receiver was completed -/
  opUaf : Bool := false
  /-- number of times the shared state was destroyed -/
  frees : Nat := 0

/-- No reference to the shared state is left. -/
def St.freed (c : Cfg) (s : St) : Bool := !s.senderRef && cnt (fun i => (s.op i).alive) c.n == 0

/-- The shared state is used. -/
def St.touch (c : Cfg) (s : St) : St := { s with uaf := s.uaf || s.freed c }

/-- The notifier uses the shared state and operation `k`. -/
def St.touchOp (c : Cfg) (s : St) (k : Nat) : St :=
  { s with uaf := s.uaf || s.freed c, opUaf := s.opUaf || !(s.results k).isEmpty || !(s.op k).alive }

/-- A CUDA call returned `r`. -/
def St.note (s : St) (r : Option Nat) : St := { s with cudaErrs := r.toList ++ s.cudaErrs }

/-- What `notify` completes a receiver with (284-306), if the status was `looked`. -/
def St.answer (s : St) (looked : Option Nat) : Res :=
  match looked with
  | some e => .cuda e
  | none => match s.mem with
    | some o => if o.alt = s.idx then .result o else .garbage
    | none => .garbage

inductive Act
  /-- the sender is connected: operation `i` is created -/
  | connect (i : Nat)
  /-- the sender is destroyed -/
  | dropSender
  | start (i : Nat)
  | destroy (i : Nat)
  /-- operation `i`'s thread goes on; `r`: the result of the CUDA call, if there is one; `spurious`: the weak
  compare-exchange fails without cause -/
  | op (i : Nat) (r : Option Nat) (spurious : Bool)
  /-- the child completes; `inCb`: from within the `request_stop()` of this operation's callback -/
  | complete (o : Outcome) (inCb : Option Nat)
  | ntf (r : Option Nat)
  /-- operation `i`'s callback goes on -/
  | cb (i : Nat)
  /-- the GPU executes the copy -/
  | gpu (ok : Bool)
  /-- stop is requested on the token of operation `i`'s receiver -/
  | parentStop (i : Nat)
  deriving DecidableEq, Repr

/-- A reference was released: the destructor (195-212) if it was the last one. -/
def St.release (c : Cfg) (s : St) : Option St :=
  if s.freed c then
    if s.gpu.busy then none else some { s with frees := s.frees + 1 }
  else some s

/-- The steps of operation `i`'s thread: `start` (309-356) and `notify(this)` (278-307). -/
def stepOp (c : Cfg) (s : St) (i : Nat) (r : Option Nat) (sp : Bool) : Option St :=
  match s.op i with
  | .load => match s.head with
    | none => some { s.touch c with op := upd s.op i .reset }
    | some l => some { s.touch c with op := upd s.op i (.emplace l) }
  | .emplace l =>
    if s.parentStopped i then some { s.touch c with op := upd s.op i (.inl l), cb := upd s.cb i .enter }
    else some { s.touch c with op := upd s.op i (.push l), reg := upd s.reg i true }
  | .inl l => if s.cb i = .fin then some { s with op := upd s.op i (.push l) } else none
  | .push l => match s.head with
    | none => some { s.touch c with op := upd s.op i .reset }
    | some m =>
      if m = l ∧ sp = false then
        some { s.touch c with op := upd s.op i (if l = [] then .check else .started), head := some (i :: l) }
      else some { s.touch c with op := upd s.op i (.push m) }
  | .check =>
    if s.srcStopped then some { s.touch c with op := upd s.op i .started, ntf := .xchg, skipped := true }
    else some { s.touch c with op := upd s.op i .go }
  | .go => some { s.touch c with op := upd s.op i .started, starts := s.starts + 1 }
  | .reset =>
    if (s.cb i).busy then none
    else some { s.touch c with op := upd s.op i .wait, reg := upd s.reg i false }
  | .wait =>
    if s.status = none ∧ c.stream then match r with
      | none =>
        if s.recorded ∧ s.gpu.busy then none else some { s.touch c with op := upd s.op i .deliver }
      | some e =>
        -- the status is stored, but the variant is visited all the same
        some { ((s.touch c).note r) with op := upd s.op i .started,
                                         results := upd s.results i (s.answer none :: s.results i), status := some e }
    else some { s.touch c with op := upd s.op i .deliver }
  | .deliver =>
    some { s.touch c with op := upd s.op i .started, results := upd s.results i (s.answer s.status :: s.results i) }
  | .off | .fresh | .started | .gone => none

/-- The steps of the thread on which the child completes, or that completes the operations without the child. -/
def stepNtf (c : Cfg) (s : St) (r : Option Nat) : Option St :=
  match s.ntf with
  | .result o =>
    if c.stream then
      some { s.touch c with ntf := .record, gpu := .queued o, idx := o.alt, nullWrite := s.nullWrite || s.mem.isNone }
    else some { s.touch c with ntf := .xchg, mem := some o, idx := o.alt, nullWrite := s.nullWrite || s.mem.isNone }
  | .record => match r with
    | none => some { s.touch c with ntf := .xchg, status := none, recorded := true }
    | some e => some { ((s.touch c).note r) with ntf := .xchg, status := some e }
  | .xchg => some { s.touch c with ntf := .pick (s.head.getD []), head := none }
  | .pick [] => some { s with ntf := .done }
  | .pick (k :: rest) => some { s.touchOp c k with ntf := .reset k rest }
  | .reset k rest =>
    if (s.cb k).busy ∧ s.nestedIn ≠ some k then none
    else some { s.touchOp c k with ntf := .wait k rest, reg := upd s.reg k false }
  | .wait k rest =>
    if s.status = none ∧ c.stream then match r with
      | none =>
        if s.recorded ∧ s.gpu.busy then none else some { s.touchOp c k with ntf := .deliver k rest }
      | some e =>
        some { ((s.touchOp c k).note r) with ntf := .pick rest,
                                             results := upd s.results k (s.answer none :: s.results k), status := some e }
    else some { s.touchOp c k with ntf := .deliver k rest }
  | .deliver k rest =>
    some { s.touchOp c k with ntf := .pick rest, results := upd s.results k (s.answer s.status :: s.results k) }
  | .idle | .done => none

/-- The child completed inside the callback of operation `i` and has not returned. -/
def inner (s : St) (i : Nat) : Bool := s.nestedIn == some i && s.ntf != .done

def step (c : Cfg) (s : St) : Act → Option St
  | .connect i =>
    if i < c.n ∧ s.senderRef = true ∧ s.op i = .off then some { s with op := upd s.op i .fresh } else none
  | .dropSender => if s.senderRef then ({ s with senderRef := false }).release c else none
  | .start i => if s.op i = .fresh then some { s with op := upd s.op i .load } else none
  | .destroy i =>
    if s.op i = .fresh ∨ (s.op i = .started ∧ s.results i ≠ []) then
      ({ s with op := upd s.op i .gone }).release c
    else none
  | .op i r sp => stepOp c s i r sp
  | .complete o inCb =>
    if s.starts = 1 ∧ s.outcome = none ∧ (∀ i ∈ inCb, s.cb i = .inside) then
      some { s with ntf := .result o, outcome := some o, nestedIn := inCb }
    else none
  | .ntf r => stepNtf c s r
  | .cb i => match s.cb i with
    | .enter =>
      some { s.touch c with cb := upd s.cb i (if s.srcStopped then .fin else .inside), srcStopped := true }
    | .inside => if inner s i then none else some { s.touch c with cb := upd s.cb i .fin }
    | _ => none
  | .gpu ok => match s.gpu with
    | .queued o =>
      if ok then some { s with gpu := .ran, mem := s.mem.map fun _ => o }
      else some { s with gpu := .failed, gpuFailed := true }
    | _ => none
  | .parentStop i =>
    if s.parentStopped i then none
    else if s.reg i then
      some { s with parentStopped := upd s.parentStopped i true, reg := upd s.reg i false, cb := upd s.cb i .enter }
    else some { s with parentStopped := upd s.parentStopped i true }

/-- The constructors of `split_sender` (404-407) and `sh_state` (162-193); `_initialize_stopped` (219-227). -/
def init (c : Cfg) : St :=
  { status := c.ctor.err, cudaErrs := c.ctor.err.toList
    mem := match c.ctor with | .noMem _ => none | _ => some .stopped }

abbrev Reachable (c : Cfg) (s : St) : Prop := Reach (init c) (step c) s

end Verif.NvSplit
