import Verif.Common
import Verif.Count

/-!
# nvexec `when_all` — model (C82)

`/repo/include/nvexec/stream/when_all.cuh`: `start` 267-287, `_arrive` 338-344, `_complete` 346-417,
`_set_error_impl` 435-454, `_set_value` 456-484, `_set_error` 486-491, `_set_stopped` 493-504, `_sync_op` 104-114;
`__forward_stop_request` (`/repo/include/stdexec/stop_token.hpp:472-480`).

Agents: the children, numbered from 0, reporting their completion on any thread; the thread inside `start()`; the
stop callback registered with the receiver's stop token; the GPU, which executes the kernels that copy the children's
values whenever it likes, and may fail to. Each step is one atomic access, one CUDA call, one call to the inner stop
source, one store of a result, or the completion of the receiver. The receiver's stop token is modelled by the
contract of its callbacks (C02-C04): a callback constructed after the stop request runs inside the constructor; its
destructor waits for an invocation on another thread, but not for one it is called from.

Simplifications: atomics sequentially consistent; a child's values are one number, or nothing (`sizeof...(Args) == 0`);
CUDA errors are numbers; at least one child
(with none, `start` completes at once, 281-284); the receiver's stream does nothing but wait for the events and then use the values, so that a
wait for an event is modelled as a host wait.
-/
namespace Verif.NvWhenAll

/-- What a child completes with: a value (or none), an error, stopped. -/
inductive Outcome
  | value (v : Option Nat)
  | error (e : Nat)
  | stopped
  deriving DecidableEq, Repr

/-- Static facts: number of children, whether the receiver is a `stream_receiver` (372, 474), and what
`cudaMallocManaged` returned in the constructor (257). -/
structure Cfg where
  n : Nat
  stream : Bool
  malloc : Option Nat := none

inductive Pc
  /-- has not completed -/
  | wait
  /-- about to load `state_` (463) -/
  | load (v : Option Nat)
  /-- about to launch `copy_kernel` (466-471) -/
  | copy (v : Nat)
  /-- about to record the event (474-480) -/
  | record
  /-- about to `state_.exchange(error)` (439) -/
  | setErr (e : Nat)
  /-- about to `request_stop()` after that (444) -/
  | reqErr (e : Nat)
  /-- about to store the error (450) -/
  | saveErr (e : Nat)
  /-- about to CAS `started → stopped` (499) -/
  | cas
  /-- about to `request_stop()` after that (501) -/
  | reqStop
  /-- about to `count_.fetch_sub(1)` (340) -/
  | arrive
  /-- saw the count reach zero, about to `on_stop_.reset()` (349) -/
  | reset
  /-- about to look at the statuses (352-359) -/
  | look
  /-- about to wait for child `k`'s stream (361-384) -/
  | sync (k : Nat)
  /-- about to load `state_` and complete the receiver (386-416) -/
  | deliver
  | done
  deriving DecidableEq, Repr

/-- `_when_all::disposition` (40-45). -/
inductive Phase
  | started | error | stopped
  deriving DecidableEq, Repr

/-- A child's copy kernel. -/
inductive Gpu
  | none
  | queued (v : Nat)
  | ran
  | failed
  deriving DecidableEq, Repr

/-- The kernel is in the stream. -/
def Gpu.busy : Gpu → Bool
  | .queued _ => true
  | _ => false

/-- Completions of the receiver: the children's values in order, the error of a child, a CUDA error (414), stopped;
`garbage`: memory that was not written is taken for values. -/
inductive Res
  | value (vs : List Nat)
  | error (e : Nat)
  | cuda (e : Nat)
  | stopped
  | garbage
  deriving DecidableEq, Repr

/-- The stop callback. -/
inductive Cb
  | off
  /-- invoked, about to `stop_source_.request_stop()` (stop_token.hpp:476) -/
  | enter
  /-- inside `request_stop()`, which runs the children's callbacks and then goes on using the stop source -/
  | inside
  | fin
  deriving DecidableEq, Repr

/-- The thread inside `start()`. -/
inductive Starter
  | idle
  /-- the callback runs inside `emplace` (271) -/
  | inl
  /-- about to ask `stop_source_.stop_requested()` (272) -/
  | check
  /-- about to start child `k` (280) -/
  | at (k : Nat)
  | done
  deriving DecidableEq, Repr

structure St where
  starter : Starter := .idle
  pc : Nat → Pc := fun _ => .wait
  cb : Cb := .off
  /-- child `i` completed inside the callback's `request_stop()` -/
  nested : Nat → Bool := fun _ => false
  count : Nat
  phase : Phase := .started
  err : Option Nat := none
  status : Option Nat := none
  statuses : Nat → Option Nat := fun _ => none
  recorded : Nat → Bool := fun _ => false
  gpu : Nat → Gpu := fun _ => .none
  /-- `*values_` -/
  mem : Nat → Option Nat := fun _ => none
  srcStopped : Bool := false
  /-- the stop callback is registered -/
  reg : Bool := false
  parentStopped : Bool := false
  /-- completions of the receiver, newest first, with the fact whether the children had been asked to stop -/
  results : List (Res × Bool) := []
  -- ghost
  outcome : Nat → Option Outcome := fun _ => none
  /-- children in the order of their error reports (439), newest first -/
  errLog : List Nat := []
  /-- CUDA calls of this operation that returned an error -/
  cudaErrs : List Nat := []
  /-- a kernel was told to write to a null pointer -/
  nullWrite : Bool := false
  /-- the operation state was used after the receiver was completed -/
  uaf : Bool := false

/-- The values a child contributes, as read from memory: nothing if it has none (`__decayed_tuple<>`). -/
def part (s : St) (i : Nat) : Option (List Nat) :=
  match s.outcome i with
  | some (.value none) => some []
  | _ => (s.mem i).map ([·])

/-- The values of the first `k` children, in order; `none` if one of them was not written (394-405). -/
def values (s : St) : Nat → Option (List Nat)
  | 0 => some []
  | k + 1 => match values s k, part s k with
    | some a, some b => some (a ++ b)
    | _, _ => none

/-- What `_complete` delivers (386-416). -/
def result (c : Cfg) (s : St) : Res :=
  match s.status with
  | some e => .cuda e
  | none => match s.phase with
    | .started => match values s c.n with
      | some vs => .value vs
      | none => .garbage
    | .error => match s.err with
      | some e => .error e
      | none => .garbage
    | .stopped => .stopped

/-- The first of the statuses that is not `cudaSuccess` (352-359). -/
def firstBad (s : St) : Nat → Option Nat
  | 0 => none
  | k + 1 => match firstBad s k with
    | some e => some e
    | none => s.statuses k

/-- Where a child's completion function starts. -/
def Outcome.pc : Outcome → Pc
  | .value v => .load v
  | .error e => .setErr e
  | .stopped => .cas

/-- All children that complete inside the callback have returned. -/
def nestedDone (s : St) : Nat → Bool
  | 0 => true
  | k + 1 => nestedDone s k && (!s.nested k || decide (s.pc k = .done))

inductive Act
  | start
  /-- child `i` completes; `inCb`: from within the callback's `request_stop()` -/
  | complete (i : Nat) (o : Outcome) (inCb : Bool)
  /-- child `i`'s thread goes on; `r`: the result of the CUDA call, if there is one -/
  | step (i : Nat) (r : Option Nat)
  /-- the callback goes on -/
  | cb
  /-- the GPU executes child `i`'s copy -/
  | gpu (i : Nat) (ok : Bool)
  /-- stop is requested on the receiver's token -/
  | parentStop
  deriving DecidableEq, Repr

/-- A CUDA call returned `r`. -/
def note (s : St) (r : Option Nat) : St := { s with cudaErrs := r.toList ++ s.cudaErrs }

/-- One step of the thread that reports child `i`'s completion. -/
def stepChild (c : Cfg) (s : St) (i : Nat) (r : Option Nat) : Option St :=
  let s := { s with uaf := s.uaf || !s.results.isEmpty }
  match s.pc i with
  | .load v =>
    if s.phase = .started then
      some { s with pc := upd s.pc i (match v with | some v => .copy v | none => .record) }
    else some { s with pc := upd s.pc i .arrive }
  | .copy v => match r with
    | none =>
      -- launched; `values_` may be null
      some { s with pc := upd s.pc i .record, gpu := upd s.gpu i (.queued v),
                    nullWrite := s.nullWrite || c.malloc.isSome }
    | some e => some (note { s with pc := upd s.pc i .record, statuses := upd s.statuses i (some e) } r)
  | .record =>
    if c.stream ∧ s.statuses i = none then match r with
      | none => some { s with pc := upd s.pc i .arrive, recorded := upd s.recorded i true }
      | some e => some (note { s with pc := upd s.pc i .arrive, statuses := upd s.statuses i (some e) } r)
    else some { s with pc := upd s.pc i .arrive }
  | .setErr e =>
    some { s with pc := upd s.pc i (match s.phase with
                      | .started => .reqErr e
                      | .stopped => .saveErr e
                      | .error => .arrive)
                  phase := .error, errLog := i :: s.errLog }
  | .reqErr e => some { s with pc := upd s.pc i (.saveErr e), srcStopped := true }
  | .saveErr e => some { s with pc := upd s.pc i .arrive, err := some e }
  | .cas =>
    if s.phase = .started then some { s with pc := upd s.pc i .reqStop, phase := .stopped }
    else some { s with pc := upd s.pc i .arrive }
  | .reqStop => some { s with pc := upd s.pc i .arrive, srcStopped := true }
  | .arrive =>
    if s.count = 1 then some { s with pc := upd s.pc i .reset, count := 0 }
    else some { s with pc := upd s.pc i .done, count := s.count - 1 }
  | .reset =>
    -- the destructor of the callback waits for an invocation on another thread
    if (s.cb = .enter ∨ s.cb = .inside) ∧ s.nested i = false then none
    else some { s with pc := upd s.pc i .look, reg := false }
  | .look =>
    some { s with pc := upd s.pc i (.sync 0)
                  status := match firstBad s c.n with | some e => some e | none => s.status }
  | .sync k =>
    if s.status = none ∧ k < c.n then
      if c.stream then match r with
        | none =>
          -- wait for what was recorded
          if s.recorded k ∧ (s.gpu k).busy then none
          else some { s with pc := upd s.pc i (.sync (k + 1)) }
        | some e => some (note { s with pc := upd s.pc i (.sync (k + 1)), status := some e } r)
      else
        -- `cudaStreamSynchronize`; its result goes to the child's stream provider, which nobody reads
        if (s.gpu k).busy then none
        else some (note { s with pc := upd s.pc i (.sync (k + 1)) } r)
    else some { s with pc := upd s.pc i .deliver }
  | .deliver => some { s with pc := upd s.pc i .done, results := (result c s, s.srcStopped) :: s.results }
  | .wait | .done => none

def step (c : Cfg) (s : St) : Act → Option St
  | .start => match s.starter with
    | .idle =>
      if s.parentStopped then some { s with starter := .inl, cb := .enter }
      else some { s with starter := .check, reg := true }
    | .inl => if s.cb = .fin then some { s with starter := .check } else none
    | .check =>
      if s.srcStopped then
        some { s with starter := .done, results := (.stopped, s.srcStopped) :: s.results }
      else some { s with starter := .at 0 }
    | .at k => if k < c.n then some { s with starter := .at (k + 1), uaf := s.uaf || !s.results.isEmpty }
               else none
    | .done => none
  | .complete i o inCb => match s.starter with
    | .at k =>
      if i < k ∧ s.pc i = .wait ∧ (inCb = true → s.cb = .inside) then
        some { s with pc := upd s.pc i o.pc, outcome := upd s.outcome i (some o), nested := upd s.nested i inCb }
      else none
    | _ => none
  | .step i r => stepChild c s i r
  | .cb =>
    match s.cb with
    | .enter => some { s with cb := .inside, srcStopped := true, uaf := s.uaf || (!s.results.isEmpty && s.starter ≠ .done) }
    | .inside =>
      if nestedDone s c.n then
        some { s with cb := .fin, uaf := s.uaf || (!s.results.isEmpty && s.starter ≠ .done) }
      else none
    | _ => none
  | .gpu i ok => match s.gpu i with
    | .queued v =>
      if ok then some { s with gpu := upd s.gpu i .ran, mem := upd s.mem i (some v) }
      else some { s with gpu := upd s.gpu i .failed }
    | _ => none
  | .parentStop =>
    if s.parentStopped then none
    else if s.reg then some { s with parentStopped := true, reg := false, cb := .enter }
    else some { s with parentStopped := true }

/-- The constructor (250-258) and the initializers of the members (506-522). -/
def init (c : Cfg) : St :=
  { count := c.n, status := c.malloc, cudaErrs := c.malloc.toList }

abbrev Reachable (c : Cfg) (s : St) : Prop := Reach (init c) (step c) s

end Verif.NvWhenAll
