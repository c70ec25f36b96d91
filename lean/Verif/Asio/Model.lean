import Verif.Common
/-!
# `exec::asio::completion_token`: an Asio operation as a sender

`exec/asio/completion_token.hpp:169-412, 482-568`. One operation state, any number of threads. A thread's call stack
is a list of activation records (innermost first): the frames of `start`, of functions run by the wrapping executor
(`run_`) and of `~completion_handler`, each holding (until it is released) a lock on the recursive mutex `m_`; the stop callback
(before and after it has locked `m_`); the completion handler being invoked; a frame's destructor finishing the operation.
What Asio and the user's initiating function do between these calls — which thread runs what when, who throws, who stores, calls or
drops the handler — is the environment's choice: an execution is any sequence of actions.

The receiver is assumed to destroy the operation state as soon as it is completed: `alive` turns false, and every later access to
the operation state sets the ghost flag `bad`.

Simplifications: the critical section of `completion_handler::operator()` is one action; the stop callback follows C01-C04 (it runs
at most once, deregistration waits for a run on another thread, not for one on its own thread); exceptions are numbers;
values are not represented (only whether converting them throws).
-/
namespace Verif.Asio

/-- Who made a `frame_` (`completion_token.hpp:188-247`). -/
inductive Kind
  | init   -- `start()` (`:382`), the initiation is running (`:383-393`)
  | post   -- `start()`, past the `if (frame)` test (`:406`): about to register the stop callback
  | fini   -- `start()`, about to return
  | run    -- `run_` (`:250-265`): a function submitted to the wrapping executor is running
  | drop   -- `~completion_handler` (`:300-310`)
  deriving DecidableEq, Repr

/-- An activation record. -/
inductive Rec
  | frame (k : Kind) (id : Nat) (owned : Bool)   -- a `frame_` at address `id`; `owned`: its `l_` owns the lock
  | want                                         -- `on_stop_request_::operator()`, waiting for `m_` (`:272`)
  | emit                                         -- …, holding `m_`, inside `signal_.emit` (`:273`)
  | call (rst : Bool)                            -- `completion_handler::operator()` past its critical section (`:324-343`);
                                                 -- `rst`: `callback_.reset()` has returned
  | fin (rst : Bool)                             -- `~frame_` past `l_.unlock()` (`:215-224`)
  deriving DecidableEq, Repr

/-- The completion handler: a move-only token (`completion_handler`, `:286-362`). -/
inductive HSt | unborn | live | called | dropped
  deriving DecidableEq, Repr

/-- The stop callback `callback_` (`:279-282`). -/
inductive Cb | off | armed | running (t : Nat) | ran
  deriving DecidableEq, Repr

/-- What the receiver is sent. -/
inductive Sig | value | convError | error (e : Nat) | stopped
  deriving DecidableEq, Repr

/-- `operation_state_base` (`:169-283`), the call stacks, and ghosts. -/
structure St where
  stk : Nat → List Rec := fun _ => []
  owner : Option Nat := none     -- `m_`: owning thread
  depth : Nat := 0               -- `m_`: recursion depth
  frames : List Nat := []        -- the chain `frames_`, `frames_->prev_`, …
  next : Nat := 0                -- fresh address for the next frame
  ex : Option Nat := none        -- `ex_`
  abandoned : Bool := false      -- `abandoned_`
  h : HSt := .unborn
  cb : Cb := .off
  stopReq : Bool := false        -- a stop request has been made
  alive : Bool := true           -- ghost: the operation state exists
  done : List Sig := []          -- ghost: completions sent to the receiver
  bad : Bool := false            -- ghost: the operation state was accessed after it was gone
  asrt : Bool := false           -- ghost: an `STDEXEC_ASSERT` failed
  thrown : List Nat := []        -- ghost: exceptions thrown by the initiation and by executor functions, in order
  emits : Nat := 0               -- ghost: how often the cancellation signal was emitted

/-- Actions of thread `t`. -/
inductive Act
  | start (t : Nat)
  | enterRun (t : Nat)
  | leave (t : Nat) (thr : Option Nat)
  | initEnd (t : Nat) (thr : Option Nat)
  | emplace (t : Nat)
  | reqStop (t : Nat)
  | emitLock (t : Nat)
  | emitDone (t : Nat)
  | call (t : Nat)
  | drop (t : Nat)
  | reset (t : Nat)
  | complete (t : Nat) (conv : Bool)
  deriving DecidableEq, Repr

/-- An access to the operation state. -/
def St.touch (s : St) : St := { s with bad := s.bad || !s.alive }

/-- Can `t` lock the recursive mutex now? -/
def St.lockable (s : St) (t : Nat) : Bool := s.owner == none || s.owner == some t

/-- `m_.lock()` by `t` (when `lockable`). -/
def St.lock (s : St) (t : Nat) : St := { s with owner := some t, depth := s.depth + 1 }

/-- `m_.unlock()`, `n` times. -/
def St.unlock (s : St) (n : Nat) : St :=
  { s with owner := if s.depth - n = 0 then none else s.owner, depth := s.depth - n }

/-- Is thread `t`'s stack at a point where Asio's or the user's code runs? -/
def userTop : List Rec → Bool
  | [] => true
  | .frame .init _ _ :: _ => true
  | .frame .run _ _ :: _ => true
  | .emit :: _ => true
  | _ => false

/-- `frame_::frame_` (`:194-200`): lock, link in front. -/
def St.push (s : St) (t : Nat) (k : Kind) : St :=
  let s := (s.touch).lock t
  { s with stk := upd s.stk t (.frame k s.next true :: s.stk t), frames := s.next :: s.frames, next := s.next + 1 }

/-- `catch (...)`: keep the first exception (`run_`, `:257-264`, with its assertion; `start`, `:394-403`, without). -/
def St.catch_ (s : St) (thr : Option Nat) (asserted : Bool) : St :=
  match thr with
  | some e =>
    let s := s.touch
    { s with ex := (match s.ex with | some x => some x | none => some e), asrt := s.asrt || asserted,
             thrown := s.thrown ++ [e] }
  | none => s

/-- `~frame_` of the innermost activation of `t` (`:204-226`), up to the completion. -/
def St.pop (s : St) (t : Nat) (id : Nat) (owned : Bool) (rest : List Rec) : St :=
  if owned then
    let s := s.touch
    let a := s.asrt || (s.frames.head? != some id)
    let fr := s.frames.tail
    if fr = [] ∧ s.abandoned then
      { s.unlock 1 with frames := fr, asrt := a, stk := upd s.stk t (.fin false :: rest) }
    else
      { s.unlock 1 with frames := fr, asrt := a, stk := upd s.stk t rest }
  else { s with stk := upd s.stk t rest }

/-- `frame_::release` (`:233-246`) on one activation record: the frames in the chain give up their lock. -/
def relRec (ids : List Nat) : Rec → Rec
  | .frame k id o => if id ∈ ids then .frame k id false else .frame k id o
  | r => r

/-- The critical section of `completion_handler::operator()` (`:316-323`): under a `lock_guard`, all frames are released
and unlinked. -/
def St.release (s : St) : St :=
  let s := s.touch
  { s.unlock s.frames.length with frames := [], stk := fun u => (s.stk u).map (relRec s.frames) }

/-- Does deregistering the callback on thread `t` not have to wait? (C02: it waits for a run on another thread.) -/
def cbFree : Cb → Nat → Bool
  | .running u, t => u == t
  | _, _ => true

/-- What the operation completes with: `:216-223` for an abandoned handler, `:325-340` for an invoked one. -/
def sigOf (ex : Option Nat) (called conv : Bool) : Sig :=
  match ex with
  | some e => .error e
  | none => if called then (if conv then .convError else .value) else .stopped

/-- One step. -/
def step (s : St) : Act → Option St
  -- `operation_state::start` (`:380-393`): make a frame, create the handler, invoke the initiation
  | .start t =>
    if s.h = .unborn ∧ s.stk t = [] ∧ s.lockable t then some { s.push t .init with h := .live } else none
  -- a function given to the wrapping executor runs, or the executor is asked to run one (`run_`, `:250-256`, `wrap_`, `execute`, … `:483-490, 528-568`)
  | .enterRun t =>
    if s.h ≠ .unborn ∧ userTop (s.stk t) ∧ s.lockable t then some (s.push t .run) else none
  -- such a function, `~completion_handler` or `start` returns (or such a function throws)
  | .leave t thr =>
    match s.stk t with
    | .frame .run id o :: rest => some ((s.catch_ thr (!o)).pop t id o rest)
    | .frame .fini id o :: rest => if thr = none then some (s.pop t id o rest) else none
    | .frame .drop id o :: rest => if thr = none then some (s.pop t id o rest) else none
    | _ => none
  -- the initiation returns or throws (`:394-406`)
  | .initEnd t thr =>
    match s.stk t with
    | .frame .init id o :: rest =>
      let s := s.catch_ thr false
      if o then some { s with stk := upd s.stk t (.frame .post id o :: rest) }
      else some { s with stk := upd s.stk t (.frame .fini id o :: rest) }
    | _ => none
  -- `callback_.emplace` (`:408-409`): with a stop request already made the callback runs in the constructor (it can lock `m_`,
  -- which this thread owns)
  | .emplace t =>
    match s.stk t with
    | .frame .post id o :: rest =>
      let s := s.touch
      if s.stopReq then
        some { s.lock t with cb := .running t, emits := s.emits + 1, stk := upd s.stk t (.emit :: .frame .fini id o :: rest) }
      else some { s with cb := .armed, stk := upd s.stk t (.frame .fini id o :: rest) }
    | _ => none
  -- somebody requests stop: a registered callback runs on that thread
  | .reqStop t =>
    if userTop (s.stk t) ∧ s.stopReq = false then
      if s.cb = .armed then
        some { s with stopReq := true, cb := .running t, stk := upd s.stk t (.want :: s.stk t) }
      else some { s with stopReq := true }
    else none
  -- `std::lock_guard const l(self_.m_)` (`:272`), then `emit` begins
  | .emitLock t =>
    match s.stk t with
    | .want :: rest =>
      if s.lockable t then
        some { (s.touch).lock t with emits := s.emits + 1, stk := upd s.stk t (.emit :: rest) }
      else none
    | _ => none
  -- `emit` has returned: the lock guard unlocks (`:274`)
  | .emitDone t =>
    match s.stk t with
    | .emit :: rest =>
      some { (s.touch).unlock 1 with cb := if s.cb = .running t then .ran else s.cb, stk := upd s.stk t rest }
    | _ => none
  -- `completion_handler::operator()` (`:313-323`)
  | .call t =>
    if s.h = .live ∧ userTop (s.stk t) ∧ s.lockable t then
      let s := s.release
      some { s with h := .called, stk := upd s.stk t (.call false :: s.stk t) }
    else none
  -- `~completion_handler` (`:300-310`)
  | .drop t =>
    if s.h = .live ∧ userTop (s.stk t) ∧ s.lockable t then
      some { s.push t .drop with h := .dropped, abandoned := true }
    else none
  -- `callback_.reset()` (`:215`, `:324`): waits for a callback running on another thread
  | .reset t =>
    match s.stk t with
    | .call false :: rest =>
      if cbFree s.cb t then some { s.touch with cb := .off, stk := upd s.stk t (.call true :: rest) } else none
    | .fin false :: rest =>
      if cbFree s.cb t then some { s.touch with cb := .off, stk := upd s.stk t (.fin true :: rest) } else none
    | _ => none
  -- the receiver is completed (`:216-223`, `:325-340`); it destroys the operation state
  | .complete t conv =>
    match s.stk t with
    | .call true :: rest =>
      some { s.touch with done := s.done ++ [sigOf s.ex true conv], alive := false, stk := upd s.stk t rest }
    | .fin true :: rest =>
      if conv = false then
        some { s.touch with done := s.done ++ [sigOf s.ex false false], alive := false, stk := upd s.stk t rest }
      else none
    | _ => none

end Verif.Asio
