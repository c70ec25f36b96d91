import Verif.Common
/-!
# `timed_thread_context` / `schedule_at` (C41)

Models `/repo/include/exec/timed_thread_scheduler.hpp` 126-262 (the context) and 267-361 (the operation).

Any number of operations, each with its own thread calling `start()` and its own thread delivering the stop
request; one run thread; a clock that only moves forward. Every atomic access, every critical section and every
completion is one step; memory is sequentially consistent.

Simplifications:
* `heap_` is a list kept sorted by `(time_point, counter)`; that `intrusive_heap` behaves like this is C40.
* `command_queue_` is the list of commands whose `push_back` exchanged the head, oldest first, with a flag "the
  predecessor's `next` has been stored". `pop_front` is two steps (call, return): it may return the oldest command
  when that one and its successor (if any) are linked; it may return null when the queue is empty or a push was in
  progress at some time during the call. `push_back` reports "was empty" whenever the queue is empty, and may do
  so at other times. That the pointer-level queue behaves so is what C12 says about it.
* The overflow of `n_submissions_in_flight_` by 2^62 submissions after the context was closed is not modelled:
  a submission that finds the context closed is refused, whatever the drift of the counter.
* A stop request made by the same thread that is inside `start()` (the token was stopped already) runs the callback
  inline; the model lets "the callback's thread" do it while `start()` waits.
-/
namespace Verif.Timed

inductive Cmd
  | sched (i : Nat)
  | stop (i : Nat)
  deriving DecidableEq, Repr

inductive Outcome
  | value
  | stopped
  deriving DecidableEq, Repr

/-- A thread in `timed_thread_context::schedule` (212-239). -/
inductive Sub
  /-- about to increment `n_submissions_in_flight_` (214) -/
  | add
  /-- about to exchange the queue's head (232) -/
  | push
  /-- about to store `prev->next`; `b`: `push_back` will return true -/
  | link (b : Bool)
  /-- about to lock, set `ready_` and notify (234-236) -/
  | notify
  /-- about to decrement `n_submissions_in_flight_` (238) -/
  | sub
  /-- the context is closed: about to decrement `ref_count_` in `set_stopped_` / `set_value_` (216-226) -/
  | closed
  /-- … that was the last reference: about to reset the stop callback and complete -/
  | fin
  deriving DecidableEq, Repr

/-- The thread in `start()` (314-328). -/
inductive SPc
  | idle
  /-- about to emplace the stop callback (316) -/
  | emplace
  /-- the token was stopped already: the callback runs inside `emplace` -/
  | inl
  /-- about to compare-exchange `ref_count_` from 0 to 1 (319) -/
  | cas
  /-- in `context_.schedule(this)` (333) -/
  | sub (p : Sub)
  /-- the compare-exchange failed: about to reset the callback and complete (325-326) -/
  | reset
  /-- `start()` has returned -/
  | done
  deriving DecidableEq, Repr

/-- The stop callback of an operation. -/
inductive Cb
  /-- not (or no longer) registered, never ran -/
  | off
  | armed
  /-- running: about to increment `ref_count_` in `request_stop` (351) -/
  | call
  /-- running: in `context_.schedule(&stop_op_)` (353) -/
  | sub (p : Sub)
  /-- has run -/
  | ran
  deriving DecidableEq, Repr

/-- The callback is being executed by some thread. -/
def Cb.running : Cb → Bool
  | .call => true
  | .sub _ => true
  | _ => false

/-- `stop_callback_.reset()`: the callback is unregistered. -/
def Cb.unreg : Cb → Cb
  | .armed => .off
  | c => c

/-- The run thread in `run()` (152-210). -/
inductive RPc
  /-- about to call `pop_front` (156) -/
  | pop
  /-- inside `pop_front`; `o`: a push has been in progress at some time since the call -/
  | popping (o : Bool)
  /-- erased `i` from the heap: about to decrement `ref_count_` in `i.set_stopped_` (170) -/
  | erased (i : Nat)
  /-- about to decrement `ref_count_` in `i.stop_op_.set_value_` (172) -/
  | stopOp (i : Nat)
  /-- about to read the clock (175) -/
  | now
  /-- looking at the heap's front (176-181) -/
  | due
  /-- popped `i`, which is due: about to decrement `ref_count_` in `i.set_value_` (180) -/
  | val (i : Nat)
  /-- about to wait on the condition variable until the given time (183-187) -/
  | wait (d : Nat)
  /-- saw `stop_requested_`: about to close the context (191-198) -/
  | close
  /-- draining the heap (199-206) -/
  | drain
  /-- popped `i` while draining: about to decrement `ref_count_` in `i.set_stopped_` (204) -/
  | dstop (i : Nat)
  | exit
  /-- the last reference to `i` was given up: about to reset its stop callback and complete it with `o`; after
  that the run thread goes on at `k`: 0 = `stopOp i`, 1 = `pop`, 2 = `due`, 3 = `drain` -/
  | fin (i : Nat) (o : Outcome) (k : Fin 4)
  deriving DecidableEq, Repr

inductive Ev
  /-- the operation completed with the outcome at the time -/
  | done (i : Nat) (o : Outcome) (t : Nat)
  /-- the run thread accepted the operation with the submission number -/
  | accept (i : Nat) (n : Nat)
  /-- the operation left the heap: it is due -/
  | fire (i : Nat)
  /-- the operation left the heap: it, or the context, was stopped -/
  | cancel (i : Nat)
  deriving DecidableEq, Repr

/-- ghost: where the reference that `start()` takes (319) is -/
inductive Ref
  | none | sub | queued | heap | held | gone
  deriving DecidableEq, Repr

structure St where
  now : Nat := 0
  q : List (Cmd × Bool) := []
  heap : List Nat := []
  counter : Nat := 1
  infl : Nat := 0
  closed : Bool := false
  ready : Bool := false
  stopReq : Bool := false
  run : RPc := .pop
  snap : Nat := 0
  dl : Nat → Nat := fun _ => 0
  num : Nat → Nat := fun _ => 0
  ref : Nat → Nat := fun _ => 0
  sp : Nat → SPc := fun _ => .idle
  cb : Nat → Cb := fun _ => .off
  /-- stop was requested on the token of the operation's receiver -/
  tok : Nat → Bool := fun _ => false
  /-- ghost: the operation has completed; its memory may be gone -/
  dead : Nat → Bool := fun _ => false
  log : List Ev := []
  /-- ghost: the memory of a completed operation was touched -/
  bad : Bool := false
  /-- ghost: the reference taken by `start()` -/
  ss : Nat → Ref := fun _ => .none
  /-- ghost: the reference taken by the stop callback (351) -/
  ts : Nat → Ref := fun _ => .none
  /-- ghost: the submissions counted by `n_submissions_in_flight_` -/
  fl : List Cmd := []
  /-- ghost: `start()` had returned when stop was requested on the token -/
  late : Nat → Bool := fun _ => false

inductive Act
  | tick
  /-- a thread calls `start()` on operation `i`, made by `schedule_at(d)` -/
  | start (i d : Nat)
  /-- the thread in `start()` goes on; `b` resolves what `push_back` reports on a non-empty queue -/
  | starter (i : Nat) (b : Bool)
  /-- stop is requested on the token of `i` -/
  | reqStop (i : Nat)
  /-- the thread that requested stop begins to execute the callback -/
  | cbBegin (i : Nat)
  | stopper (i : Nat) (b : Bool)
  /-- the context's destructor calls `request_stop` (241-246) -/
  | ctxStop
  /-- the run thread goes on; `nul`: `pop_front` returns null if it may -/
  | run (nul : Bool)

/-- `when_type::operator<` (79-83). -/
def before (dl num : Nat → Nat) (i j : Nat) : Bool :=
  dl i < dl j || (!(dl j < dl i) && num i < num j)

/-- `heap_.insert`, on the sorted list. -/
def insertBy (lt : Nat → Nat → Bool) (i : Nat) : List Nat → List Nat
  | [] => [i]
  | j :: l => if lt i j then i :: j :: l else j :: insertBy lt i l

/-- Operation `i` is accessed. -/
def St.touch (s : St) (i : Nat) : St := { s with bad := s.bad || s.dead i }

/-- The stop callback is reset and `rcvr_` is completed (283-284, 293-294, 307-308, 325-326). -/
def St.complete (s : St) (i : Nat) (o : Outcome) : St :=
  { s with cb := upd s.cb i (s.cb i).unreg, dead := upd s.dead i true, log := s.log ++ [.done i o s.now], bad := s.bad || s.dead i }

/-- The queue with the entry of command `c` linked. -/
def linkCmd (c : Cmd) (q : List (Cmd × Bool)) : List (Cmd × Bool) :=
  q.map (fun e => if e.1 = c then (c, true) else e)

/-- A push has begun: a `pop_front` in progress may miss what is behind it. -/
def RPc.overlap : RPc → RPc
  | .popping _ => .popping true
  | r => r

/-- The head of the queue may be popped: it is linked and so is its successor, if there is one. -/
def popHead : List (Cmd × Bool) → Option (Cmd × List (Cmd × Bool))
  | [(c, true)] => some (c, [])
  | (c, true) :: (d, true) :: q => some (c, (d, true) :: q)
  | _ => none

/-- `start()` on operation `i` (314-328), and `context_.schedule(this)` inside it. -/
def stepStarter (s : St) (i : Nat) (b : Bool) : Option St :=
  match s.sp i with
  | .emplace =>
    if s.tok i then some { s.touch i with sp := upd s.sp i .inl, cb := upd s.cb i .call }
    else some { s.touch i with sp := upd s.sp i .cas, cb := upd s.cb i .armed }
  | .inl => if (s.cb i).running then none else some { s with sp := upd s.sp i .cas }
  | .cas =>
    if s.ref i = 0 then
      some { s.touch i with ref := upd s.ref i 1, sp := upd s.sp i (.sub .add), ss := upd s.ss i .sub }
    else some { s.touch i with sp := upd s.sp i .reset }
  | .sub .add =>
    if s.closed then some { s with sp := upd s.sp i (.sub .closed) }
    else some { s with infl := s.infl + 1, fl := .sched i :: s.fl, sp := upd s.sp i (.sub .push) }
  | .sub .push =>
    some { s.touch i with q := s.q ++ [(.sched i, false)], ss := upd s.ss i .queued
                          sp := upd s.sp i (.sub (.link (s.q.isEmpty || b))), run := s.run.overlap }
  | .sub (.link w) =>
    some { s with q := linkCmd (.sched i) s.q, sp := upd s.sp i (.sub (if w then .notify else .sub)) }
  | .sub .notify => some { s with ready := true, sp := upd s.sp i (.sub .sub) }
  | .sub .sub => some { s with infl := s.infl - 1, fl := s.fl.erase (.sched i), sp := upd s.sp i .done }
  | .sub .closed =>
    some { s.touch i with ref := upd s.ref i (s.ref i - 1), ss := upd s.ss i .gone
                          sp := upd s.sp i (if s.ref i = 1 then .sub .fin else .done) }
  | .sub .fin =>
    if (s.cb i).running then none else
    some { s.complete i .stopped with sp := upd s.sp i .done }
  | .reset =>
    if (s.cb i).running then none else
    some { s.complete i .stopped with sp := upd s.sp i .done }
  | .idle => none
  | .done => none

/-- The stop callback of operation `i` (349-355), and `context_.schedule(&stop_op_)` inside it. -/
def stepStopper (s : St) (i : Nat) (b : Bool) : Option St :=
  match s.cb i with
  | .call =>
    if s.ref i = 1 then
      some { s.touch i with ref := upd s.ref i 2, cb := upd s.cb i (.sub .add), ts := upd s.ts i .sub }
    else some { s.touch i with ref := upd s.ref i (s.ref i + 1), cb := upd s.cb i .ran, ts := upd s.ts i .gone }
  | .sub .add =>
    if s.closed then some { s with cb := upd s.cb i (.sub .closed) }
    else some { s with infl := s.infl + 1, fl := .stop i :: s.fl, cb := upd s.cb i (.sub .push) }
  | .sub .push =>
    some { s.touch i with q := s.q ++ [(.stop i, false)], ts := upd s.ts i .queued
                          cb := upd s.cb i (.sub (.link (s.q.isEmpty || b))), run := s.run.overlap }
  | .sub (.link w) =>
    some { s with q := linkCmd (.stop i) s.q, cb := upd s.cb i (.sub (if w then .notify else .sub)) }
  | .sub .notify => some { s with ready := true, cb := upd s.cb i (.sub .sub) }
  | .sub .sub => some { s with infl := s.infl - 1, fl := s.fl.erase (.stop i), cb := upd s.cb i .ran }
  | .sub .closed =>
    some { s.touch i with ref := upd s.ref i (s.ref i - 1), ts := upd s.ts i .gone
                          cb := upd s.cb i (if s.ref i = 1 then .sub .fin else .ran) }
  -- the callback resets itself: `reset()` does not wait for the calling thread
  | .sub .fin => some { s.complete i .stopped with cb := upd s.cb i .ran }
  | _ => none

/-- Where the run thread goes after a completion. -/
def RPc.cont (i : Nat) : Fin 4 → RPc
  | 0 => .stopOp i
  | 1 => .pop
  | 2 => .due
  | 3 => .drain

/-- `set_stopped_`, `set_value_` or `stop_op_.set_value_` of `i` called by the run thread (277-309): give up a
reference; whoever gives up the last one completes. -/
def St.release (s : St) (i : Nat) (o : Outcome) (k : Fin 4) : St :=
  { s.touch i with ref := upd s.ref i (s.ref i - 1), run := if s.ref i = 1 then .fin i o k else .cont i k }

/-- `run()` (152-210). -/
def stepRun (s : St) (nul : Bool) : Option St :=
  match s.run with
  | .pop => some { s with run := .popping (s.q.any (fun e => !e.2)) }
  | .popping o =>
    if nul then
      if s.q.isEmpty ∨ o = true then some { s with run := .now } else none
    else match popHead s.q with
      | some (.sched i, q) =>
        some { s.touch i with q := q, counter := s.counter + 1, num := upd s.num i s.counter
                              heap := insertBy (before s.dl (upd s.num i s.counter)) i s.heap, ss := upd s.ss i .heap, run := .pop
                              log := s.log ++ [.accept i s.counter] }
      | some (.stop i, q) =>
        if i ∈ s.heap then
          some { s.touch i with q := q, ts := upd s.ts i .held, heap := s.heap.erase i, ss := upd s.ss i .held, run := .erased i
                                log := s.log ++ [.cancel i] }
        else some { s.touch i with q := q, ts := upd s.ts i .held, run := .stopOp i }
      | none => none
  | .erased i => some { s.release i .stopped 0 with ss := upd s.ss i .gone }
  | .stopOp i => some { s.release i .stopped 1 with ts := upd s.ts i .gone }
  | .now => some { s with snap := s.now, run := .due }
  | .due => match s.heap with
    | i :: l =>
      if s.dl i ≤ s.snap then
        some { s with heap := l, ss := upd s.ss i .held, run := .val i, log := s.log ++ [.fire i] }
      else some { s with run := .wait (s.dl i) }
    | [] => some { s with run := .wait (s.snap + 2) }
  | .val i => some { s.release i .value 2 with ss := upd s.ss i .gone }
  | .wait d =>
    if s.ready ∨ s.stopReq ∨ d ≤ s.now then
      some { s with ready := false, run := if s.stopReq then .close else .pop }
    else none
  | .close => if s.infl = 0 then some { s with closed := true, run := .drain } else none
  | .drain => match s.heap with
    | i :: l => some { s with heap := l, ss := upd s.ss i .held, run := .dstop i, log := s.log ++ [.cancel i] }
    | [] => some { s with run := .exit }
  | .dstop i => some { s.release i .stopped 3 with ss := upd s.ss i .gone }
  | .exit => none
  | .fin i o k =>
    if (s.cb i).running then none else
    some { s.complete i o with run := .cont i k }

def step (s : St) (a : Act) : Option St :=
  match a with
  | .tick => some { s with now := s.now + 1 }
  | .start i d =>
    if s.sp i = .idle then some { s with sp := upd s.sp i .emplace, dl := upd s.dl i d } else none
  | .starter i b => stepStarter s i b
  | .reqStop i =>
    if s.tok i then none
    else some { s with tok := upd s.tok i true, late := upd s.late i (decide (s.sp i = .done)) }
  | .cbBegin i => if s.tok i ∧ s.cb i = .armed then some { s with cb := upd s.cb i .call } else none
  | .stopper i b => stepStopper s i b
  | .ctxStop => some { s with stopReq := true }
  | .run nul => stepRun s nul

def init : St := {}
abbrev Reachable (s : St) : Prop := Reach init step s

end Verif.Timed
