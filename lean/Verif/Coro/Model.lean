import Verif.Common
/-!
# exec::task coroutines, exit actions and reschedule (C58)

Models `include/exec/task.hpp`, `include/exec/at_coroutine_exit.hpp`,
`include/exec/on_coro_disposition.hpp`, the continuation chain of
`include/stdexec/__detail/__with_awaitable_senders.hpp` and the operation state through which one
task awaits another (`include/stdexec/__detail/__connect_awaitable.hpp`).

A coroutine frame is a cell of a heap; continuations are addresses.  Reading, writing or freeing an
absent cell has no step: such a machine is stuck, which stands for undefined behaviour.

Simplifications.  The tasks have the default (scheduler-affine) context, so that an awaited sender or
task is wrapped in `continues_on` (task.hpp:601-616).  The transfer made by `continues_on` and the
completion of an awaited leaf sender are one step each: the coroutine is suspended in between and
nothing else can touch its frames.  Frame allocation does not fail; stop tokens are not modelled
(C53, C54 do), a leaf sender simply completes with `set_stopped`.
-/
namespace Verif.Coro

/-- An execution context, identified with its scheduler. -/
scoped notation "Ctx" => Nat

/-- The address of a coroutine frame or operation state. -/
scoped notation "Addr" => Nat

/-- `task_disposition` (task.hpp:378-383). -/
inductive Disp | stopped | succeeded | failed
deriving DecidableEq, Repr

/-- How an asynchronous operation ends. -/
inductive Out | val (v : Nat) | err (e : Nat) | stop
deriving DecidableEq, Repr

/-- The body of a coroutine, from some point to its end. -/
inductive Body : Type
  /-- `co_return v` -/
  | ret (v : Nat)
  /-- an exception escapes the body -/
  | throw (e : Nat)
  /-- ordinary code, seen from outside as `n` -/
  | emit (n : Nat) (k : Body)
  /-- `co_await` a sender that completes on context `c` with `o`; `kv` is the rest after a value and
      `ke` what follows the exception (a handler, or `throw`). -/
  | await (c : Ctx) (o : Out) (kv ke : Nat → Body)
  /-- `co_await at_coroutine_exit(act)` (`cond = none`) or `co_await on_coroutine_succeeded(act)` …
      (`cond = some d`), where `act()` returns a task with the body `act`. -/
  | reg (cond : Option Disp) (act : Body) (k : Body)
  /-- the same, where `act()` returns a plain sender that completes on `c` with `o` -/
  | regOp (cond : Option Disp) (c : Ctx) (o : Out) (k : Body)
  /-- `co_await reschedule_coroutine_on(c)`, where `schedule(c)` completes with `o` -/
  | resched (c : Ctx) (o : Out) (k : Body)
  /-- `co_await child` (`guard = false`) or `co_await stopped_as_optional(child)` (`guard = true`, with
      `ks` the rest when the child was stopped) -/
  | call (child : Body) (guard : Bool) (kv ke : Nat → Body) (ks : Body)

/-- Where a task is suspended: before some code, or awaiting the operation state `o`. -/
inductive Rest : Type
  | run (b : Body)
  | awaiting (o : Addr) (guard : Bool) (kv ke : Nat → Body) (ks : Body)

/-- What an exit action does: a task, or a plain sender. -/
inductive Act : Type
  | task (b : Body)
  | op (c : Ctx) (o : Out)

/-- The contents of a heap cell.

* `task`: a `basic_task` coroutine (task.hpp:489-700): `__data_`, `__continuation_`, the scheduler of
  its `__context_` and `__rescheduled_`;
* `cleanup`: the coroutine made by `at_coroutine_exit` or `on_coroutine_*`
  (at_coroutine_exit.hpp:131-279, on_coro_disposition.hpp:71-202): its action, `__parent_`,
  `__continuation_`, `__scheduler_`, `__is_stopped_`, and the operation it awaits, if any;
* `opc`: the operation state by which a task (`child`) is awaited by the coroutine `parent`
  (`none` stands for the receiver of the outermost operation; __connect_awaitable.hpp:385-505). -/
inductive Frame : Type
  | task (rest : Rest) (data : Option Out) (cont : Addr) (sched : Ctx) (rescheduled : Bool)
  | cleanup (cond : Option Disp) (act : Act) (parent : Addr) (cont : Addr) (sched : Ctx)
      (isStopped : Bool) (op : Option Addr)
  | opc (parent : Option Addr) (child : Addr)

/-- What the executing thread does next. -/
inductive Ctl : Type
  /-- `handle.resume()` -/
  | resume (f : Addr)
  /-- `handle.unhandled_stopped()` -/
  | stopped (f : Addr)
  /-- the final suspend point of a cleanup coroutine -/
  | final (g : Addr)
  /-- destroy the frame `f` (and, from its destructor, what it owns), then go on with `next` -/
  | destroy (f : Addr) (next : Ctl)
  /-- the receiver of the outermost operation has been completed -/
  | halt (o : Out)
  /-- `std::terminate` -/
  | dead

/-- What is seen from outside: a coroutine's ordinary code; the destruction of an exit action (its
    captures and arguments live in its coroutine's frame); that this destruction is postponed until
    after the coroutine's completion has been delivered. -/
inductive Ev : Type
  | code (c : Ctx) (n : Nat)
  | freed
  | late
deriving DecidableEq, Repr

structure St where
  heap : Addr → Option Frame
  next : Addr
  ctx : Ctx
  trace : List Ev
  ctl : Ctl

def upd (h : Addr → Option Frame) (a : Addr) (x : Option Frame) : Addr → Option Frame :=
  fun i => if i = a then x else h i

/-- `disposition()` (task.hpp:581-593): the index of `__data_`; a valueless `__data_` is a stopped
    task. -/
def disp : Option Out → Disp
  | some (.val _) => .succeeded
  | some (.err _) => .failed
  | _ => .stopped

/-- Whether the action of a cleanup coroutine is to be run (on_coro_disposition.hpp:210-224; always
    for at_coroutine_exit). -/
def wanted (cond : Option Disp) (d : Disp) : Bool :=
  match cond with
  | none => true
  | some c => c == d

/-- Completion of an awaited leaf sender: after `continues_on` the coroutine is on its own scheduler;
    the value or exception is that of the `co_await` expression, `set_stopped` calls the promise's
    `unhandled_stopped` (__as_awaitable.hpp, modelled in C53). -/
def afterOp (s : St) (f : Addr) (o : Out) (kv ke : Nat → Body) (data : Option Out) (cont : Addr)
    (sched : Ctx) (rs : Bool) : St :=
  match o with
  | .val v => { s with ctx := sched, heap := upd s.heap f (some (.task (.run (kv v)) data cont sched rs)) }
  | .err e => { s with ctx := sched, heap := upd s.heap f (some (.task (.run (ke e)) data cont sched rs)) }
  | .stop => { s with ctx := sched, ctl := .stopped f }

/-- Splice a cleanup coroutine into the parent's chain of continuations
    (at_coroutine_exit.hpp:163-178, on_coro_disposition.hpp:91-105). -/
def splice (s : St) (f : Addr) (cond : Option Disp) (act : Act) (k : Body) (data : Option Out)
    (cont : Addr) (sched sched' : Ctx) (rs : Bool) : St :=
  { s with
    heap := upd (upd s.heap s.next (some (.cleanup cond act f cont sched false none)))
      f (some (.task (.run k) data s.next sched' rs)),
    next := s.next + 1 }

/-- Start a task `b` awaited by `parent`: the frame of the coroutine at `next` and the operation state
    at `next + 1` (task.hpp:671-685, __connect_awaitable.hpp:406-447). -/
def launch (h : Addr → Option Frame) (n : Addr) (parent : Option Addr) (b : Body) (sched : Ctx) :
    Addr → Option Frame :=
  upd (upd h n (some (.task (.run b) none (n + 1) sched false))) (n + 1) (some (.opc parent n))

/-- `__reschedule_receiver` (task.hpp:385-424) and `__reschedule_awaiter::await_resume`
    (task.hpp:471-477), which is `noexcept` and rethrows: an error of the scheduler terminates. -/
def afterResched (s : St) (f : Addr) (o : Out) : St :=
  match o with
  | .val _ => s
  | .err _ => { s with ctl := .dead }
  | .stop => { s with ctl := .stopped f }

/-- A task is resumed. -/
def stepTask (s : St) (f : Addr) (b : Body) (data : Option Out) (cont : Addr) (sched : Ctx)
    (rs : Bool) : St :=
  match b with
  -- return_value / return_void (task.hpp:337-340, 349-352), then __final_awaiter (task.hpp:546-560)
  | .ret v => { s with heap := upd s.heap f (some (.task (.run (.ret v)) (some (.val v)) cont sched rs)),
                       ctl := .resume cont }
  -- unhandled_exception (task.hpp:595-598), then __final_awaiter
  | .throw e => { s with heap := upd s.heap f (some (.task (.run (.throw e)) (some (.err e)) cont sched rs)),
                         ctl := .resume cont }
  | .emit n k => { s with heap := upd s.heap f (some (.task (.run k) data cont sched rs)),
                          trace := s.trace ++ [.code s.ctx n] }
  -- await_transform (task.hpp:601-616)
  | .await _ o kv ke => afterOp s f o kv ke data cont sched rs
  | .reg cond act k => splice s f cond (.task act) k data cont sched sched rs
  | .regOp cond c o k => splice s f cond (.op c o) k data cont sched sched rs
  -- __reschedule_awaiter (task.hpp:438-469): the first time, register the way back
  | .resched c o k =>
      if rs then
        afterResched { s with ctx := c, heap := upd s.heap f (some (.task (.run k) data cont c true)) } f o
      else
        afterResched { splice s f none (.op sched (.val 0)) k data cont sched c true with ctx := c } f o
  | .call child guard kv ke ks =>
      { s with
        heap := upd (launch s.heap s.next (some f) child sched)
          f (some (.task (.awaiting (s.next + 1) guard kv ke ks) data cont sched rs)),
        next := s.next + 2, ctl := .resume s.next }

/-- A cleanup coroutine is resumed for the first time (at_coroutine_exit.hpp:283-287,
    on_coro_disposition.hpp:209-224).  An action that is stopped or fails terminates the program
    (at_coroutine_exit.hpp:64-68, 239-243). -/
def stepCleanup (s : St) (g : Addr) (cond : Option Disp) (act : Act) (parent cont : Addr) (sched : Ctx)
    (isStopped : Bool) : Option St :=
  match s.heap parent with
  | some (.task _ data _ _ _) =>
      if wanted cond (disp data) then
        match act with
        | .op c (.val _) => some { s with ctx := c, ctl := .final g }
        | .op c _ => some { s with ctx := c, ctl := .dead }
        | .task b => some { s with
            heap := upd (launch s.heap s.next (some g) b sched)
              g (some (.cleanup cond act parent cont sched isStopped (some (s.next + 1)))),
            next := s.next + 2, ctl := .resume s.next }
      else some { s with ctl := .final g }
  | _ => none

/-- The final suspend point of a cleanup coroutine (at_coroutine_exit.hpp:196-202): it destroys itself
    and passes control on.  If it was stopped, `unhandled_stopped` of the continuation is called
    *before* the frame is destroyed; when the continuation is another cleanup coroutine that call only
    sets a flag, otherwise it delivers the completion. -/
def stepFinal (s : St) (g : Addr) : Option St :=
  match s.heap g with
  | some (.cleanup _ _ _ cont _ isStopped _) =>
      if isStopped then
        match s.heap cont with
        | some (.cleanup cond act parent cont' sched _ op) => some { s with
            heap := upd (upd s.heap cont (some (.cleanup cond act parent cont' sched true op))) g Option.none,
            trace := s.trace ++ [.freed], ctl := .resume cont }
        | some (.opc _ _) => some { s with
            heap := upd s.heap g Option.none, trace := s.trace ++ [.late], ctl := .stopped cont }
        | _ => none
      else some { s with heap := upd s.heap g Option.none, trace := s.trace ++ [.freed], ctl := .resume cont }
  | _ => none

/-- Deliver the result of an awaited task to the coroutine that awaits it
    (`await_resume`, task.hpp:687-699; `__on_resume`, __connect_awaitable.hpp:470-491): the child's
    frame is destroyed, a task that awaits is transferred to its own scheduler. -/
def stepOpcResume (s : St) (o : Addr) (parent : Option Addr) (child : Addr) : Option St :=
  match s.heap child with
  | some (.task _ (some r) _ _ _) =>
      match parent with
      | none => some { s with heap := upd (upd s.heap child Option.none) o Option.none, ctl := .halt r }
      | some p =>
          match s.heap p, r with
          | some (.task (.awaiting _ _ kv _ _) data cont sched rs), .val v => some { s with
              heap := upd (upd (upd s.heap child Option.none) o Option.none)
                p (some (.task (.run (kv v)) data cont sched rs)),
              ctx := sched, ctl := .resume p }
          | some (.task (.awaiting _ _ _ ke _) data cont sched rs), .err e => some { s with
              heap := upd (upd (upd s.heap child Option.none) o Option.none)
                p (some (.task (.run (ke e)) data cont sched rs)),
              ctx := sched, ctl := .resume p }
          | some (.cleanup _ _ _ _ _ _ _), .val _ => some { s with
              heap := upd (upd s.heap child Option.none) o Option.none, ctl := .final p }
          | some (.cleanup _ _ _ _ _ _ _), .err _ => some { s with ctl := .dead }
          | _, _ => none
  | _ => none

/-- The awaited task was stopped (`__on_stopped`, __connect_awaitable.hpp:90-96, 493-496): the
    awaiting coroutine, back on its scheduler, handles it if it awaits `stopped_as_optional`, and is
    stopped otherwise; an exit action terminates; the outermost receiver gets `set_stopped`, and then
    destroys the operation. -/
def stepOpcStopped (s : St) (parent : Option Addr) (child : Addr) : Option St :=
  match parent with
  | none => some { s with ctl := .destroy child (.halt .stop) }
  | some p =>
      match s.heap p with
      | some (.task (.awaiting _ guard _ _ ks) data cont sched rs) =>
          if guard then some { s with
            heap := upd s.heap p (some (.task (.run ks) data cont sched rs)),
            ctx := sched, ctl := .destroy child (.resume p) }
          else some { s with ctx := sched, ctl := .stopped p }
      | some (.cleanup _ _ _ _ _ _ _) => some { s with ctl := .dead }
      | _ => none

/-- `unhandled_stopped` (__with_awaitable_senders.hpp:63-66; at_coroutine_exit.hpp:246-250). -/
def stepStopped (s : St) (f : Addr) : Option St :=
  match s.heap f with
  | some (.task _ _ cont _ _) => some { s with ctl := .stopped cont }
  | some (.cleanup cond act parent cont sched _ op) => some { s with
      heap := upd s.heap f (some (.cleanup cond act parent cont sched true op)), ctl := .resume f }
  | some (.opc parent child) => stepOpcStopped s parent child
  | none => none

/-- Destroy a suspended task: its frame owns the awaiter, which owns the operation state, which owns
    the child's frame (task.hpp:660-664, __connect_awaitable.hpp:398-404).  The operation state
    through which `f` itself is awaited is freed with it. -/
def stepDestroy (s : St) (f : Addr) (nxt : Ctl) : Option St :=
  match s.heap f with
  | some (.task rest _ _ _ _) =>
      match s.heap (f + 1) with
      | some (.opc _ _) =>
          match rest with
          | .run _ => some { s with heap := upd (upd s.heap f Option.none) (f + 1) Option.none, ctl := nxt }
          | .awaiting o _ _ _ _ =>
              match s.heap o with
              | some (.opc _ child) => some { s with
                  heap := upd (upd s.heap f Option.none) (f + 1) Option.none, ctl := .destroy child nxt }
              | _ => none
      | _ => none
  | _ => none

def step (s : St) : Option St :=
  match s.ctl with
  | .resume f =>
      match s.heap f with
      | some (.task (.run b) data cont sched rs) => some (stepTask s f b data cont sched rs)
      | some (.cleanup cond act parent cont sched st Option.none) =>
          stepCleanup s f cond act parent cont sched st
      | some (.opc parent child) => stepOpcResume s f parent child
      | _ => none
  | .stopped f => stepStopped s f
  | .final g => stepFinal s g
  | .destroy f nxt => stepDestroy s f nxt
  | .halt _ => none
  | .dead => none

/-- The outermost operation: a task with body `b`, started on context `c`, which is also the scheduler
    its receiver provides. -/
def init (b : Body) (c : Ctx) : St :=
  { heap := launch (fun _ => Option.none) 0 Option.none b c, next := 2, ctx := c, trace := [],
    ctl := .resume 0 }

/-- The machine goes from one state to another. -/
inductive Steps : St → St → Prop
  | refl (s) : Steps s s
  | cons {s t u} : step s = some t → Steps t u → Steps s u

theorem Steps.trans {s t u : St} (h : Steps s t) (g : Steps t u) : Steps s u := by
  induction h with
  | refl => exact g
  | cons h _ ih => exact .cons h (ih g)

theorem Steps.one {s t : St} (h : step s = some t) : Steps s t := .cons h (.refl _)

end Verif.Coro
