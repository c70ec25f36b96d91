import Verif.Common
/-!
# `stdexec::task` (`__detail/__task.hpp`, `__detail/__affine.hpp`, `__detail/__connect_awaitable.hpp`)

A root task, connected to a receiver, awaits senders and other tasks, to any depth.  The model has one
record per coroutine frame together with the awaiter object through which that task is awaited (the
awaiter lives in the frame of the awaiting coroutine, or in the operation state of the root).

The body of a coroutine is a finite-depth interaction tree with unbounded branching; any finite execution
of a looping coroutine is an execution of such a tree.

A stop request on the receiver's token is executed by a stopping thread, source by source, callback by
callback, concurrently with the coroutines.

Simplifications: one stop request; deregistering a callback waits for that callback if it runs on another
thread and returns at once if it is deregistered from inside (C03); the awaited sender's own protocol is
C53, here it is one step; allocation, `__env_`, `__own_env_` and local variables are not modelled.
-/
namespace Verif.Task

/-- How a task or an awaited sender completes. -/
inductive Out
  | value (v : Nat)
  | error (e : Nat)
  | stopped
  deriving DecidableEq, Repr

/-- The types of a task, as far as they matter. -/
structure Cfg where
  /-- the awaiting environment's stop token has another type than this task's
      (`__needs_stop_callback`, `__task.hpp:367-369`) -/
  own : Bool
  /-- `none`: the start scheduler is made from the awaiting environment's; `some d`: it is
      default-constructed, for context `d` (`__mk_sched`, `__task.hpp:403-429`) -/
  sch : Option Nat
  /-- the start scheduler completes where it starts (`__task.hpp:714-717`) -/
  inl : Bool
  deriving DecidableEq, Repr

/-- The body of a coroutine, from a suspension point on.  `fin` is `co_return v`, an escaping exception,
`co_return`/`co_yield with_error{e}` or `with_stopped{}`. -/
inductive Body
  | fin (o : Out)
  /-- `co_await` a sender; `aff`: its completion behaviour is inline or `__asynchronous_affine` -/
  | aw (aff : Bool) (k : Out → Body)
  /-- `co_await` a task; the rest of the body depends on the value returned or the exception thrown -/
  | call (c : Cfg) (b : Body) (k : Out → Body)

/-- A coroutine frame with the awaiter that awaits it. -/
structure Fr where
  cfg : Cfg
  body : Body
  k : Out → Body              -- what follows the pending `co_await`
  alive : Bool                -- the coroutine frame exists
  destroyed : Nat             -- how often it was destroyed
  result : Option Nat         -- `__result_` in the promise
  req : Bool                  -- `request_stop` was called on the promise's own stop source
  tok : Option Nat            -- the stop source of its token: `none` is the receiver's
  parent : Option Nat         -- the continuation; `none` is the root operation
  sch : Nat                   -- the context of `__sch_`
  child : Option Nat          -- the task it awaits: the awaiter of `child` lives in this frame
  awAlive : Bool              -- the awaiter exists
  errors : Option Nat         -- `__errors_`
  stopped : Bool              -- `__stopped_`
  owns : Bool                 -- `__task_` holds the coroutine
  cb : Bool                   -- the stop callback is registered
  reg : Option Nat            -- the source it is registered with

inductive Ctl
  | start (i : Nat)     -- `await_suspend` of the awaiter of task `i`, before registering the callback
  | run (i : Nat)       -- the body of `i` runs
  | sus (i : Nat) (aff : Bool)       -- `i` is suspended on a sender
  | done (i : Nat)      -- `__completed_awaiter::await_suspend`
  | resume (i : Nat)    -- the awaiting coroutine (or `__on_resume`) calls `await_resume` for task `i`
  | cancel (i : Nat)    -- `unhandled_stopped` of `i`: `__canceled`
  | cancel2 (i : Nat)   -- `__canceled` after `__reset_callback`
  | fin (o : Out)       -- the receiver was completed and the operation state destroyed
  deriving DecidableEq, Repr

/-- The stopping thread. -/
inductive Stop
  | idle
  | act (stk : List Nat)   -- inside `request_stop` of the receiver's source and of these, innermost first
  | over
  deriving DecidableEq, Repr

/-- What the environment decides: the outcome of registering a callback, and of an awaited sender. -/
inductive Ev
  | reg (e : Option Nat)
  | res (o : Out)
  deriving DecidableEq, Repr

structure St where
  n : Nat
  fr : Nat → Fr
  ctl : Ctl
  ctx : Nat               -- the execution context on which the coroutines run
  stop : Stop
  same : Bool             -- the coroutines currently run inside a stop callback, on the stopping thread
  inlineStop : Bool       -- (constant) awaited senders may resume the coroutine inside their stop callback
  log : List Ev
  bad : Bool              -- something destroyed was used, or something was destroyed while in use

def fr0 (c : Cfg) (b : Body) (tok parent : Option Nat) (sch : Nat) : Fr :=
  { cfg := c, body := b, k := fun _ => .fin .stopped, alive := true, destroyed := 0, result := none
    req := false, tok := tok, parent := parent, sch := sch, child := none, awAlive := true
    errors := none, stopped := false, owns := true, cb := false, reg := none }

def none0 : Fr :=
  { fr0 ⟨false, none, false⟩ (.fin .stopped) none none 0 with alive := false, awAlive := false, owns := false }

/-- The root task is connected to a receiver whose start scheduler is the context `x`, and started there
(`__connect_awaitable.hpp:402-446`; the awaiter's constructor is `__task.hpp:473-497`). -/
def init (c : Cfg) (b : Body) (x : Nat) (inlineStop : Bool) : St :=
  { n := 1
    fr := upd (fun _ => none0) 0 (fr0 c b (if c.own then some 0 else none) none (c.sch.getD x))
    ctl := .start 0, ctx := x, stop := .idle, same := false, inlineStop := inlineStop, log := []
    bad := false }

def setFr (s : St) (i : Nat) (f : Fr) : St := { s with fr := upd s.fr i f }

/-- Is a stop request pending on this source? -/
def reqOf (s : St) : Option Nat → Bool
  | none => decide (s.stop ≠ .idle)
  | some j => (s.fr j).req

/-- Using a stop source that lives in a destroyed frame. -/
def dead (s : St) : Option Nat → Bool
  | none => false
  | some j => !(s.fr j).alive

/-- Destroying a coroutine frame (`__coroutine_destroy_nothrow`) destroys the awaiter it contains; its
`task` and its stop callback must be gone by then. -/
def destroy (s : St) (i : Nat) : St :=
  match (s.fr i).child with
  | some c =>
    { s with
        fr := upd (upd s.fr c { s.fr c with awAlive := false }) i
          { s.fr i with alive := false, destroyed := (s.fr i).destroyed + 1, child := none }
        bad := s.bad || !(s.fr i).alive || !(s.fr c).awAlive || (s.fr c).owns || (s.fr c).cb }
  | none =>
    { s with
        fr := upd s.fr i { s.fr i with alive := false, destroyed := (s.fr i).destroyed + 1, child := none }
        bad := s.bad || !(s.fr i).alive }

/-- Is the stopping thread executing the callback of task `i`? -/
def executing (s : St) (i : Nat) : Bool :=
  match s.stop with
  | .act stk => decide (i ∈ stk)
  | _ => false

/-- `__reset_callback` (`__task.hpp:278-281`). -/
def reset (s : St) (i : Nat) : St :=
  { setFr s i { s.fr i with cb := false } with
      bad := s.bad || !(s.fr i).awAlive || ((s.fr i).cb && dead s (s.fr i).reg) }

/-- It waits for a callback that is running on another thread. -/
def blocked (s : St) (i : Nat) : Bool := (s.fr i).cb && executing s i && !s.same

/-- A new coroutine and its awaiter (`__task.hpp:473-497`, `:519-523`). -/
def newTask (s : St) (i : Nat) (c : Cfg) (b : Body) (k : Out → Body) : St :=
  { s with
      n := s.n + 1
      fr := upd (upd s.fr i { s.fr i with k := k, child := some s.n }) s.n
        (fr0 c b (if c.own then some s.n else (s.fr i).tok) (some i) (c.sch.getD (s.fr i).sch))
      ctl := .start s.n }

/-- The source with which the callback of task `i` is registered: that of the awaiting environment's
token. -/
def outer (s : St) (i : Nat) : Option Nat :=
  match (s.fr i).parent with
  | some p => (s.fr p).tok
  | none => none

/-- `await_suspend` (`__task.hpp:530-543`); registering with a source that was already requested to stop
calls the callback at once. -/
def register (s : St) (i : Nat) : St :=
  if (s.fr i).cfg.own then
    { setFr s i { s.fr i with cb := true, reg := outer s i, req := reqOf s (outer s i) } with
        ctl := .run i, log := s.log ++ [.reg none], bad := s.bad || dead s (outer s i) || !(s.fr i).alive }
  else { s with ctl := .run i, log := s.log ++ [.reg none], bad := s.bad || !(s.fr i).alive }

/-- The end of the full-expression `co_await task` in the parent: the awaiter is destroyed and the body
goes on.  For the root: `__on_resume` / `__on_stopped` complete the receiver, which destroys the
operation state. -/
def continueParent (s : St) (i : Nat) (o : Out) : St :=
  match (s.fr i).parent with
  | some p =>
    { s with
        fr := upd (upd s.fr i { s.fr i with awAlive := false }) p
          { s.fr p with child := none, body := (s.fr p).k o }
        ctl := .run p
        bad := s.bad || !(s.fr i).awAlive || (s.fr i).owns || (s.fr i).cb || !(s.fr p).alive }
  | none =>
    { s with
        fr := upd s.fr i { s.fr i with awAlive := false }
        ctl := .fin o
        same := false
        bad := s.bad || !(s.fr i).awAlive || (s.fr i).owns || (s.fr i).cb }

/-- The body of `i` runs to its next suspension point. -/
def runBody (s : St) (i : Nat) : St :=
  match (s.fr i).body with
  | .fin (.value v) =>
    { setFr s i { s.fr i with result := some v } with ctl := .done i, bad := s.bad || !(s.fr i).alive }
  | .fin (.error e) =>
    { setFr s i { s.fr i with errors := some e } with
        ctl := .done i, bad := s.bad || !(s.fr i).alive || !(s.fr i).awAlive }
  | .fin .stopped =>
    { setFr s i { s.fr i with stopped := true } with
        ctl := .done i, bad := s.bad || !(s.fr i).alive || !(s.fr i).awAlive }
  | .aw aff k =>
    { setFr s i { s.fr i with k := k } with
        ctl := .sus i aff, same := false, bad := s.bad || !(s.fr i).alive }
  | .call c b k => { newTask s i c b k with bad := s.bad || !(s.fr i).alive }

/-- `await_resume` (`__task.hpp:545-558`): takes the coroutine out of the awaiter, and destroys it after
moving the result out. -/
def awaitResume (s : St) (i : Nat) : St :=
  match (s.fr i).errors with
  | some e => continueParent (destroy (setFr s i { s.fr i with owns := false }) i) i (.error e)
  | none =>
    continueParent (destroy (setFr s i { s.fr i with owns := false }) i) i
      (.value ((s.fr i).result.getD 0))

/-- `__canceled` after `__reset_callback` (`__task.hpp:572-580`): destroys the coroutine, then calls
`unhandled_stopped` of the continuation. -/
def canceled (s : St) (i : Nat) : St :=
  match (s.fr i).parent with
  | some p => { destroy (setFr s i { s.fr i with owns := false }) i with ctl := .cancel p }
  | none => continueParent (destroy (setFr s i { s.fr i with owns := false }) i) i .stopped

/-- May the sender awaited by `i` complete inside its stop callback now? -/
def inCallback (s : St) (i : Nat) : Bool :=
  match s.stop with
  | .act stk => s.inlineStop && decide (stk.head? = (s.fr i).tok)
  | _ => false

/-- The innermost `request_stop` returns. -/
def pop : List Nat → Stop
  | _ :: t => .act t
  | [] => .over

inductive Act
  | exec                      -- the next step of the coroutines
  | regThrows (e : Nat)       -- registering the stop callback throws
  | leaf (o : Out) (x : Nat) (inStop : Bool)  -- the awaited sender completes with `o`, on context `x`
  | stop                      -- `request_stop` on the receiver's token
  | enter (i : Nat)           -- the stopping thread calls the callback of task `i`
  | ret                       -- the innermost `request_stop` returns
  deriving DecidableEq, Repr

def step (s : St) : Act → Option St
  | .exec =>
    match s.ctl with
    | .start i => some (register s i)
    | .run i => some (runBody s i)
    | .done i =>
      if (s.fr i).stopped then some { s with ctl := .cancel i, bad := s.bad || !(s.fr i).alive }
      else if blocked s i then none
      else some { reset s i with ctl := .resume i }
    | .cancel i => if blocked s i then none else some { reset s i with ctl := .cancel2 i }
    | .cancel2 i => some (canceled s i)
    | .resume i => some (awaitResume s i)
    | _ => none
  | .regThrows e =>
    match s.ctl with
    | .start i =>
      if (s.fr i).cfg.own then
        some { continueParent (destroy (setFr s i { s.fr i with owns := false }) i) i (.error e) with
                 log := s.log ++ [.reg (some e)] }
      else none
    | _ => none
  | .leaf o x inStop =>
    match s.ctl with
    | .sus i aff =>
      if inStop = true → inCallback s i = true then
        some { setFr s i { s.fr i with body := (s.fr i).k o } with
                 ctl := if o = .stopped then .cancel i else .run i
                 ctx := if (s.fr i).cfg.inl then x else if aff then s.ctx else (s.fr i).sch
                 same := inStop
                 log := s.log ++ [.res o]
                 bad := s.bad || !(s.fr i).alive }
      else none
    | _ => none
  | .stop =>
    if s.stop = .idle then some { s with stop := .act [] } else none
  | .enter i =>
    match s.stop with
    | .act stk =>
      if s.same = false ∧ i < s.n ∧ (s.fr i).cb = true ∧ (s.fr i).req = false ∧ (s.fr i).reg = stk.head? then
        some { setFr s i { s.fr i with req := true } with
                 stop := .act (i :: stk), bad := s.bad || !(s.fr i).alive || !(s.fr i).awAlive }
      else none
    | _ => none
  | .ret =>
    match s.stop with
    | .act stk =>
      if s.same = false ∧ ∀ i, i < s.n → ¬ ((s.fr i).cb = true ∧ (s.fr i).req = false ∧
          (s.fr i).reg = stk.head?) then
        some { s with
          stop := pop stk
          bad := s.bad || dead s stk.head? }
      else none
    | _ => none

/-! ## Specification: what a task means, as ordinary structured code -/

/-- The outcome of a body, given the outcomes of the senders it awaits and of registering callbacks; the
second component is what was not used.  `none`: more is needed. -/
def den : Body → List Ev → Option (Out × List Ev)
  | .fin o, r => some (o, r)
  | .aw _ k, .res o :: r => if o = .stopped then some (.stopped, r) else den (k o) r
  | .aw _ _, _ => none
  | .call _ b k, .reg e :: r =>
    match e with
    | some e => den (k (.error e)) r
    | none =>
      match den b r with
      | some (.stopped, r') => some (.stopped, r')
      | some (.value v, r') => den (k (.value v)) r'
      | some (.error e, r') => den (k (.error e)) r'
      | none => none
  | .call _ _ _, _ => none

/-- The outcome of the operation state: the root's callback may fail to register, too. -/
def denRoot (b : Body) : List Ev → Option (Out × List Ev)
  | .reg (some e) :: r => some (.error e, r)
  | .reg none :: r => den b r
  | _ => none

/-- Every task in a body satisfies `P`. -/
def All (P : Cfg → Prop) : Body → Prop
  | .fin _ => True
  | .aw _ k => ∀ o, All P (k o)
  | .call c b k => P c ∧ All P b ∧ ∀ o, All P (k o)

end Verif.Task
