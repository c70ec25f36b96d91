import Verif.Common
/-!
# Connecting an awaitable to a receiver

`stdexec/__detail/__connect_awaitable.hpp:385-505`: the operation state that `connect` returns for an awaitable that is not a sender. It plays the
coroutine that awaits it: a hand-made frame whose resumption calls `await_resume` and completes the receiver. The awaitable is arbitrary: every call
on it may throw, `await_suspend` may return nothing, a `bool` or a coroutine handle, and may hand the coroutine handle to any thread, which may
resume it, or call `unhandled_stopped` on its promise, at any time, even before `await_suspend` has returned. As for every coroutine, an awaiter uses the handle at
most once, and not at all if `await_suspend` throws, returns `false` or returns the handle itself. The receiver destroys the operation state when it is completed.
-/
namespace Verif.ConnAwait

/-- The four specialisations of `__awaitable_state` (`:157-385`). -/
inductive Style
  | both        -- distinct awaitable and awaiter (`:158-216`)
  | one         -- a distinct awaiter (`:222-271`) or a distinct awaitable (`:277-334`)
  | none        -- the awaitable is the awaiter (`:340-385`)
  deriving DecidableEq, Repr

/-- Result type of `await_suspend` (`:419-444`). -/
inductive Susp | void | bool | handle
  deriving DecidableEq, Repr

structure Cfg where
  style : Style
  susp : Susp
  deriving DecidableEq, Repr

inductive Obj | awaitable | awaiter
  deriving DecidableEq, Repr
/-- Constructions and destructions of what the operation state makes. -/
inductive Ev | cons (o : Obj) | dest (o : Obj)
  deriving DecidableEq, Repr

inductive Sig | value (v : Nat) | error (e : Nat) | stopped
  deriving DecidableEq, Repr

/-- What the awaitable does, as seen by the operation. -/
inductive Obs
  | threw (e : Nat)       -- one of the calls threw `e`
  | value (v : Nat)       -- `await_resume` returned `v`
  | stopped               -- `unhandled_stopped` was called
  deriving DecidableEq, Repr

/-- Calls on the awaiter that have returned (`await_suspend`: that have begun). -/
inductive Call | ready (b : Bool) | suspend | resume
  deriving DecidableEq, Repr

/-- `start` (`:406-463`). -/
inductive SPC
  | idle
  | getA                  -- `__get_awaitable` (`:177`)
  | getW                  -- `__get_awaiter` (`:182`), or the only construction
  | ready                 -- `__started_ = true; await_ready()` (`:413-415`)
  | susp                  -- call of `await_suspend`
  | inside                -- inside `await_suspend`, which has the coroutine handle
  | catch_ (e : Nat)      -- the handler (`:454-462`)
  | ret
  deriving DecidableEq, Repr

/-- A resumption: `__on_resume` (`:475-495`), on whichever thread. -/
inductive RPC
  | off
  | call                  -- `await_resume()`
  | val (v : Nat)         -- `set_value`
  | exc (e : Nat)         -- the handler: `set_error`
  | stop                  -- `unhandled_stopped` (`:87-93`): `set_stopped` (`:497-500`)
  | done
  deriving DecidableEq, Repr

structure St where
  s : SPC := .idle
  r : RPC := .off
  tok : Bool := false       -- somebody has the coroutine handle and may use it
  flag : Bool := false      -- `__started_`
  alive : Bool := true      -- the operation state exists
  log : List Ev             -- ghost: constructions and destructions
  sigs : List Sig := []     -- ghost: completions of the receiver
  obs : List Obs := []      -- ghost: what the awaitable did
  calls : List Call := []   -- ghost: calls on the awaiter
  bad : Bool := false       -- ghost: the operation state was used after its destruction
  deriving DecidableEq, Repr

/-- `connect` (`:388-394`). If awaitable and awaiter are the same object it is constructed here (`:357`). -/
def init (c : Cfg) : St := { log := if c.style = .none then [.cons .awaiter] else [] }

inductive Act
  | start                   -- the owner starts the operation
  | drop                    -- the owner destroys the operation without starting it
  | ok                      -- the starter's current call on the awaitable returns
  | throw (e : Nat)         -- it throws
  | ready (b : Bool)        -- `await_ready` returns
  | stay                    -- `await_suspend` returns nothing, `true`, or the handle of another coroutine
  | back                    -- `await_suspend` returns `false` or the handle itself
  | handler                 -- the starter's exception handler
  | resume                  -- whoever has the handle resumes it
  | stop                    -- whoever has the handle calls `unhandled_stopped`
  | resumed (v : Nat)       -- `await_resume` returns
  | rthrow (e : Nat)        -- `await_resume` throws
  | complete                -- the resumption completes the receiver
  deriving DecidableEq, Repr

/-- An access to the operation state. -/
def St.acc (x : St) : St := { x with bad := x.bad || !x.alive }

/-- What `~__opstate` destroys (`:398-404`, `:188-193`, `:373-376`). -/
def dtor (c : Cfg) (flag : Bool) : List Ev :=
  match c.style with
  | .both => if flag then [.dest .awaiter, .dest .awaitable] else []
  | .one => if flag then [.dest .awaiter] else []
  | .none => [.dest .awaiter]

/-- The receiver is completed, and destroys the operation state. -/
def St.done (c : Cfg) (x : St) (g : Sig) : St :=
  { x.acc with sigs := x.sigs ++ [g], alive := false, log := x.log ++ dtor c x.flag }

/-- One step. -/
def step (c : Cfg) (x : St) : Act → Option St
  | .start =>
    if x.s = .idle ∧ x.alive then
      some { x with s := match c.style with | .both => .getA | .one => .getW | .none => .ready, flag := decide (c.style = .none) || x.flag } else none
  | .drop => if x.s = .idle ∧ x.alive then some { x with s := .ret, alive := false, log := x.log ++ dtor c x.flag } else none
  | .ok =>
    match x.s with
    | .getA => some { x.acc with s := .getW, log := x.log ++ [.cons .awaitable] }
    | .getW => some { x.acc with s := .ready, log := x.log ++ [.cons .awaiter], flag := true }
    | .susp => some { x.acc with s := .inside, tok := true, calls := x.calls ++ [.suspend] }
    | _ => none
  | .throw e =>
    match x.s with
    | .getA => some { x.acc with s := .catch_ e, obs := x.obs ++ [.threw e] }
    | .getW => some { x.acc with s := .catch_ e, obs := x.obs ++ [.threw e], log := x.log ++ if c.style = .both then [.dest .awaitable] else [] }
    | .ready => some { x.acc with s := .catch_ e, obs := x.obs ++ [.threw e] }
    | .inside => if x.tok then some { x with s := .catch_ e, tok := false, obs := x.obs ++ [.threw e] } else none
    | _ => none
  | .ready b => if x.s = .ready then some { x.acc with s := if b then .ret else .susp, r := if b then .call else x.r, calls := x.calls ++ [.ready b] } else none
  | .stay => if x.s = .inside then some { x with s := .ret } else none
  | .back => if x.s = .inside ∧ x.tok ∧ c.susp ≠ .void then some { x with s := .ret, tok := false, r := .call } else none
  | .handler => match x.s with | .catch_ e => some { x.done c (.error e) with s := .ret } | _ => none
  | .resume => if x.tok then some { x with tok := false, r := .call } else none
  | .stop => if x.tok then some { x with tok := false, r := .stop, obs := x.obs ++ [.stopped] } else none
  | .resumed v => if x.r = .call then some { x.acc with r := .val v, obs := x.obs ++ [.value v], calls := x.calls ++ [.resume] } else none
  | .rthrow e => if x.r = .call then some { x.acc with r := .exc e, obs := x.obs ++ [.threw e], calls := x.calls ++ [.resume] } else none
  | .complete =>
    match x.r with
    | .val v => some { x.done c (.value v) with r := .done }
    | .exc e => some { x.done c (.error e) with r := .done }
    | .stop => some { x.done c .stopped with r := .done }
    | _ => none

end Verif.ConnAwait
