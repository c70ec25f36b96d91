import Verif.Common
/-!
# Awaiting a sender in a coroutine: `__sender_awaiter` (`__detail/__as_awaitable.hpp`)

One coroutine awaits any number of senders, one after another, on any threads.  Each `co_await` builds an
awaiter in the coroutine frame (with the operation state and the atomic `__thread_id_`), suspends the
coroutine and runs `await_suspend` on the awaiting thread; the operation is completed by some thread --
inside `start()` on the same thread, later on the same thread, or on another thread -- which runs the
receiver's `__done`.

Every atomic operation is one step.  Memory orders: the relaxed load of `__thread_id_` in `__done` may be
stale only on a thread other than the awaiting one, where every value it can return differs from the
thread's own id; so interleaving semantics loses nothing.

Simplifications: the operation completes at most once (C25); `start()` is opaque except that the
operation may be completed inside it; the awaiter is destroyed by the coroutine right after
`await_resume`; the MSVC work-around branch and the statically inline awaiter
(`__sender_awaiter<_Promise, _Sender>` with `__completes_inline`) are not modelled.
-/
namespace Verif.Awaiter

/-- A completion of the awaited operation. -/
inductive Res
  | value (v : Nat)
  | error (e : Nat)
  | stopped
  deriving DecidableEq, Repr

/-- `await_suspend` (`__as_awaitable.hpp:329-353`). -/
inductive SPc
  | start   -- inside `start(__opstate_)`
  | xchg    -- `start` returned; about to `__thread_id_.exchange({})`
  | get     -- about to return `__get_continuation()`: resumes the coroutine by symmetric transfer
  | fin     -- returned
  deriving DecidableEq, Repr

/-- The receiver's completion function and `__done` (`__as_awaitable.hpp:195-296`). -/
inductive CPc
  | idle    -- the operation has not completed
  | load    -- result stored; about to load `__thread_id_`
  | store   -- same thread: about to store `{}`
  | xchg    -- about to `exchange(__current_id)`
  | spin    -- spinning until `__thread_id_` is `{}`
  | get     -- about to resume `__get_continuation()`
  | fin     -- no further access
  deriving DecidableEq, Repr

/-- One awaiter. -/
structure Aw where
  slot : Option Nat      -- `__thread_id_`; `none` is the default `thread::id{}`
  t : Nat                -- the awaiting thread
  s : SPc
  c : Nat                -- the completing thread
  p : CPc
  inl : Bool             -- the completion runs inside `start` on the awaiting thread
  res : Res              -- `__result_` (`stopped` while valueless)
  alive : Bool           -- not yet destroyed
  resumed : Nat          -- how many times its continuation was resumed
  deriving DecidableEq, Repr

/-- What the coroutine is doing. -/
inductive Co
  | run (t : Nat)          -- executing on thread `t`
  | sus (k : Nat)          -- suspended in await `k`
  | res (k t : Nat)        -- resumed on `t`; about to run `await_resume` of await `k`
  | stopped (k : Nat)      -- `unhandled_stopped()` was called
  | fin
  deriving DecidableEq, Repr

structure St where
  n : Nat                  -- awaits begun
  aw : Nat → Aw
  co : Co
  /-- nested calls of `resume()` on the stack of each thread -/
  depth : Nat → Nat
  /-- what `await_resume` returned or threw, or that the coroutine was told to stop -/
  log : List (Nat × Res)
  /-- an awaiter was accessed after its destruction -/
  bad : Bool

def aw0 : Aw := ⟨none, 0, .fin, 0, .fin, false, .stopped, false, 0⟩

/-- The coroutine was first resumed on thread `t0`. -/
def init (t0 : Nat) : St :=
  { n := 0, aw := fun _ => aw0, co := .run t0, depth := fun t => if t = t0 then 1 else 0
    log := [], bad := false }

inductive Act
  | await                          -- the coroutine reaches `co_await sender`
  | finish                         -- the coroutine returns
  | leave                          -- `await_resume`, destruction of the awaiter
  | complete (k c : Nat) (r : Res) -- the operation of await `k` is completed by thread `c`
  | startRet (k : Nat)             -- `start` returns
  | starter (k : Nat)              -- the next step of `await_suspend`
  | comp (k : Nat)                 -- the next step of `__done`
  deriving DecidableEq, Repr

def setAw (s : St) (k : Nat) (a : Aw) : St :=
  { s with aw := upd s.aw k a, bad := s.bad || !(s.aw k).alive }

/-- Resume `__get_continuation()` (`__as_awaitable.hpp:134-149`): the coroutine itself, or what its
`unhandled_stopped()` returns. -/
def resume (s : St) (k t : Nat) (a : Aw) : St :=
  let s1 := setAw s k { a with resumed := a.resumed + 1 }
  if a.res = .stopped then { s1 with co := .stopped k, log := (k, .stopped) :: s.log }
  else { s1 with co := .res k t }

def step (s : St) : Act → Option St
  | .await =>
    match s.co with
    | .run t => some
        { s with n := s.n + 1
                 aw := upd s.aw s.n ⟨some t, t, .start, 0, .idle, false, .stopped, true, 0⟩
                 co := .sus s.n }
    | _ => none
  | .finish =>
    match s.co with
    | .run t => some { s with co := .fin, depth := upd s.depth t (s.depth t - 1) }
    | _ => none
  | .leave =>
    match s.co with
    | .res k t => some
        { setAw s k { s.aw k with alive := false } with
            co := .run t, log := (k, (s.aw k).res) :: s.log }
    | _ => none
  | .complete k c r =>
    if k < s.n ∧ (s.aw k).p = .idle then
      if c = (s.aw k).t ∧ (s.aw k).s = .start then
        some (setAw s k { s.aw k with c := c, p := .load, inl := true, res := r })
      else if c = (s.aw k).t ∧ (s.aw k).s ≠ .fin then none
      else some (setAw s k { s.aw k with c := c, p := .load, inl := false, res := r })
    else none
  | .startRet k =>
    if k < s.n ∧ (s.aw k).s = .start ∧ ((s.aw k).inl = true → (s.aw k).p = .fin) then
      some { s with aw := upd s.aw k { s.aw k with s := .xchg } }
    else none
  | .starter k =>
    if k < s.n then
      match (s.aw k).s with
      | .xchg =>
        if (s.aw k).slot = none then some (setAw s k { s.aw k with s := .get, slot := none })
        else some { setAw s k { s.aw k with s := .fin, slot := none } with
                      depth := upd s.depth (s.aw k).t (s.depth (s.aw k).t - 1) }
      | .get => some (resume s k (s.aw k).t { s.aw k with s := .fin })
      | _ => none
    else none
  | .comp k =>
    if k < s.n then
      match (s.aw k).p with
      | .load =>
        if (s.aw k).slot = some (s.aw k).c then some (setAw s k { s.aw k with p := .store })
        else some (setAw s k { s.aw k with p := .xchg })
      | .store => some (setAw s k { s.aw k with p := .fin, slot := none })
      | .xchg =>
        if (s.aw k).slot = none then
          some (setAw s k { s.aw k with p := .get, slot := some (s.aw k).c })
        else some (setAw s k { s.aw k with p := .spin, slot := some (s.aw k).c })
      | .spin => if (s.aw k).slot = none then some (setAw s k { s.aw k with p := .get }) else none
      | .get =>
        some { resume s k (s.aw k).c { s.aw k with p := .fin } with
                 depth := upd s.depth (s.aw k).c (s.depth (s.aw k).c + 1) }
      | _ => none
    else none

end Verif.Awaiter
