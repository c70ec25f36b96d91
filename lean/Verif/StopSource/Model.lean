import Verif.Common
/-!
# `inplace_stop_source` — model

Models `/repo/include/stdexec/stop_token.hpp` lines 64-90 (callback base), 124-161 (source),
225-255 (callback constructor/destructor), 257-422 (member functions), 451-468 (registration).

Granularity: one step per atomic access of the state word / `__callback_completed_`; the plain data
protected by the spin lock is accessed in the step that releases the lock. `compare_exchange_weak`
spurious failures and the spin-wait back-off only stutter and are omitted. The intrusive doubly
linked callback list is a `List` (head = `__callbacks_`); `__prev_ptr_ != nullptr` is `linked`.
Atomics are sequentially consistent.

User code: a thread that is outside the API, or inside a callback invocation, may call
`request_stop`, construct a fresh callback, or destroy a callback whose constructor has returned and
whose destruction has not begun (including, from inside an invocation, the callback being invoked).
Any number of threads and callbacks.
-/
namespace Verif.StopSource

abbrev Tid := Nat
abbrev Cb := Nat

/-- One activation record of the API on a thread's call stack (program counter plus locals). -/
inductive Frame
  | reqTry                     -- line 265: in `__try_lock_unless_stop_requested_(true)`
  | reqWon                     -- line 268: lock held, stop bit set, about to record the thread id
  | reqLoop                    -- line 271: lock held, loop head
  | reqExec (c : Cb)           -- line 281: `c` popped and lock released
  | reqRunning (c : Cb)        -- line 284: executing `c`'s function
  | reqAfter (c : Cb)          -- line 286: the function has returned
  | reqMark (c : Cb)           -- line 289: about to store `__callback_completed_`
  | reqRelock                  -- line 292: in `__lock_()`
  | addTry (c : Cb)            -- line 363: in `__try_lock_unless_stop_requested_(false)`
  | addLocked (c : Cb)         -- line 368: lock held, about to link `c`
  | addInline (c : Cb)         -- line 464: executing `c`'s function inside its constructor
  | rmLock (c : Cb)            -- line 384: in `__lock_()`
  | rmLocked (c : Cb)          -- line 386: lock held
  | rmElse (c : Cb) (nt : Option Tid) -- line 404: lock released, `nt` = notifying thread read
  | rmSelf (c : Cb)            -- line 406: this thread is the notifying thread
  | rmWait (c : Cb)            -- line 416: spinning on `__callback_completed_`
  deriving DecidableEq, Repr

/-- User code is running on top of this frame (a callback's function body). -/
def Frame.isRunning : Frame → Bool
  | .reqRunning _ => true
  | .addInline _ => true
  | _ => false

/-- API-level life cycle of a callback object (ghost: knows which thread constructs/destroys it). -/
inductive Life
  | unborn
  | constructing (t : Tid)
  | alive                      -- constructor returned, registered with the source
  | aliveInline                -- constructor returned, was invoked inline (`__source_ == nullptr`)
  | destroying (t : Tid)       -- `__remove_callback_` in progress on `t`
  | dead (t : Tid)             -- destructor returned on thread `t`
  deriving DecidableEq, Repr

/-- Observable events, newest first. -/
inductive Event
  | invoke (t : Tid) (c : Cb)        -- the callback's function is entered
  | reqRet (t : Tid) (b : Bool)      -- `request_stop()` returns `b`
  deriving DecidableEq, Repr

structure St where
  stop : Bool                  -- `__stop_requested_flag_` of the state word
  locked : Bool                -- `__locked_flag_` of the state word
  callbacks : List Cb          -- `__callbacks_`
  notifying : Option Tid       -- `__notifying_thread_`
  linked : Cb → Bool           -- `__prev_ptr_ != nullptr`
  rptr : Cb → Bool             -- `__removed_during_callback_ != nullptr`
  completed : Cb → Bool        -- `__callback_completed_`
  flag : Cb → Bool             -- the local `__removed_during_callback` of `c`'s loop iteration
  stk : Tid → List Frame       -- call stacks, innermost first
  life : Cb → Life             -- ghost
  log : List Event             -- ghost
  win : Option Tid             -- ghost: thread whose compare-exchange set the stop bit
  holder : Option Tid          -- ghost: thread that holds the spin lock
  ub : Bool                    -- a destroyed callback object was accessed

def init : St :=
  { stop := false, locked := false, callbacks := [], notifying := none,
    linked := fun _ => false, rptr := fun _ => false, completed := fun _ => false,
    flag := fun _ => false, stk := fun _ => [], life := fun _ => .unborn, log := [],
    win := none, holder := none, ub := false }

/-- Is the callback object's storage gone? -/
def Life.isDead : Life → Bool
  | .dead _ => true
  | _ => false

/-- Actions: user code's choices, and "thread `t` executes the next step of its innermost frame". -/
inductive Act
  | callReq (t : Tid)
  | callAdd (t : Tid) (c : Cb)
  | callRm (t : Tid) (c : Cb)
  | dropInline (t : Tid) (c : Cb)   -- destructor of a callback with `__source_ == nullptr` (line 243)
  | ret (t : Tid)                   -- the innermost callback function returns
  | adv (t : Tid)
  deriving DecidableEq, Repr

/-- User code is in control on this thread. -/
def userTop : List Frame → Bool
  | [] => true
  | f :: _ => f.isRunning

/-- Mark undefined behaviour if `c`'s object is accessed after its destruction. -/
def touch (s : St) (c : Cb) : St := { s with ub := s.ub || (s.life c).isDead }

/-- Next step of the innermost frame of thread `t` (`r` = rest of the stack).
    Lines of stop_token.hpp are given per case. -/
def adv (s : St) (t : Tid) : Option St :=
  match s.stk t with
  | [] => none
  | f :: r =>
    match f with
    | .reqTry => -- 263-266, 324-358
        if s.stop then
          some { s with stk := upd s.stk t r, log := .reqRet t false :: s.log }
        else if s.locked then none
        else some { s with stop := true, locked := true, stk := upd s.stk t (.reqWon :: r),
                           win := some t, holder := some t }
    | .reqWon => -- 268
        some { s with notifying := some t, stk := upd s.stk t (.reqLoop :: r) }
    | .reqLoop => -- 271-279, 295-296
        match s.callbacks with
        | [] => some { s with locked := false, stk := upd s.stk t r,
                              log := .reqRet t true :: s.log, holder := none }
        | c :: cs =>
            let s := touch s c
            some { s with linked := upd s.linked c false, callbacks := cs, locked := false,
                          stk := upd s.stk t (.reqExec c :: r), holder := none }
    | .reqExec c => -- 281-284
        let s := touch s c
        some { s with flag := upd s.flag c false, rptr := upd s.rptr c true,
                      stk := upd s.stk t (.reqRunning c :: r), log := .invoke t c :: s.log }
    | .reqRunning _ => none -- waits for `ret`
    | .reqAfter c => -- 286-288
        if s.flag c then some { s with stk := upd s.stk t (.reqRelock :: r) }
        else
          let s := touch s c
          some { s with rptr := upd s.rptr c false, stk := upd s.stk t (.reqMark c :: r) }
    | .reqMark c => -- 289
        let s := touch s c
        some { s with completed := upd s.completed c true, stk := upd s.stk t (.reqRelock :: r) }
    | .reqRelock => -- 292, 299-317
        if s.locked then none
        else some { s with locked := true, stk := upd s.stk t (.reqLoop :: r), holder := some t }
    | .addTry c => -- 363-366, 459-464
        if s.stop then
          some { s with stk := upd s.stk t (.addInline c :: r), log := .invoke t c :: s.log }
        else if s.locked then none
        else some { s with locked := true, stk := upd s.stk t (.addLocked c :: r),
                           holder := some t }
    | .addLocked c => -- 368-378; the constructor then returns
        some { s with callbacks := c :: s.callbacks, linked := upd s.linked c true,
                      locked := false, stk := upd s.stk t r, life := upd s.life c .alive,
                      holder := none }
    | .addInline _ => none -- waits for `ret`
    | .rmLock c => -- 384
        if s.locked then none
        else some { s with locked := true, stk := upd s.stk t (.rmLocked c :: r), holder := some t }
    | .rmLocked c => -- 386-400
        if s.linked c then
          let s := touch s c
          some { s with callbacks := s.callbacks.erase c, linked := upd s.linked c false,
                        locked := false, stk := upd s.stk t r, life := upd s.life c (.dead t),
                        holder := none }
        else
          let s := touch s c
          some { s with locked := false, stk := upd s.stk t (.rmElse c s.notifying :: r),
                        holder := none }
    | .rmElse c nt => -- 404
        if nt = some t then some { s with stk := upd s.stk t (.rmSelf c :: r) }
        else some { s with stk := upd s.stk t (.rmWait c :: r) }
    | .rmSelf c => -- 406-409
        let s := touch s c
        some { s with flag := if s.rptr c then upd s.flag c true else s.flag,
                      stk := upd s.stk t r, life := upd s.life c (.dead t) }
    | .rmWait c => -- 416-419
        if s.completed c then
          let s := touch s c
          some { s with stk := upd s.stk t r, life := upd s.life c (.dead t) }
        else none

/-- The whole transition function. -/
def step (s : St) : Act → Option St
  | .callReq t =>
      if userTop (s.stk t) then some { s with stk := upd s.stk t (.reqTry :: s.stk t) } else none
  | .callAdd t c =>
      if userTop (s.stk t) ∧ s.life c = .unborn then
        some { s with stk := upd s.stk t (.addTry c :: s.stk t),
                      life := upd s.life c (.constructing t) }
      else none
  | .callRm t c =>
      if userTop (s.stk t) ∧ s.life c = .alive then
        some { s with stk := upd s.stk t (.rmLock c :: s.stk t),
                      life := upd s.life c (.destroying t) }
      else none
  | .dropInline t c =>
      if userTop (s.stk t) ∧ s.life c = .aliveInline then
        some { s with life := upd s.life c (.dead t) }
      else none
  | .ret t =>
      match s.stk t with
      | .reqRunning c :: r => some { s with stk := upd s.stk t (.reqAfter c :: r) }
      | .addInline c :: r =>
          some { s with stk := upd s.stk t r, life := upd s.life c .aliveInline }
      | _ => none
  | .adv t => adv s t

/-- Reachable states of the stop source under arbitrary concurrent use. -/
abbrev Reachable (s : St) : Prop := Reach init step s

end Verif.StopSource
