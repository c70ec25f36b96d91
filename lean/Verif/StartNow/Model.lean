import Verif.Common
/-!
# `start_now`

`exec/start_now.hpp`: any number of senders are connected and started at once; `async_wait()` gives senders that complete when all of
them have completed. One step per access to the shared state. The nested operations (`scope.nest(sndr)`) are represented by the calls they make
on their receiver. Exceptions while connecting (nothing has been started then) are not modelled; `request_stop` only forwards to the stop source (C01-C05).
-/
namespace Verif.StartNow

/-- One child operation. -/
inductive CPC
  | idle                      -- not started yet
  | run                       -- started, has not completed
  | last                      -- its `fetch_sub` returned 1 (`:86`); next: the `exchange` (`:88`)
  | join (w : Option Nat)     -- next: `__joiner->join()` (`:91`) on an `async_wait` operation, or on the empty joiner
  | fin                       -- its completion call has returned
  deriving DecidableEq, Repr

/-- One `async_wait` operation. -/
inductive WPC
  | idle
  | cas                       -- `start` (`:134-141`): before the `compare_exchange`
  | self                      -- before `join()` in `start` (`:139`)
  | wait                      -- `start` has returned, not completed
  | done                      -- its receiver has been completed
  deriving DecidableEq, Repr

/-- `__joiner_` (`:74`). -/
inductive Joiner
  | empty                     -- `&__empty_joiner_`
  | null
  | op (w : Nat)
  deriving DecidableEq, Repr

structure St where
  n : Nat                     -- number of senders
  pending : Nat               -- `__pending_`
  joiner : Joiner
  k : Nat := 0                -- the constructor has started the children below `k` (`:195`)
  child : Nat → CPC := fun _ => .idle
  waiter : Nat → WPC := fun _ => .idle
  comps : Nat → Nat := fun _ => 0   -- ghost: completions of each `async_wait` operation
  active : List Nat := []           -- ghost: `async_wait` operations started and not completed
  alive : Bool := true        -- the storage exists
  bad : Bool := false         -- ghost: the storage was used after its destruction, or an operation that is not waiting was completed

/-- The constructor (`:78-82`, `:189-196`). -/
def init (n : Nat) : St := { n, pending := n, joiner := if n = 0 then .null else .empty }

inductive Act
  | ctor                      -- the constructor starts the next child
  | child (i : Nat)           -- child `i` calls `set_value`/`set_stopped`, or takes the next step in that call
  | wait (w : Nat)            -- the user starts the `async_wait` operation `w`
  | waiter (w : Nat)          -- the next step of its `start`
  | destroy (w : Nat)         -- the user destroys the storage because `w` has completed (and no other wait is going on)
  deriving DecidableEq, Repr

/-- The receiver of the `async_wait` operation `w` is completed. -/
def St.complete (x : St) (w : Nat) : St :=
  { x with waiter := upd x.waiter w .done, comps := upd x.comps w (x.comps w + 1), active := x.active.filter (· ≠ w) }

/-- An access to the storage. -/
def St.acc (x : St) : St := { x with bad := x.bad || !x.alive }

/-- One step. `excl`: the user starts an `async_wait` operation only when no other is going on. -/
def step (excl : Bool) (x : St) : Act → Option St
  | .ctor => if x.k < x.n then some { x.acc with child := upd x.child x.k .run, k := x.k + 1 } else none
  | .child i =>
    match x.child i with
    | .run => some { x.acc with pending := x.pending - 1, child := upd x.child i (if x.pending = 1 then .last else .fin) }
    | .last => some { x.acc with joiner := .null, child := upd x.child i (match x.joiner with | .empty => .join none | .null => .fin | .op w => .join (some w)) }
    | .join none => some { x with child := upd x.child i .fin }
    | .join (some w) => some { x.complete w with child := upd x.child i .fin, bad := x.bad || decide (x.waiter w ≠ .wait) }
    | _ => none
  | .wait w =>
    if x.k = x.n ∧ x.alive ∧ x.waiter w = .idle ∧ (excl → x.active = []) then
      some { x with waiter := upd x.waiter w .cas, active := w :: x.active } else none
  | .waiter w =>
    match x.waiter w with
    | .cas =>
      if x.joiner = .empty then some { x.acc with joiner := .op w, waiter := upd x.waiter w .wait }
      else some { x.acc with waiter := upd x.waiter w .self }
    | .self => some (x.complete w)
    | _ => none
  | .destroy w => if x.alive ∧ x.waiter w = .done ∧ x.active = [] then some { x with alive := false } else none

end Verif.StartNow
