import Verif.Common
/-!
# `spawn_future` — model (C20, C21)

Models `/repo/include/stdexec/__detail/__spawn_future.hpp`: `__spawn_future_state` 215-600 (`__consume` 247-320,
`__abandon` 322-350, `__do_complete` 397-455, `__do_try_cancel` 457-600), `__spawn_future_receiver::__set_complete`
187-207, `__future_operation` 618-690 and `__spawn_future_impl::__start` 715-731.

Three parties: the *producer* (the spawned work completing), the *consumer* (the future being started or abandoned)
and the *canceller* (the future's stop callback, run by the thread that requests stop on the receiver's token, or by
the consumer when stop was requested before the callback was constructed). `request_stop()` on the state's own stop
source runs the stop callbacks of the spawned work, so the producer may run nested inside the canceller or inside
`__abandon`. One step per atomic access of `__registered_receiver_`, per `request_stop`, per completion of the
receiver and per destruction. The stop callback object follows the contract proved in C02-C04: its destructor waits
for a running invocation on another thread, and does not wait on the thread running it.
Simplification: the atomic word is accessed sequentially consistently.
-/
namespace Verif.SpawnFuture

/-- The completion stored in `__result_`. -/
inductive Res
  | value (v : Nat)
  | error (e : Nat)
  | stopped
  /-- the exception thrown when storing the result (199-204), or by constructing the stop callback (725-730) -/
  | exn
  deriving DecidableEq, Repr

/-- `__registered_receiver_`: `nullptr`, `this`, `this + 1`, the registered receiver. -/
inductive Reg
  | null | self | selfp1 | rcvr
  deriving DecidableEq, Repr

/-- Which thread runs the producer's completion. -/
inductive Loc
  | own | inK | inC
  deriving DecidableEq, Repr

/-- Producer. -/
inductive PPc
  | running
  /-- result stored, about to exchange (411) -/
  | xchg
  /-- about to destroy the stop callback and complete the registered receiver (448, 684-688) -/
  | callback
  /-- about to `__destroy()` (430, 451) -/
  | destroy
  | done
  deriving DecidableEq, Repr

/-- Canceller: `__do_try_cancel`. -/
inductive KPc
  | idle
  /-- inside `__stop_source_.request_stop()` (516) -/
  | stopReq
  /-- about to compare-exchange (521) -/
  | cas
  /-- about to copy `__callback_` and exchange (560-580) -/
  | xchg
  /-- about to complete the receiver with stopped (591) -/
  | complete
  /-- about to return from the stop callback -/
  | ret
  | done
  deriving DecidableEq, Repr

/-- Consumer. -/
inductive CPc
  | idle
  /-- inside the construction of the stop callback, which runs the callback inline (632-634) -/
  | constructing
  /-- about to compare-exchange in `__consume` (263-277) -/
  | cas
  /-- about to exchange in `__consume` (300) -/
  | xchg
  /-- about to complete the receiver with the stored result (307) -/
  | consume
  /-- about to `__destroy()` (308, 348) -/
  | destroy
  /-- about to complete the receiver with stopped (318) -/
  | setStopped
  /-- the construction of the stop callback threw; the receiver got the exception, the future is still owned -/
  | threw
  /-- inside `__stop_source_.request_stop()` of `__abandon` (326) -/
  | abStop
  /-- about to exchange in `__abandon` (335) -/
  | abXchg
  | done
  deriving DecidableEq, Repr

/-- The stop callback object in the future's operation state. -/
inductive Cb
  | none | armed | running | returned | destroyed
  deriving DecidableEq, Repr

structure St where
  reg : Reg := .null
  stored : Option Res := none
  p : PPc := .running
  ploc : Loc := .own
  k : KPc := .idle
  /-- the canceller runs on the consumer's thread -/
  kInC : Bool := false
  c : CPc := .idle
  cb : Cb := .none
  /-- stop was requested on the receiver's token -/
  stop : Bool := false
  -- ghost
  results : List Res := []
  destroys : Nat := 0
  /-- the future was started / abandoned without having been started -/
  started : Bool := false
  abandoned : Bool := false
  /-- the spawned work's stop source had stop requested -/
  workStop : Bool := false
  /-- constructing the stop callback threw -/
  threw : Bool := false
  uaf : Bool := false
  /-- the producer found the registered receiver while running nested inside the canceller's `request_stop()` -/
  nested : Bool := false
  deriving Repr, DecidableEq

inductive Act
  /-- the spawned work completes with `o`; storing it may throw -/
  | finish (loc : Loc) (o : Res) (throws : Bool)
  | p
  | k
  | c
  /-- start the future; constructing the stop callback may throw -/
  | start (throws : Bool)
  /-- destroy the future (never started), or the operation state whose start threw -/
  | abandon
  /-- stop is requested on the future's receiver's token -/
  | stop
  deriving DecidableEq, Repr

/-- Access the state. -/
def touch (s : St) : St := { s with uaf := s.uaf || s.destroys != 0 }

/-- `__destroy()`, 371-383 -/
def destroy (s : St) : St := { touch s with destroys := s.destroys + 1 }

/-- Destroying the stop callback (687) does not block: it is not being run by another thread. `onK`: the destroying
thread is the one running the callback. -/
def cbFree (s : St) (onK : Bool) : Bool := s.cb != .running || onK

/-- Complete the future's receiver (684-689). -/
def deliver (s : St) (r : Res) : St := { s with cb := .destroyed, results := s.results ++ [r] }

/-- The producer's nested run has ended, so the enclosing `request_stop()` may return. -/
def nestOver (s : St) (l : Loc) : Bool := s.ploc != l || s.p == .running || s.p == .done

def step (s : St) : Act → Option St
  | .finish loc o throws =>
    if s.p = .running ∧ o ≠ .exn ∧
        (loc = .own ∨ (loc = .inK ∧ s.k = .stopReq) ∨ (loc = .inC ∧ s.c = .abStop)) then
      some { touch s with p := .xchg, ploc := loc, stored := some (if throws then .exn else o) }
    else none
  | .p => match s.p with
    | .xchg =>
      let s := touch s
      let s1 := { s with reg := .self }
      match s.reg with
      | .null => some { s1 with p := .done }
      | .self => some { s1 with p := .destroy }
      | .selfp1 => some { s1 with p := .done }
      | .rcvr => some { s1 with p := .callback, nested := s.ploc == .inK }
    | .callback =>
      if cbFree s (s.ploc == .inK) then some { deliver (touch s) (s.stored.getD .exn) with p := .destroy } else none
    | .destroy => some { destroy s with p := .done }
    | _ => none
  | .k => match s.k with
    | .stopReq => if nestOver s .inK then some { touch s with k := .cas } else none
    | .cas =>
      let s := touch s
      match s.reg with
      | .null => some { s with reg := .selfp1, k := .ret }
      | .rcvr => some { s with k := .xchg }
      | _ => some { s with k := .ret }
    | .xchg =>
      let s := touch s
      if s.reg = .rcvr then some { s with reg := .self, k := .complete }
      else some { s with reg := .self, k := .ret }
    | .complete => some { deliver s .stopped with k := .ret }
    | .ret =>
      let s1 := { s with k := .done, cb := if s.cb = .running then .returned else s.cb }
      if s.kInC then some { s1 with c := .cas } else some s1
    | _ => none
  | .c => match s.c with
    | .cas =>
      let s := touch s
      match s.reg with
      | .null => some { s with reg := .rcvr, c := .done }
      | .selfp1 => some { s with c := .xchg }
      | _ => some { s with c := .consume }
    | .xchg =>
      let s := touch s
      if s.reg = .self then some { s with reg := .self, c := .consume }
      else some { s with reg := .self, c := .setStopped }
    | .consume =>
      if cbFree s false then some { deliver (touch s) (s.stored.getD .exn) with c := .destroy } else none
    | .setStopped => if cbFree s false then some { deliver s .stopped with c := .done } else none
    | .destroy => some { destroy s with c := .done }
    | .abStop => if nestOver s .inC then some { touch s with c := .abXchg } else none
    | .abXchg =>
      let s := touch s
      if s.reg = .null then some { s with reg := .self, c := .done }
      else some { s with reg := .self, c := .destroy }
    | _ => none
  | .start throws =>
    if s.c = .idle then
      if throws then some { s with c := .threw, started := true, threw := true, results := s.results ++ [.exn] }
      else if s.stop then
        some { s with c := .constructing, started := true, cb := .running, k := .stopReq, kInC := true, workStop := true }
      else some { s with c := .cas, started := true, cb := .armed }
    else none
  | .abandon =>
    if s.c = .idle then some { s with c := .abStop, abandoned := true, workStop := true }
    else if s.c = .threw then some { s with c := .abStop, workStop := true } else none
  | .stop =>
    if s.stop = false then
      let s := { s with stop := true }
      if s.cb = .armed then some { touch s with cb := .running, k := .stopReq, workStop := true } else some s
    else none

def init : St := {}
abbrev Reachable (s : St) : Prop := Reach init step s

end Verif.SpawnFuture
