import Verif.WM.Machine
/-!
# Awaiting a sender under the C++ memory model — model (C97)

`/repo/include/stdexec/__detail/__as_awaitable.hpp` 278-306 (`__async_receiver::__done`) and 325-355 (`__sender_awaiter::await_suspend`)
on the machine of `Verif.WM.Machine`. Thread 1 suspends the coroutine and starts the operation; the operation completes inside `start`,
later on thread 1 (after `await_suspend` has returned), or at any time on thread 2, to which `start` hands it (which synchronises).
`__thread_id_` is `tid`: 0 is `thread::id{}`, `t` the id of thread `t`.
Simplifications: one await (each `co_await` makes its own awaiter); the workaround for MSVC is not modelled; resuming the coroutine,
which may destroy the frame and with it the awaiter, is one access in conflict with every other.
-/
namespace Verif.WmAwait

open Verif.WM

/-- The atomic object `__thread_id_`. -/
inductive Loc
  | tid
  deriving DecidableEq, Repr

inductive What
  /-- the awaiter is made (`__as_awaitable.hpp` 318-323) -/
  | make
  /-- the coroutine and `start` use the frame -/
  | frame
  /-- the completion stores the result in the awaiter -/
  | result
  /-- `__thread_id_` is accessed -/
  | atom
  /-- the coroutine is resumed: uses, perhaps destroys, everything -/
  | resume
  deriving DecidableEq, Repr

structure Acc where
  who : Nat
  what : What
  deriving DecidableEq, Repr

/-- Accesses to the same part of the frame conflict, unless both are atomic; making the awaiter and resuming conflict with all. -/
def conf (a b : Acc) : Bool :=
  match a.what, b.what with
  | .make, _ => true
  | _, .make => true
  | .resume, _ => true
  | _, .resume => true
  | .frame, .frame => true
  | .result, .result => true
  | _, _ => false

structure Cfg where
  /-- the exchange in `await_suspend` (:347, release) -/
  ordS : Ord
  /-- the load that begins `__done` (:282, relaxed) -/
  ordB : Ord
  /-- the store of an inline completion (:289, relaxed) -/
  ordI : Ord
  /-- the exchange in `__done` (:294, acquire) -/
  ordX : Ord
  /-- the load in the loop (:301, acquire) -/
  ordW : Ord
  /-- the operation completes on thread 2 -/
  remote : Bool

/-- Thread 1. -/
inductive PC
  /-- about to suspend -/
  | idle
  /-- inside `start` (:338) -/
  | start
  /-- `start` has returned, to exchange (:347) -/
  | exch
  /-- resumes by symmetric transfer (:350) -/
  | resume
  /-- has suspended -/
  | susp
  | fin
  deriving DecidableEq, Repr

/-- The completion of the operation. -/
inductive DC
  /-- has not begun -/
  | idle
  /-- to load the id (:282) -/
  | load
  /-- completed inside `start`: to clear the id (:289) -/
  | clear
  /-- to exchange (:294) -/
  | exch
  /-- in the loop (:301) -/
  | spin
  | resume
  | fin
  deriving DecidableEq, Repr

structure St where
  m : Mem Loc Acc
  pc : PC
  d : DC
  /-- thread 2 has been given the operation -/
  spawned : Bool
  /-- how often the coroutine was resumed -/
  resumed : Nat
  /-- ghost: newest message of the id -/
  k : Nat

def init : St := { m := .init fun _ => 1, pc := .idle, d := .idle, spawned := false, resumed := 0, k := 0 }

/-- The thread that completes the operation. -/
def Cfg.thr (c : Cfg) : Nat := if c.remote then 2 else 1

inductive Act
  /-- thread 1 goes on; `ts`: message read -/
  | main (ts : Nat)
  /-- `start` uses the frame -/
  | work
  /-- `start` gives the operation to thread 2 -/
  | spawn
  /-- the completion goes on; `ts`: message read or written -/
  | compl (ts : Nat)
  deriving DecidableEq, Repr

/-- Plain access. -/
def acc (s : St) (t : Nat) (w : What) : St := { s with m := s.m.touch conf t ⟨t, w⟩ }

/-- The completion runs inside `start`, on thread 1's stack. -/
def busy (c : Cfg) (s : St) : Bool := !c.remote && s.d != .idle && s.d != .fin

/-- Thread 1 (:325-355). `start` returns only when it has handed the operation over. -/
def stepMain (c : Cfg) (s : St) (ts : Nat) : Option St :=
  match s.pc with
  | .idle => some { acc s 1 .make with pc := .start }
  | .start => if busy c s || (c.remote && !s.spawned) then none else some { s with pc := .exch }
  | .exch =>
    (s.m.rmw conf c.ordS 1 .tid ts (fun _ => 0) ⟨1, .atom⟩).map fun r =>
      { s with m := r.2, k := ts + 1, pc := if r.1 = 0 then .resume else .susp }
  | .resume => some { acc s 1 .resume with pc := .fin, resumed := s.resumed + 1 }
  | .susp => none
  | .fin => none

/-- The operation may complete: on thread 2 once it was spawned, on thread 1 inside `start` or after the suspension. -/
def may (c : Cfg) (s : St) : Bool :=
  if c.remote then s.spawned else s.pc == .start || s.pc == .susp

/-- The completion (:278-306). -/
def stepCompl (c : Cfg) (s : St) (ts : Nat) : Option St :=
  match s.d with
  | .idle => if may c s then some { acc s c.thr .result with d := .load } else none
  | .load =>
    (s.m.load conf c.ordB c.thr .tid ts ⟨c.thr, .atom⟩).map fun r => { s with m := r.2, d := if r.1 = c.thr then .clear else .exch }
  | .clear => (s.m.store conf c.ordI c.thr .tid ts 0 ⟨c.thr, .atom⟩).map fun m => { s with m := m, k := ts, d := .fin }
  | .exch =>
    (s.m.rmw conf c.ordX c.thr .tid ts (fun _ => c.thr) ⟨c.thr, .atom⟩).map fun r =>
      { s with m := r.2, k := ts + 1, d := if r.1 = 0 then .resume else .spin }
  | .spin =>
    (s.m.load conf c.ordW c.thr .tid ts ⟨c.thr, .atom⟩).map fun r => { s with m := r.2, d := if r.1 = 0 then .resume else .spin }
  | .resume => some { acc s c.thr .resume with d := .fin, resumed := s.resumed + 1 }
  | .fin => none

/-- One step. -/
def step (c : Cfg) (s : St) : Act → Option St
  | .main ts => stepMain c s ts
  | .work => if s.pc = .start ∧ busy c s = false then some (acc s 1 .frame) else none
  | .spawn =>
    if c.remote ∧ s.pc = .start ∧ s.spawned = false then some { s with spawned := true, m := s.m.adopt 2 (s.m.cur 1) } else none
  | .compl ts => stepCompl c s ts

abbrev Reachable (c : Cfg) (s : St) : Prop := Reach init (step c) s

/-- The orders in the code. -/
def code (remote : Bool) : Cfg := ⟨.rel, .rlx, .rlx, .acq, .acq, remote⟩

end Verif.WmAwait
