import Verif.WM.Machine
import Verif.Count
/-!
# The end of a `run_loop` under the C++ memory model — model (C98)

`/repo/include/stdexec/__detail/__run_loop.hpp` 55-215 with `__atomic_intrusive_queue.hpp` 46-81 on the machine of `Verif.WM.Machine`.
Thread 0 is in `run`, and destroys the loop when `run` returns; thread 1 calls `finish`; thread `i + 2`, for each `i < n`, starts one
operation; tasks executed by thread 0 start further ones.
Simplifications: the queue is represented by its length (C95 is about its nodes), a push by the compare-exchange that succeeds;
`wait_for_item` is repeated loads; `finish` is called once; no operation is started from another thread once `finish` was called
(nothing would keep the loop alive for it); the notification at the end of the push of an operation is left out, because nothing
protects it (`Verif.RunLoop.C09_start_false`): what `finish` does after its push is modelled.
-/
namespace Verif.WmLoop

open Verif.WM

/-- The atomic objects (`__run_loop.hpp` 211-213). -/
inductive Loc
  /-- `__task_count_` -/
  | cnt
  /-- `__finishing_` -/
  | fin
  /-- the head of `__queue_` -/
  | q
  deriving DecidableEq, Repr

inductive What
  /-- some member of the loop is used -/
  | use
  /-- the loop is destroyed -/
  | destroy
  deriving DecidableEq, Repr

structure Acc where
  who : Nat
  what : What
  deriving DecidableEq, Repr

/-- All uses are atomic: only the destruction conflicts, with everything. -/
def conf (a b : Acc) : Bool := a.what == .destroy || b.what == .destroy

structure Cfg where
  /-- threads that start operations -/
  n : Nat
  /-- `start`: count (:174, release) -/
  ordA : Ord
  /-- compare-exchange of a push (`__atomic_intrusive_queue.hpp` 57, acq_rel) -/
  ordP : Ord
  /-- `finish`: count (:96, release) -/
  ordF : Ord
  /-- `finish`: exchange of the flag (:97, acq_rel) -/
  ordX : Ord
  /-- `finish`: uncount (:105, release) -/
  ordU : Ord
  /-- `run`: load of the flag (:65, acquire) -/
  ordL : Ord
  /-- `wait_for_item`: load of the head (`__atomic_intrusive_queue.hpp` 75, seq_cst) -/
  ordW : Ord
  /-- `pop_all` (`__atomic_intrusive_queue.hpp` 81, acquire) -/
  ordQ : Ord
  /-- `__execute_all`: uncount (:206, release) -/
  ordS : Ord
  /-- `run`: load of the count (:79, acquire) -/
  ordC : Ord

/-- A thread that starts an operation (:172-176). -/
inductive SC
  | idle | push | done
  deriving DecidableEq, Repr

/-- `finish` (:90-110). -/
inductive FC
  /-- not called; first step: count two (:96) -/
  | idle
  /-- exchange the flag (:97) -/
  | exch
  /-- push the empty task (:102) -/
  | push
  /-- the push notifies (`__atomic_intrusive_queue.hpp` 69) -/
  | note
  /-- uncount one (:105) -/
  | sub
  | done
  deriving DecidableEq, Repr

/-- `run` (:62-88). -/
inductive RC
  /-- load the flag (:65) -/
  | top
  /-- wait for an item (:67) -/
  | wait
  /-- `__execute_all` dequeues (:183) -/
  | pop
  /-- `__execute_all` executes, then uncounts (:194-206) -/
  | exec
  /-- load the count (:79) -/
  | chk
  /-- `run` has returned -/
  | exit
  /-- the loop was destroyed -/
  | gone
  deriving DecidableEq, Repr

structure St where
  m : Mem Loc Acc
  st : Nat → SC
  f : FC
  r : RC
  /-- `run` is in the second loop (:73) -/
  drain : Bool
  /-- size of the batch that was dequeued and not yet uncounted -/
  b : Nat
  /-- tasks of it not yet executed -/
  left : Nat
  /-- a task is in `start`, and has counted -/
  nest : Bool
  /-- how many tasks were counted, the empty task not among them -/
  started : Nat
  /-- how many tasks were executed -/
  ran : Nat
  /-- ghost: newest messages -/
  kc : Nat
  kf : Nat
  kq : Nat
  /-- ghost: length of the queue -/
  nq : Nat
  /-- ghost: the message in which `finish` counted -/
  p2 : Nat

def init : St :=
  { m := .init fun _ => 0, st := fun _ => .idle, f := .idle, r := .top, drain := false, b := 0, left := 0, nest := false,
    started := 0, ran := 0, kc := 0, kf := 0, kq := 0, nq := 0, p2 := 0 }

inductive Act
  /-- thread `i + 2` goes on -/
  | start (i ts : Nat)
  /-- `finish` goes on -/
  | finish (ts : Nat)
  /-- `run` goes on -/
  | run (ts : Nat)
  /-- the task that is executed starts an operation -/
  | nest (ts : Nat)
  deriving DecidableEq, Repr

/-- Use of the loop by `t`. -/
abbrev use (t : Nat) : Acc := ⟨t, .use⟩

/-- `start` on thread `i + 2` (:172-176). -/
def stepStart (c : Cfg) (s : St) (i ts : Nat) : Option St :=
  match s.st i with
  | .idle =>
    if i < c.n ∧ s.f = .idle then
      (s.m.rmw conf c.ordA (i + 2) .cnt ts (· + 1) (use (i + 2))).map fun r =>
        { s with m := r.2, kc := ts + 1, st := upd s.st i .push, started := s.started + 1 }
    else none
  | .push =>
    (s.m.rmw conf c.ordP (i + 2) .q ts (· + 1) (use (i + 2))).map fun r =>
      { s with m := r.2, kq := ts + 1, nq := s.nq + 1, st := upd s.st i .done }
  | .done => none

/-- `finish` (:90-110). -/
def stepFinish (c : Cfg) (s : St) (ts : Nat) : Option St :=
  match s.f with
  | .idle => (s.m.rmw conf c.ordF 1 .cnt ts (· + 2) (use 1)).map fun r => { s with m := r.2, kc := ts + 1, p2 := ts + 1, f := .exch }
  | .exch => (s.m.rmw conf c.ordX 1 .fin ts (fun _ => 1) (use 1)).map fun r => { s with m := r.2, kf := ts + 1, f := .push }
  | .push => (s.m.rmw conf c.ordP 1 .q ts (· + 1) (use 1)).map fun r => { s with m := r.2, kq := ts + 1, nq := s.nq + 1, f := .note }
  | .note => some { s with m := s.m.touch conf 1 (use 1), f := .sub }
  | .sub => (s.m.rmw conf c.ordU 1 .cnt ts (· - 1) (use 1)).map fun r => { s with m := r.2, kc := ts + 1, f := .done }
  | .done => none

/-- `run` (:62-88) with `__execute_all` (:179-208). -/
def stepRun (c : Cfg) (s : St) (ts : Nat) : Option St :=
  match s.r with
  | .top =>
    (s.m.load conf c.ordL 0 .fin ts (use 0)).map fun r =>
      if r.1 = 0 then { s with m := r.2, r := .wait } else { s with m := r.2, drain := true, r := .pop }
  | .wait => (s.m.load conf c.ordW 0 .q ts (use 0)).map fun r => { s with m := r.2, r := if r.1 = 0 then .wait else .pop }
  | .pop =>
    (s.m.rmw conf c.ordQ 0 .q ts (fun _ => 0) (use 0)).map fun r =>
      { s with m := r.2, kq := ts + 1, nq := 0, b := r.1, left := r.1, r := if r.1 = 0 then (if s.drain then .chk else .top) else .exec }
  | .exec =>
    if 0 < s.left then some { s with left := s.left - 1, ran := s.ran + 1 }
    else if s.nest then none
    else
      (s.m.rmw conf c.ordS 0 .cnt ts (· - s.b) (use 0)).map fun r =>
        { s with m := r.2, kc := ts + 1, b := 0, r := if s.drain then .pop else .top }
  | .chk => (s.m.load conf c.ordC 0 .cnt ts (use 0)).map fun r => { s with m := r.2, r := if r.1 = 0 then .exit else .pop }
  | .exit => some { s with m := s.m.touch conf 0 ⟨0, .destroy⟩, r := .gone }
  | .gone => none

/-- An executed task starts an operation (:172-176 on thread 0). -/
def stepNest (c : Cfg) (s : St) (ts : Nat) : Option St :=
  if s.r = .exec then
    if s.nest then
      (s.m.rmw conf c.ordP 0 .q ts (· + 1) (use 0)).map fun r => { s with m := r.2, kq := ts + 1, nq := s.nq + 1, nest := false }
    else
      (s.m.rmw conf c.ordA 0 .cnt ts (· + 1) (use 0)).map fun r =>
        { s with m := r.2, kc := ts + 1, nest := true, started := s.started + 1 }
  else none

/-- One step. -/
def step (c : Cfg) (s : St) : Act → Option St
  | .start i ts => stepStart c s i ts
  | .finish ts => stepFinish c s ts
  | .run ts => stepRun c s ts
  | .nest ts => stepNest c s ts

abbrev Reachable (c : Cfg) (s : St) : Prop := Reach init (step c) s

/-- The orders in the code. -/
def code (n : Nat) : Cfg := ⟨n, .rel, .ar, .rel, .ar, .rel, .acq, .acq, .acq, .rel, .acq⟩

/-- The orders that matter are at least as strong as in the code. -/
def Cfg.good (c : Cfg) : Prop :=
  c.ordP.isRel = true ∧ c.ordX.isRel = true ∧ c.ordU.isRel = true ∧ c.ordL.isAcq = true ∧ c.ordQ.isAcq = true ∧ c.ordC.isAcq = true

end Verif.WmLoop
