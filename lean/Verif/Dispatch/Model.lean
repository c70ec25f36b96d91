import Verif.Common
import Verif.Count
/-!
# `bulk` on `libdispatch_queue` — model

Models `/repo/include/exec/libdispatch_queue.hpp` lines 340-451 (`bulk_shared_state`, `bulk_task`) and
453-523 (`bulk_receiver`). One task per index; `dispatch_async_f` runs every submitted task once, at
any time after the submission, on any thread (Grand Central Dispatch itself is not modelled).

The counters are `uint32_t` (lines 447-448) and the number of tasks is truncated to `uint32_t`
(lines 356, 426), the shape type may be wider; so the model keeps `shape` as an unbounded natural,
`total = shape mod 2^32`, and the counter modulo `2^32`. Steps: one per user-function call, one per
atomic access, one per test of the submission loop's condition (line 464, which reads
`shared_state_.shape_`). The operation state is freed when the receiver is completed (the receiver
may do that), so every later access is undefined behaviour; the model records which side did it.
-/
namespace Verif.Dispatch

abbrev Exc := Nat

/-- `2^32`, the modulus of the counters (lines 447-448). -/
def M : Nat := 4294967296

/-- Program counter of the task for one index (lines 352-412). -/
inductive Pc
  | waiting                 -- not submitted yet
  | ready                   -- line 467 done: submitted, not started
  | threw (e : Exc)         -- line 374: the function threw
  | owner (e : Exc)         -- line 384: won the compare-exchange, about to store `exception_`
  | fin                     -- line 388: about to `fetch_add`
  | done
  deriving DecidableEq, Repr

/-- Program counter of the thread running `bulk_receiver::set_value` / `enqueue` (lines 460-513). -/
inductive Lp
  | idle                    -- the predecessor has not completed
  | test (i : Nat)          -- line 464: about to test `i != shared_state_.shape_`
  | body (i : Nat)          -- lines 466-467: about to push and submit task `i`
  | exited
  deriving DecidableEq, Repr

/-- Observable events. -/
inductive Ev
  | call (i : Nat)
  | value
  | error (e : Exc)
  | stopped
  deriving DecidableEq, Repr

structure St where
  lp : Lp
  pc : Nat → Pc
  finished : Nat                   -- `finished_tasks_`
  owner : Nat                      -- `task_with_exception_`
  exc : Option Exc                 -- `exception_`
  log : List Ev                    -- ghost, newest first
  thrown : List Exc                -- ghost: exceptions thrown by the function or by copying values,
                                   -- or the predecessor's error
  alive : Bool                     -- not completed yet
  ubTask : Bool                    -- a task touched the operation state after completion
  ubLoop : Bool                    -- the submitting loop touched it after completion

/-- Lines 422-427. -/
def init (shape : Nat) : St :=
  { lp := .idle, pc := fun _ => .waiting, finished := 0, owner := shape % M, exc := none, log := [],
    thrown := [], alive := true, ubTask := false, ubLoop := false }

inductive Act
  | pred                    -- lines 472-504: the predecessor completes with values
  | predThrow (e : Exc)     -- lines 482-489: copying them throws
  | predError (e : Exc)     -- lines 506-510
  | predStopped             -- lines 512-515
  | loop                    -- next step of the submission loop
  | call (a : Nat)          -- line 372: the function is called with `a` and returns
  | throws (a : Nat) (e : Exc)
  | cas (a : Nat)           -- lines 376-382
  | store (a : Nat)         -- line 384
  | finish (a : Nat)        -- lines 388-400
  deriving DecidableEq, Repr

def step (shape : Nat) (s : St) : Act → Option St
  | .pred =>
      if s.lp = .idle then
        if shape = 0 then some { s with lp := .exited, log := .value :: s.log, alive := false }
        else some { s with lp := .test 0 }
      else none
  | .predThrow e =>
      if s.lp = .idle then
        some { s with lp := .exited, log := .error e :: s.log, thrown := e :: s.thrown,
                      alive := false }
      else none
  | .predError e =>
      if s.lp = .idle then
        some { s with lp := .exited, log := .error e :: s.log, thrown := e :: s.thrown,
                      alive := false }
      else none
  | .predStopped =>
      if s.lp = .idle then some { s with lp := .exited, log := .stopped :: s.log, alive := false }
      else none
  | .loop =>
      match s.lp with
      | .test i =>
          if i ≠ shape then some { s with lp := .body i, ubLoop := s.ubLoop || !s.alive }
          else some { s with lp := .exited, ubLoop := s.ubLoop || !s.alive }
      | .body i =>
          some { s with lp := .test (i + 1), pc := upd s.pc i .ready, ubLoop := s.ubLoop || !s.alive }
      | _ => none
  | .call a =>
      if s.pc a = .ready then
        some { s with pc := upd s.pc a .fin, log := .call a :: s.log, ubTask := s.ubTask || !s.alive }
      else none
  | .throws a e =>
      if s.pc a = .ready then
        some { s with pc := upd s.pc a (.threw e), log := .call a :: s.log, thrown := e :: s.thrown,
                      ubTask := s.ubTask || !s.alive }
      else none
  | .cas a =>
      match s.pc a with
      | .threw e =>
          if s.owner = shape % M then
            some { s with owner := a % M, pc := upd s.pc a (.owner e),
                          ubTask := s.ubTask || !s.alive }
          else some { s with pc := upd s.pc a .fin, ubTask := s.ubTask || !s.alive }
      | _ => none
  | .store a =>
      match s.pc a with
      | .owner e =>
          some { s with exc := some e, pc := upd s.pc a .fin, ubTask := s.ubTask || !s.alive }
      | _ => none
  | .finish a =>
      match s.pc a with
      | .fin =>
          if s.finished = (shape + M - 1) % M then     -- `fetch_add(1) == (total_tasks - 1)`
            some { s with finished := (s.finished + 1) % M, pc := upd s.pc a .done, alive := false,
                          log := (match s.exc with | some e => .error e | none => .value) :: s.log,
                          ubTask := s.ubTask || !s.alive }
          else some { s with finished := (s.finished + 1) % M, pc := upd s.pc a .done,
                             ubTask := s.ubTask || !s.alive }
      | _ => none

abbrev Reachable (shape : Nat) (s : St) : Prop := Reach (init shape) (step shape) s

/-- Specification: is this event a completion of the receiver? -/
def isCompletion : Ev → Bool
  | .call _ => false
  | _ => true

end Verif.Dispatch
