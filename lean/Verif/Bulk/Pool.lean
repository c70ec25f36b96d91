import Verif.Common
import Verif.Count
import Verif.Bulk.Share
/-!
# `bulk` on `static_thread_pool` — model

Models `/repo/include/exec/static_thread_pool.hpp` lines 1358-1450 (`_bulk_shared_state`,
`bulk_task::do_execute_`), 1465-1515 (`_bulk_receiver`), 927-941 (`bulk_enqueue`) and
`/repo/include/stdexec/__detail/__bulk.hpp` lines 181-195 (`__as_bulk_chunked_fn`, the loop that
calls the user function once per index).

Task `i` is pushed to worker queue `i` and executed with `tid` = the index of the queue it came from
(lines 801-806, 992-1028: also when it was stolen), so agent `i` runs `even_share(shape, i, total)`.
Which worker executes it, and when, is arbitrary. Steps: one per user-function call, one per atomic
access. The user function may throw any exception at any index.
-/
namespace Verif.Bulk

abbrev Exc := Nat

/-- Program counter of one agent (`bulk_task`). -/
inductive Pc
  | waiting                        -- not yet enqueued
  | ready                          -- enqueued, `do_execute_` not started
  | run (i : Nat)                  -- in the loop over `[begin,end)`, next index `i`
  | threw (i : Nat) (e : Exc)      -- line 1427: `fun(i)` threw `e`
  | owner (i : Nat) (e : Exc)      -- line 1436: won the compare-exchange, about to store `exception_`
  | fin (i : Nat)                  -- line 1440: about to `fetch_add`; the loop stopped at `i`
  | done (i : Nat)
  deriving DecidableEq, Repr

/-- Observable events. -/
inductive Ev
  | call (i : Nat)                 -- the user function is called with index `i`
  | value                          -- `set_value(rcvr, data...)`
  | error (e : Exc)                -- `set_error(rcvr, e)`
  deriving DecidableEq, Repr

structure St where
  started : Bool                   -- the predecessor has completed with values
  enq : Nat                        -- number of tasks enqueued so far
  pc : Nat → Pc
  finished : Nat                   -- `finished_threads_`
  owner : Option Nat               -- `thread_with_exception_` (`none` = `total_threads`)
  exc : Option Exc                 -- `exception_`
  log : List Ev                    -- ghost, newest first
  thrown : List Exc                -- ghost: exceptions thrown by the user function
  alive : Bool                     -- the operation state may still be used (false once completed)
  ub : Bool                        -- the operation state was used after completion

def init : St :=
  { started := false, enq := 0, pc := fun _ => .waiting, finished := 0, owner := none, exc := none,
    log := [], thrown := [], alive := true, ub := false }

/-- Lines 1381-1389: `num_agents_required`. -/
def agents (parallelize : Bool) (shape par : Nat) : Nat :=
  if parallelize then min shape par else 1

inductive Act
  | pred                           -- lines 1478-1502: the predecessor completes with values
  | enqueue                        -- one iteration of the loop in `bulk_enqueue`
  | start (a : Nat)
  | call (a : Nat)                 -- one loop iteration, the function returns
  | throws (a : Nat) (e : Exc)     -- one loop iteration, the function throws
  | cas (a : Nat)
  | store (a : Nat)
  | finish (a : Nat)
  deriving DecidableEq, Repr

/-- `shape` = the bulk shape, `total` = `num_agents_required()`. -/
def step (shape total : Nat) (s : St) : Act → Option St
  | .pred =>
      if s.started then none
      else if shape = 0 then           -- 1498-1502: complete immediately
        some { s with started := true, enq := total, log := .value :: s.log, alive := false }
      else some { s with started := true }
  | .enqueue =>
      if s.started ∧ s.enq < total then
        some { s with enq := s.enq + 1, pc := upd s.pc s.enq .ready, ub := s.ub || !s.alive }
      else none
  | .start a =>
      if s.pc a = .ready then
        some { s with pc := upd s.pc a (.run (share shape a total).1), ub := s.ub || !s.alive }
      else none
  | .call a =>
      match s.pc a with
      | .run i =>
          if i ≠ (share shape a total).2 then
            some { s with pc := upd s.pc a (.run (i + 1)), log := .call i :: s.log,
                          ub := s.ub || !s.alive }
          else some { s with pc := upd s.pc a (.fin i), ub := s.ub || !s.alive }
      | _ => none
  | .throws a e =>
      match s.pc a with
      | .run i =>
          if i ≠ (share shape a total).2 then
            some { s with pc := upd s.pc a (.threw i e), log := .call i :: s.log,
                          thrown := e :: s.thrown, ub := s.ub || !s.alive }
          else none
      | _ => none
  | .cas a =>
      match s.pc a with
      | .threw i e =>
          if s.owner = none then
            some { s with owner := some a, pc := upd s.pc a (.owner i e), ub := s.ub || !s.alive }
          else some { s with pc := upd s.pc a (.fin (i + 1)), ub := s.ub || !s.alive }
      | _ => none
  | .store a =>
      match s.pc a with
      | .owner i e =>
          some { s with exc := some e, pc := upd s.pc a (.fin (i + 1)), ub := s.ub || !s.alive }
      | _ => none
  | .finish a =>
      match s.pc a with
      | .fin i =>
          if s.finished + 1 = total then
            some { s with finished := s.finished + 1, pc := upd s.pc a (.done i), alive := false,
                          log := (match s.exc with | some e => .error e | none => .value) :: s.log,
                          ub := s.ub || !s.alive }
          else some { s with finished := s.finished + 1, pc := upd s.pc a (.done i),
                             ub := s.ub || !s.alive }
      | _ => none

/-- Reachable states for a given shape and number of agents. -/
abbrev Reachable (shape total : Nat) (s : St) : Prop := Reach init (step shape total) s

end Verif.Bulk
