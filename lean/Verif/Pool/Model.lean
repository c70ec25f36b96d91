import Verif.PoolSleep.Progress
/-!
# `static_thread_pool` as a whole — model

The pool of `/repo/include/exec/static_thread_pool.hpp` with `N` workers (any `N`), each of them the worker of
`Verif.PoolSleep` (its remote, pending and local queues, sleep and notification at the granularity of the
atomics).  The workers share the list of remote queues (151-217) and steal from one another (541-573, 1016-1041):
what leaves the local queue of the victim is what the thief executes, with the victim's index as the `tid`
argument of `execute_` (1028, 801-806).
-/
namespace Verif.Pool
open Verif.PoolSleep (Task)

structure St where
  /-- The workers. -/
  w : Nat → PoolSleep.St
  /-- What was submitted so far: `(worker, task)` (891-976, 1043-1055). -/
  submitted : List (Nat × Task)
  /-- Executions so far: `(executing worker, tid argument, task)` (801-806). -/
  log : List (Nat × Nat × Task)

/-- 733-777: the workers are constructed. -/
def init : St := { w := fun _ => PoolSleep.init, submitted := [], log := [] }

inductive Act
  /-- a step of, or on, worker `i` that involves no other worker -/
  | on (i : Nat) (a : PoolSleep.Act)
  /-- some thread registers a remote queue, for all workers (194-216) -/
  | reg (q : Nat)
  /-- worker `u` steals the task after the first `k` of worker `v`'s local queue -/
  | thief (u v k : Nat)
  deriving DecidableEq

/-- Steps that concern several workers; they have their own constructors in `Act`. -/
def shared : PoolSleep.Act → Bool
  | .reg _ | .steal _ | .wTake _ => true
  | _ => false

/-- What was appended to a list. -/
def added (old new : List Task) : List Task := new.drop old.length

def step (N : Nat) (s : St) : Act → Option St
  | .on i a =>
      if i < N ∧ shared a = false then
        match PoolSleep.step (s.w i) a with
        | none => none
        | some w' => some { w := upd s.w i w'
                            submitted := s.submitted ++ (added (s.w i).subm w'.subm).map (fun x => (i, x))
                            log := s.log ++ (added (s.w i).done w'.done).map (fun x => (i, i, x)) }
      else none
  | .reg q =>
      if ∃ i, i < N ∧ q ∈ (s.w i).regs then none
      else some { s with w := fun i => if i < N then { s.w i with regs := q :: (s.w i).regs } else s.w i }
  | .thief u v k =>
      -- 618-634: a worker is not its own victim
      if u < N ∧ v < N ∧ u ≠ v then
        match (s.w v).loc[k]?, PoolSleep.step (s.w v) (.steal k) with
        | some x, some v' => match PoolSleep.step (s.w u) (.wTake x) with
          | some u' => some { s with w := upd (upd s.w v v') u u', log := s.log ++ [(u, v, x)] }
          | none => none
        | _, _ => none
      else none

abbrev Reachable (N : Nat) (s : St) : Prop := Reach init (step N) s

end Verif.Pool
